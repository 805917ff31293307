import Verif.Lemmas.MapM
import Verif.Spec.PatchSolid
import Verif.Props.PatchGenerate

/-!
# C112: edges of deformed material patches in three dimensions
-/

noncomputable section

namespace Hooke

open Spec Matrix

/-! ### Vectors -/

theorem dot3 (v w : Vec3) : v ⬝ᵥ w = v 0 * w 0 + v 1 * w 1 + v 2 * w 2 := by
  simp [dotProduct, Fin.sum_univ_three]

theorem norm3_nonneg (v : Vec3) : 0 ≤ norm3 v := Real.sqrt_nonneg _

theorem dot3_self_nonneg (v : Vec3) : 0 ≤ v ⬝ᵥ v := by
  rw [dot3]; nlinarith [sq_nonneg (v 0), sq_nonneg (v 1), sq_nonneg (v 2)]

theorem norm3_sq (v : Vec3) : norm3 v ^ 2 = v ⬝ᵥ v := Real.sq_sqrt (dot3_self_nonneg v)

theorem norm3_eq_zero {v : Vec3} : norm3 v = 0 ↔ v = 0 := by
  unfold norm3
  rw [Real.sqrt_eq_zero (dot3_self_nonneg v), dot3]
  constructor
  · intro h
    ext r
    fin_cases r <;> simp <;> nlinarith [sq_nonneg (v 0), sq_nonneg (v 1), sq_nonneg (v 2)]
  · rintro rfl
    simp

theorem cross_cross_unit {e g : Vec3} (he : e ⬝ᵥ e = 1) : e ⨯₃ (g ⨯₃ e) = g - (e ⬝ᵥ g) • e := by
  rw [dot3] at he
  ext r
  simp only [Pi.smul_apply, Pi.sub_apply, smul_eq_mul, cross_apply, dot3]
  fin_cases r <;> simp
  · linear_combination g 0 * he
  · linear_combination g 1 * he
  · linear_combination g 2 * he

theorem norm3_normalize {v : Vec3} (h : norm3 v ≠ 0) :
    ((1 / norm3 v) • v) ⬝ᵥ ((1 / norm3 v) • v) = 1 := by
  rw [smul_dotProduct, dotProduct_smul, ← norm3_sq]
  simp only [smul_eq_mul]
  field_simp

/-- The rows of the frame of an edge. -/
theorem edgeFrame3_spec {a b c d : Vec3} {R : Matrix (Fin 3) (Fin 3) ℝ}
    (h : edgeFrame3 a b c d = .ok R) :
    R * Rᵀ = 1 ∧ 0 < norm3 (b - a) ∧ b = a + norm3 (b - a) • R 0 ∧ R 1 ⬝ᵥ (d - c) < 0 ∧
      ∃ s t : ℝ, R 1 = s • R 0 + t • (d - c) := by
  unfold edgeFrame3 at h
  simp only at h
  split_ifs at h with h0
  cases h
  push Not at h0
  obtain ⟨h1, h2, h3⟩ := h0
  have he := norm3_normalize h1
  have hd := norm3_normalize h2
  have ho := norm3_normalize h3
  set e := (1 / norm3 (b - a)) • (b - a) with hedef
  set g := (1 / norm3 (d - c)) • (d - c) with hgdef
  set w := g ⨯₃ e with hwdef
  set o := (1 / norm3 w) • w with hodef
  have heo : e ⬝ᵥ o = 0 := by
    rw [hodef, dotProduct_smul, hwdef, dot_cross_self, smul_zero]
  have hoe : o ⬝ᵥ e = 0 := by rw [dotProduct_comm, heo]
  have hνν : (-(e ⨯₃ o)) ⬝ᵥ (-(e ⨯₃ o)) = 1 := by
    rw [neg_dotProduct, dotProduct_neg, neg_neg, cross_dot_cross, he, ho, heo, hoe]; ring
  have heν : e ⬝ᵥ (-(e ⨯₃ o)) = 0 := by rw [dotProduct_neg, dot_self_cross, neg_zero]
  have hoν : o ⬝ᵥ (-(e ⨯₃ o)) = 0 := by rw [dotProduct_neg, dot_cross_self, neg_zero]
  have hwpos : 0 < norm3 w := lt_of_le_of_ne (norm3_nonneg _) (Ne.symm h3)
  have hdpos : 0 < norm3 (d - c) := lt_of_le_of_ne (norm3_nonneg _) (Ne.symm h2)
  have hdc : d - c = norm3 (d - c) • g := by
    rw [hgdef, smul_smul, mul_one_div, div_self h2, one_smul]
  -- the second row in the plane
  have hν : -(e ⨯₃ o) = (1 / norm3 w) • ((e ⬝ᵥ g) • e - g) := by
    rw [hodef, map_smul, hwdef, cross_cross_unit he, ← smul_neg, neg_sub]
  refine ⟨?_, lt_of_le_of_ne (norm3_nonneg _) (Ne.symm h1), ?_, ?_, ?_⟩
  · ext i j
    rw [Matrix.mul_apply]
    have : ∑ x, (Matrix.of ![e, -(e ⨯₃ o), o]) i x * (Matrix.of ![e, -(e ⨯₃ o), o])ᵀ x j =
        (![e, -(e ⨯₃ o), o] i) ⬝ᵥ (![e, -(e ⨯₃ o), o] j) := rfl
    rw [this]
    fin_cases i <;> fin_cases j <;>
      simp only [Fin.zero_eta, Fin.mk_one, Fin.reduceFinMk, cons_val_zero, cons_val_one, cons_val]
    · simpa using he
    · simpa using heν
    · simpa using heo
    · rw [dotProduct_comm]; simpa using heν
    · simpa using hνν
    · rw [dotProduct_comm]; simpa using hoν
    · simpa using hoe
    · simpa using hoν
    · simpa using ho
  · change b = a + norm3 (b - a) • e
    rw [hedef, smul_smul, mul_one_div, div_self h1, one_smul]
    abel
  · change (-(e ⨯₃ o)) ⬝ᵥ (d - c) < 0
    rw [hdc, dotProduct_smul, hν, smul_dotProduct, sub_dotProduct, smul_dotProduct, hd]
    have hcc : w ⬝ᵥ w = (g ⬝ᵥ g) * (e ⬝ᵥ e) - (g ⬝ᵥ e) * (e ⬝ᵥ g) := by
      rw [hwdef, cross_dot_cross]
    rw [hd, he, ← norm3_sq, dotProduct_comm g e] at hcc
    simp only [smul_eq_mul]
    have : e ⬝ᵥ g * e ⬝ᵥ g - 1 < 0 := by nlinarith
    have h4 : 1 / norm3 w * (e ⬝ᵥ g * e ⬝ᵥ g - 1) < 0 :=
      mul_neg_of_pos_of_neg (by positivity) this
    exact mul_neg_of_pos_of_neg hdpos h4
  · refine ⟨1 / norm3 w * e ⬝ᵥ g, -(1 / norm3 w * (1 / norm3 (d - c))), ?_⟩
    change -(e ⨯₃ o) = (1 / norm3 w * e ⬝ᵥ g) • e + -(1 / norm3 w * (1 / norm3 (d - c))) • (d - c)
    rw [hν, neg_smul, mul_smul, smul_sub, mul_smul (1 / norm3 w), ← hgdef, sub_eq_add_neg]

/-! ### Local coordinates -/

theorem mulVec_apply3 (R : Matrix (Fin 3) (Fin 3) ℝ) (x : Vec3) (r : Fin 3) :
    (R *ᵥ x) r = R r ⬝ᵥ x := rfl

theorem toLocal3_eq (R : Matrix (Fin 3) (Fin 3) ℝ) (a x : Vec3) :
    toLocal3 R a x = (R 0 ⬝ᵥ (x - a), R 1 ⬝ᵥ (x - a)) := by
  simp only [toLocal3, Pi.sub_apply, mulVec_apply3, dotProduct_sub]

theorem fromLocal3_eq (R : Matrix (Fin 3) (Fin 3) ℝ) (a : Vec3) (y : ℝ × ℝ) :
    fromLocal3 R a y = a + y.1 • R 0 + y.2 • R 1 := by
  ext r
  simp only [fromLocal3, sub_neg_eq_add, Pi.add_apply, Pi.smul_apply, smul_eq_mul, mulVec_apply3, dot3]
  simp [Matrix.transpose_apply]
  ring

theorem frame_rows {R : Matrix (Fin 3) (Fin 3) ℝ} (h : R * Rᵀ = 1) :
    R 0 ⬝ᵥ R 0 = 1 ∧ R 1 ⬝ᵥ R 1 = 1 ∧ R 0 ⬝ᵥ R 1 = 0 ∧ R 1 ⬝ᵥ R 0 = 0 := by
  have key : ∀ i j, R i ⬝ᵥ R j = (1 : Matrix (Fin 3) (Fin 3) ℝ) i j := by
    intro i j
    rw [← h]
    rfl
  exact ⟨by rw [key]; simp, by rw [key]; simp, by rw [key]; simp, by rw [key]; simp⟩

/-- The reference nodes of an edge in the frame. -/
theorem local_step (R : Matrix (Fin 3) (Fin 3) ℝ) (a A B : Vec3) (n k : ℕ) :
    toLocal3 R a (edgeRef3 n A B (k + 1)) - toLocal3 R a (edgeRef3 n A B k) =
      (1 / ((n : ℝ) - 1)) • (R 0 ⬝ᵥ (B - A), R 1 ⬝ᵥ (B - A)) := by
  rw [toLocal3_eq, toLocal3_eq]
  refine Prod.ext ?_ ?_ <;>
  · simp only [Prod.fst_sub, Prod.snd_sub, Prod.smul_fst, Prod.smul_snd, smul_eq_mul, ← dotProduct_sub]
    rw [dot3, dot3]
    simp [edgeRef3]
    ring

theorem local_sorted (R : Matrix (Fin 3) (Fin 3) ℝ) (a A B : Vec3) {n : ℕ} (hn : 2 ≤ n) :
    SortedAscend n (fun k => toLocal3 R a (edgeRef3 n A B k)) ∨
      SortedDescend n (fun k => toLocal3 R a (edgeRef3 n A B k)) := by
  have hn0 : (0 : ℝ) < (n : ℝ) - 1 := by
    have : (2 : ℝ) ≤ n := by exact_mod_cast hn
    linarith
  have hst := fun k => congrArg Prod.fst (local_step R a A B n k)
  simp only [Prod.fst_sub, Prod.smul_fst, smul_eq_mul] at hst
  rcases le_total 0 (R 0 ⬝ᵥ (B - A)) with h | h
  · left
    intro k _
    have h4 : 0 ≤ 1 / ((n : ℝ) - 1) * R 0 ⬝ᵥ (B - A) := by positivity
    have := hst k
    simp only
    linarith
  · right
    intro k _
    have h4 : 1 / ((n : ℝ) - 1) * R 0 ⬝ᵥ (B - A) ≤ 0 :=
      mul_nonpos_of_nonneg_of_nonpos (by positivity) h
    have := hst k
    simp only
    linarith

/-- With two nodes the reference positions do not matter. -/
theorem deformedEdge_two {p p' : ℕ → ℝ × ℝ} {l r : ℝ × ℝ} {order : ℕ} {range : List ℝ} {u : ℕ → ℝ}
    {noise : ℕ → ℝ × ℝ} (hp : SortedAscend 2 p ∨ SortedDescend 2 p)
    (hp' : SortedAscend 2 p' ∨ SortedDescend 2 p') :
    deformedEdge 2 p l r order range u noise = deformedEdge 2 p' l r order range u noise := by
  unfold deformedEdge
  have e : ∀ (q : ℕ → ℝ × ℝ) (i : Decidable (¬ SortedAscend 2 q ∧ ¬ SortedDescend 2 q)),
      (SortedAscend 2 q ∨ SortedDescend 2 q) → @raiseIf _ i .runtimeError = .ok () := by
    intro q i h
    exact raiseIf_ok.mpr (by tauto)
  rw [e p _ hp, e p' _ hp']
  have hm : ∀ c : Fin (2 + (order - 1)) → ℝ,
      (List.range 2).mapM (deformedNode 2 (ascendNodes 2 p) l r c 1000
        (fracPosition (curvePoint l r c 1000) 1000) noise) =
      (List.range 2).mapM (deformedNode 2 (ascendNodes 2 p') l r c 1000
        (fracPosition (curvePoint l r c 1000) 1000) noise) := by
    intro c
    refine mapM_congr_of_mem fun k hk => ?_
    have hk' : k = 1 ∨ k = 0 := by
      have := List.mem_range.mp hk
      omega
    unfold deformedNode
    rcases hk' with rfl | rfl
    · simp only [show (1 = 2 - 1) = True from by simp, if_true]
    · simp only [if_neg (show ¬ 0 = 2 - 1 by decide), if_true]
  simp only [hm]

/-- The nodes of an edge in space, from those in its frame. -/
theorem patchEdge3_of_nodes {n : ℕ} (hn : 2 ≤ n) {p : ℕ → Vec3} {a b c d : Vec3}
    {R : Matrix (Fin 3) (Fin 3) ℝ} (hR : edgeFrame3 a b c d = .ok R) {order : ℕ}
    {lo hi : ℝ} (hlo : lo ≤ hi) {u : ℕ → ℝ} (hu : ∀ i, 0 ≤ u i ∧ u i ≤ 1) {noise : ℕ → ℝ × ℝ}
    {p' : ℕ → ℝ × ℝ} {δ : ℝ} (hδ : 0 < δ) (hp : ∀ k, k + 1 < n → norm2 (p' (k + 1) - p' k) = δ)
    (hs : SortedAscend n p' ∨ SortedDescend n p')
    (heq : deformedEdge n (fun k => toLocal3 R a (p k)) (0, 0) (norm3 (b - a), 0) order [lo, hi] u
      noise = deformedEdge n p' (0, 0) (norm3 (b - a), 0) order [lo, hi] u noise) :
    ∃ nodes, patchEdge3 n p a b c d order [lo, hi] u noise = .ok nodes ∧ nodes.length = n ∧
      IsDeformedEdge3 a b (d - c) order lo hi n noise fun k => nodes.getD k 0 := by
  obtain ⟨hRR, hL, hb, hν, hspan⟩ := edgeFrame3_spec hR
  obtain ⟨h1, h2, h3, h3'⟩ := frame_rows hRR
  obtain ⟨nodes, P, x, hnodes, hlen, hP, hx, h0, hend, hint⟩ := deformedEdge_spec hn hL
    (order := order) hlo hu (noise := noise) hδ hp hs
  refine ⟨nodes.map (fromLocal3 R a), ?_, by simpa using hlen, R 0, R 1, norm3 (b - a), P, x,
    ⟨h1, h2, h3⟩, ⟨hL, hb, hν, hspan⟩, hP, hx, ?_, ?_, ?_⟩
  · unfold patchEdge3
    rw [hR]
    simp only [bind, Except.bind]
    have e1 : toLocal3 R a a = (0, 0) := by rw [toLocal3_eq]; simp
    have e2 : toLocal3 R a b = (norm3 (b - a), 0) := by
      have : b - a = norm3 (b - a) • R 0 := by
        conv_lhs => rw [hb]
        abel
      rw [toLocal3_eq]
      conv_lhs => rw [this]
      rw [dotProduct_smul, dotProduct_smul, h1, h3']
      simp
    rw [e1, e2, heq, hnodes]
    rfl
  · simp only [List.getD_eq_getElem?_getD, List.getElem?_map, h0, Option.map_some, Option.getD_some]
    rw [fromLocal3_eq]
    simp
  · simp only [List.getD_eq_getElem?_getD, List.getElem?_map, hend, Option.map_some, Option.getD_some]
    rw [fromLocal3_eq]
    simp only [zero_smul, add_zero]
    exact hb.symm
  · intro k hk0 hk1
    simp only [List.getD_eq_getElem?_getD, List.getElem?_map, hint k hk0 hk1, Option.map_some,
      Option.getD_some]
    rw [fromLocal3_eq]

theorem proj_pos {R : Matrix (Fin 3) (Fin 3) ℝ} {v : Vec3} {n : ℕ} (hn : 2 ≤ n)
    (h : R 0 ⬝ᵥ v ≠ 0 ∨ R 1 ⬝ᵥ v ≠ 0) :
    0 < norm2 ((1 / ((n : ℝ) - 1)) • (R 0 ⬝ᵥ v, R 1 ⬝ᵥ v)) := by
  have hn0 : (0 : ℝ) < (n : ℝ) - 1 := by
    have : (2 : ℝ) ≤ n := by exact_mod_cast hn
    linarith
  refine lt_of_le_of_ne (norm2_nonneg _) (Ne.symm ?_)
  rw [Ne, norm2_eq_zero, smul_eq_zero, not_or]
  refine ⟨by positivity, fun h' => ?_⟩
  have e1 := congrArg Prod.fst h'
  have e2 := congrArg Prod.snd h'
  simp only [Prod.fst_zero, Prod.snd_zero] at e1 e2
  tauto

/-- **C112a.** Every edge whose corners are not on a line with the diagonal of the face, and which was
not orthogonal to the plane of both before the deformation, is deformed as specified in that plane. -/
theorem C112_edge {n : ℕ} (hn : 2 ≤ n) {A B : Vec3} {a b c d : Vec3}
    (hdeg : (d - c) ⨯₃ (b - a) ≠ 0) (hproj : (b - a) ⬝ᵥ (B - A) ≠ 0 ∨ (d - c) ⬝ᵥ (B - A) ≠ 0)
    {order : ℕ} {lo hi : ℝ} (hlo : lo ≤ hi) {u : ℕ → ℝ} (hu : ∀ i, 0 ≤ u i ∧ u i ≤ 1)
    {noise : ℕ → ℝ × ℝ} :
    ∃ nodes, patchEdge3 n (fun k => A + ((k : ℝ) / ((n : ℝ) - 1)) • (B - A)) a b c d order [lo, hi] u
        noise = .ok nodes ∧ nodes.length = n ∧
      IsDeformedEdge3 a b (d - c) order lo hi n noise fun k => nodes.getD k 0 := by
  have hv : norm3 (b - a) ≠ 0 := by
    intro h
    rw [norm3_eq_zero.mp h] at hdeg
    simp at hdeg
  have hw : norm3 (d - c) ≠ 0 := by
    intro h
    rw [norm3_eq_zero.mp h] at hdeg
    simp at hdeg
  obtain ⟨R, hR⟩ : ∃ R, edgeFrame3 a b c d = .ok R := by
    unfold edgeFrame3
    simp only
    rw [if_neg]
    · exact ⟨_, rfl⟩
    · push Not
      refine ⟨hv, hw, ?_⟩
      rw [Ne, norm3_eq_zero, map_smul, map_smul, LinearMap.smul_apply, smul_eq_zero, smul_eq_zero]
      rintro (h | h | h)
      · simp [hv] at h
      · simp [hw] at h
      · exact hdeg h
  obtain ⟨hRR, hL, hb, hν, s, t, hspan⟩ := edgeFrame3_spec hR
  have href : (fun k : ℕ => A + ((k : ℝ) / ((n : ℝ) - 1)) • (B - A)) = edgeRef3 n A B := by
    funext k r
    simp [edgeRef3]
    ring
  rw [href]
  refine patchEdge3_of_nodes hn hR hlo hu (proj_pos hn (R := R) (v := B - A) ?_)
    (p' := fun k => toLocal3 R a (edgeRef3 n A B k))
    (fun k _ => by rw [local_step]) (local_sorted R a A B hn) rfl
  by_contra hcon
  push Not at hcon
  obtain ⟨h0, h1⟩ := hcon
  rw [hspan, add_dotProduct, smul_dotProduct, smul_dotProduct, h0, smul_zero, zero_add, smul_eq_mul] at h1
  have hba : (b - a) ⬝ᵥ (B - A) = 0 := by
    have : b - a = norm3 (b - a) • R 0 := by
      conv_lhs => rw [hb]
      abel
    rw [this, smul_dotProduct, h0, smul_zero]
  rcases hproj with h | h
  · exact h hba
  · rcases mul_eq_zero.mp h1 with h2 | h2
    · rw [h2, zero_smul, add_zero] at hspan
      obtain ⟨g1, g2, g3, g4⟩ := frame_rows hRR
      rw [hspan, dotProduct_smul, g1] at g3
      rw [hspan] at g2
      simp only [smul_eq_mul, mul_one] at g3
      rw [g3] at g2
      simp at g2
    · exact h h2

/-- An edge that is generated without an error. -/
theorem patchEdge3_of_ok {n : ℕ} (hn : 2 ≤ n) {A B : Vec3} {a b c d : Vec3} {order : ℕ}
    {range : List ℝ} (hr : ∀ lo hi, range = [lo, hi] → lo ≤ hi) {u : ℕ → ℝ}
    (hu : ∀ i, 0 ≤ u i ∧ u i ≤ 1) {noise : ℕ → ℝ × ℝ} {nodes : List Vec3}
    (h : patchEdge3 n (edgeRef3 n A B) a b c d order range u noise = .ok nodes) :
    nodes.length = n ∧ ∃ lo hi, range = [lo, hi] ∧
      IsDeformedEdge3 a b (d - c) order lo hi n noise fun k => nodes.getD k 0 := by
  have h' := h
  unfold patchEdge3 at h'
  obtain ⟨R, hR, h'⟩ := bind_ok h'
  obtain ⟨nd, hnd, -⟩ := bind_ok h'
  have hnd' := hnd
  unfold deformedEdge at hnd'
  replace ⟨_, _, hnd'⟩ := bind_ok hnd'
  replace ⟨_, _, hnd'⟩ := bind_ok hnd'
  obtain ⟨bd, hbd, hnd1⟩ := bind_ok hnd'
  obtain ⟨cf, hcf, hnd2⟩ := bind_ok hnd1
  obtain ⟨lo, hi, rfl⟩ : ∃ lo hi, range = [lo, hi] := by
    unfold rangeOf at hbd
    simp only [orRaise, bind, Except.bind] at hbd
    split at hbd
    · exact ⟨_, _, rfl⟩
    · cases hbd
  have hlo := hr _ _ rfl
  have fin : ∀ nodes', patchEdge3 n (edgeRef3 n A B) a b c d order [lo, hi] u noise = .ok nodes' ∧
      nodes'.length = n ∧ IsDeformedEdge3 a b (d - c) order lo hi n noise (fun k => nodes'.getD k 0) →
      nodes.length = n ∧ ∃ lo' hi', [lo, hi] = [lo', hi'] ∧
      IsDeformedEdge3 a b (d - c) order lo' hi' n noise fun k => nodes.getD k 0 := by
    rintro nodes' ⟨g1, g2, g3⟩
    rw [h] at g1
    cases g1
    exact ⟨g2, lo, hi, rfl, g3⟩
  by_cases hproj : R 0 ⬝ᵥ (B - A) ≠ 0 ∨ R 1 ⬝ᵥ (B - A) ≠ 0
  · obtain ⟨nodes', g⟩ := patchEdge3_of_nodes hn hR hlo hu (noise := noise) (order := order)
      (p := edgeRef3 n A B) (proj_pos hn hproj) (p' := fun k => toLocal3 R a (edgeRef3 n A B k))
      (fun k _ => by rw [local_step]) (local_sorted R a A B hn) rfl
    exact fin nodes' g
  · push Not at hproj
    rcases Nat.eq_or_lt_of_le hn with rfl | hn3
    · have hsort : SortedAscend 2 fun k : ℕ => ((k : ℝ), (0 : ℝ)) := by
        intro k _
        simp
      obtain ⟨nodes', g⟩ := patchEdge3_of_nodes hn hR hlo hu (noise := noise) (order := order)
        (p := edgeRef3 2 A B) (p' := fun k : ℕ => ((k : ℝ), (0 : ℝ))) (δ := 1) one_pos
        (fun k _ => by simp [norm2]) (Or.inl hsort)
        (deformedEdge_two (local_sorted R a A B hn) (Or.inl hsort))
      exact fin nodes' g
    · -- the interior nodes have no fractional position
      exfalso
      obtain ⟨v, hv⟩ : ∃ v, deformedNode n (ascendNodes n fun k => toLocal3 R a (edgeRef3 n A B k))
          (toLocal3 R a a) (toLocal3 R a b) cf 1000
          (fracPosition (curvePoint (toLocal3 R a a) (toLocal3 R a b) cf 1000) 1000) noise 1 = .ok v := by
        have := List.forall₂_iff_get.mp (mapM_forall₂ hnd2)
        have h2 := this.2 1 (by simp; omega) (by rw [← this.1]; simp; omega)
        simp only [List.get_eq_getElem, List.getElem_range] at h2
        exact ⟨_, h2⟩
      unfold deformedNode at hv
      rw [if_neg (by omega), if_neg one_ne_zero, if_pos] at hv
      · cases hv
      · rw [cumLength_const (δ := 0) (n := n) ?_ (by omega)]
        · simp
        · intro k hk
          unfold ascendNodes
          have hz : ∀ k, norm2 (toLocal3 R a (edgeRef3 n A B (k + 1)) -
              toLocal3 R a (edgeRef3 n A B k)) = 0 := by
            intro k
            rw [local_step, hproj.1, hproj.2, norm2_eq_zero]
            simp
          split_ifs
          · exact hz k
          · have := norm2_eq_zero.mp (hz (n - 1 - (k + 1)))
            rw [show n - 1 - (k + 1) + 1 = n - 1 - k by omega] at this
            rw [norm2_eq_zero, ← neg_sub, this, neg_zero]

/-- **C112b.** Edges of order zero or one without noise are straight, with equidistant nodes. -/
theorem C112_straight {a b v : Vec3} {order : ℕ} (ho : order ≤ 1) {lo hi : ℝ} {n : ℕ} (hn : 2 ≤ n)
    {noise : ℕ → ℝ × ℝ} (hnoise : ∀ k, noise k = 0) {q : ℕ → Vec3}
    (h : IsDeformedEdge3 a b v order lo hi n noise q) {k : ℕ} (hk : k < n) :
    q k = a + ((k : ℝ) / ((n : ℝ) - 1)) • (b - a) := by
  obtain ⟨e, ν, L, P, x, -, ⟨hL, hb, -⟩, hP', hx', hq0, hqn, hq⟩ := h
  -- the same edge in the plane
  have h2 : IsDeformedEdge (0, 0) (L, 0) (0, -1) order lo hi n (fun _ => 0)
      (fun k => if k = n - 1 then (L, 0) else if k = 0 then (0, 0) else (x k, P.eval (x k))) := by
    refine ⟨(1, 0), (0, 1), L, P, x, by simp, ⟨hL, by simp, by simp⟩, hP', hx', ?_, by simp, ?_⟩
    · have : (0 : ℕ) ≠ n - 1 := by omega
      simp [this]
    · intro k h0 h1
      simp only
      rw [if_neg (by omega : ¬ k = n - 1), if_neg (by omega : ¬ k = 0)]
      ext <;> simp
  have h3 := C97_straight ho hn h2 hk
  by_cases hk1 : k = n - 1
  · rw [if_pos hk1] at h3
    have h4 := congrArg Prod.fst h3
    simp at h4
    rw [hk1, hqn, hb]
    have : ((k : ℝ) / ((n : ℝ) - 1)) = 1 := by
      have hL' := hL.ne'
      exact (mul_right_cancel₀ hL' (by rw [one_mul]; exact h4.symm))
    rw [← hk1, this, one_smul]
    abel
  · rw [if_neg hk1] at h3
    by_cases hk0 : k = 0
    · subst hk0
      simp [hq0]
    · rw [if_neg hk0] at h3
      have h4 := congrArg Prod.fst h3
      have h5 := congrArg Prod.snd h3
      simp at h4 h5
      rw [hq k (by omega) (by omega), hnoise, h5, h4, hb]
      simp [mul_smul]

end Hooke
