import Verif.Props.PatchSolid
import Mathlib.LinearAlgebra.Matrix.Determinant.Basic

/-!
# C112: bounds, translations and violated clauses
-/

noncomputable section

namespace Hooke

open Matrix Spec

/-! ### Bounds -/

theorem mean_interp_mem {lo hi s t a b c d : ℝ} (hs : s ∈ Set.Icc (0 : ℝ) 1) (ht : t ∈ Set.Icc (0 : ℝ) 1)
    (ha : a ∈ Set.Icc lo hi) (hb : b ∈ Set.Icc lo hi) (hc : c ∈ Set.Icc lo hi) (hd : d ∈ Set.Icc lo hi) :
    1 / 2 * ((1 - s) * a + s * b + (1 - t) * c + t * d) ∈ Set.Icc lo hi := by
  obtain ⟨hs0, hs1⟩ := hs
  obtain ⟨ht0, ht1⟩ := ht
  obtain ⟨a0, a1⟩ := ha
  obtain ⟨b0, b1⟩ := hb
  obtain ⟨c0, c1⟩ := hc
  obtain ⟨d0, d1⟩ := hd
  constructor <;> nlinarith [mul_nonneg hs0 (sub_nonneg.mpr b0), mul_nonneg (sub_nonneg.mpr hs1) (sub_nonneg.mpr a0),
    mul_nonneg ht0 (sub_nonneg.mpr d0), mul_nonneg (sub_nonneg.mpr ht1) (sub_nonneg.mpr c0),
    mul_nonneg hs0 (sub_nonneg.mpr b1), mul_nonneg (sub_nonneg.mpr hs1) (sub_nonneg.mpr a1),
    mul_nonneg ht0 (sub_nonneg.mpr d1), mul_nonneg (sub_nonneg.mpr ht1) (sub_nonneg.mpr c1)]

/-- **C112e.** The displacements of the nodes of the faces stay within the bounds of the displacements
of the nodes of the edges, component by component. -/
theorem C112_bounds {fl : ℝ → ℝ} (hfl : IsRounding fl) {elem : String} {isEdge : Bool} {e : ℕ}
    (hk : (elem, isEdge, 3, e) ∈ feKinds) {L : Vec3} {nElems : Fin 3 → ℕ}
    (hn : ∀ r, 1 ≤ nElems r ∧ nElems r * (e - 1) ≤ 2 ^ 50) {z : ℕ → ℕ → Vec3} {p : DeformedPatch3}
    {N : Fin 3 → ℕ} (hNe : ∀ r, N r = nElems r * (e - 1) + 1)
    (hp : IsSolidPatch fl L elem nElems N z p) {r : Fin 3} {lo hi : ℝ}
    (hb : ∀ lab i c d f, (lab, i, c, d, f) ∈ patchEdges3 → ∀ k < N (Fin.ofNat 3 i), ∀ v,
      p.disps.get? (p.mesh.matrix (edgePos3 N c i k)) = some v → v r ∈ Set.Icc lo hi)
    {l : ℕ} {v : Vec3} (hv : p.disps.get? l = some v) : v r ∈ Set.Icc lo hi := by
  have he : 2 ≤ e := by
    simp only [feKinds, List.mem_cons, List.not_mem_nil, or_false, Prod.mk.injEq] at hk
    omega
  have hN : ∀ r, 2 ≤ N r := fun r => by
    rw [hNe]
    have : 1 ≤ nElems r * (e - 1) := Nat.mul_pos (hn r).1 (by omega)
    omega
  obtain ⟨h0, idx, hidx, hob⟩ := (hp.nodes l).mp (KDict.mem_keys_iff.mpr ⟨_, hv⟩)
  obtain ⟨m, hm, g1, -⟩ := C95_mesh hfl hk (dims := [L 0, L 1, L 2])
    (nElems := [nElems 0, nElems 1, nElems 2]) rfl (by
      simp only [List.mem_cons, List.not_mem_nil, or_false]
      rintro n (rfl | rfl | rfl) <;> exact hn _)
  have hmm := hp.mesh
  rw [hm] at hmm
  have hmm := Prod.mk.inj (Except.ok.inj hmm)
  have hg := ((g1 idx).mp (by rw [hmm.1, hidx]; exact h0)).1
  rw [hmm.2] at hg
  obtain ⟨x, y, w, rfl, hx, hy, hw⟩ := onGrid_three.mp hg
  have hedge : ∀ {x y w}, x < N 0 → y < N 1 → w < N 2 →
      ((Ext (N 0) x ∧ Ext (N 1) y) ∨ (Ext (N 0) x ∧ Ext (N 2) w) ∨ (Ext (N 1) y ∧ Ext (N 2) w)) →
      ∀ v, p.disps.get? (p.mesh.matrix [x, y, w]) = some v → v r ∈ Set.Icc lo hi := by
    intro x y w hx hy hw hext v hv
    obtain ⟨i, c, d, lab, lab', k, h, hk', hpos⟩ := edge_of_ext hx hy hw hext
    obtain ⟨⟨f, hf⟩, -⟩ := labels_of_solid h
    exact hb lab i c d f hf k hk' v (by rw [hpos]; exact hv)
  obtain ⟨g, s, i, j, hs, hi', hj', hpos⟩ := exists_facePos hx hy hw (onBoundary_three.mp hob)
  have hfaceEdge : ∀ {i j}, i < N (faceDims g).1 → j < N (faceDims g).2 →
      (Ext (N (faceDims g).1) i ∨ Ext (N (faceDims g).2) j) →
      ∀ v, p.disps.get? (p.mesh.matrix (facePos g s i j)) = some v → v r ∈ Set.Icc lo hi := by
    intro i j hi hj hext v hv
    obtain ⟨x, y, w, hpos, hx, hy, hw, -, hiff⟩ := facePos_interior hs hN hi hj
    rw [hpos] at hv
    exact hedge hx hy hw (hiff.mpr hext) v hv
  rw [← hpos] at hidx
  rw [← hidx] at hv h0
  by_cases hext : Ext (N (faceDims g).1) i ∨ Ext (N (faceDims g).2) j
  · exact hfaceEdge hi' hj' hext v hv
  · have n1 := hN (faceDims g).1
    have n2 := hN (faceDims g).2
    unfold Ext at hext
    push Not at hext
    obtain ⟨⟨i0, i1⟩, j0, j1⟩ := hext
    obtain ⟨a, b, c, d, ha, hb', hc, hd, hval⟩ := hp.face g s hs i j (by omega) (by omega) (by omega)
      (by omega) h0
    rw [hv] at hval
    have hval := Option.some.inj hval
    have ha := hfaceEdge (i := 0) (by omega) hj' (Or.inl (Or.inl rfl)) a ha
    have hb' := hfaceEdge (by omega) hj' (Or.inl (Or.inr (by omega))) b hb'
    have hc := hfaceEdge (j := 0) hi' (by omega) (Or.inr (Or.inl rfl)) c hc
    have hd := hfaceEdge hi' (by omega) (Or.inr (Or.inr (by omega))) d hd
    have hfrac : ∀ {a b : ℕ}, a < b → (a : ℝ) / b ∈ Set.Icc (0 : ℝ) 1 := by
      intro a b hab
      have : (0 : ℝ) < b := by exact_mod_cast (by omega : 0 < b)
      exact ⟨by positivity, by rw [div_le_one this]; exact_mod_cast hab.le⟩
    rw [hval]
    simp only [Pi.smul_apply, Pi.add_apply, smul_eq_mul]
    exact mean_interp_mem (hfrac hi') (hfrac hj') ha hb' hc hd

/-! ### Corners with a definite displacement -/

theorem cornersDisp_const {range : ℕ → ℕ → ℝ × ℝ} {v : ℕ → ℕ → ℝ} {o : ℕ → ℕ → ℕ} {u₀ : ℕ → ℕ → ℝ}
    {u : ℕ → ℕ → ℕ → ℝ × ℝ} (hr : ∀ c < 8, ∀ k < 3, range c k = (v c k, v c k))
    (hv : ∀ lab i c d f, (lab, i, c, d, f) ∈ patchEdges3 → ∀ k < 3, k ≠ i → v c k = v d k) :
    ∀ c < 8, ∀ k < 3, (cornersDisp 3 range o u₀ u).1 c k = v c k := by
  have hstep : ∀ i < 3, ∀ j < 8, ∀ s : (ℕ → ℕ → ℝ) × (ℕ → ℕ → ℕ),
      (∀ c < 8, ∀ k < 3, s.1 c k = v c k) → ∀ c < 8, ∀ k < 3,
      (edgeDisp 3 range u i ((edgesPerDim 3).getD i []) s j).1 c k = v c k := by
    intro i hi j hj s hs
    obtain ⟨lab, f, hrow, -⟩ := index_row (i := i) (j := j) (by
      simp only [edgeList3, List.mem_flatMap, List.mem_map, List.mem_range]
      exact ⟨i, hi, j, hj, rfl⟩)
    have hrow' := hv _ _ _ _ _ hrow
    have hlt : (edgeAt i j).1 < 8 ∧ (edgeAt i j).2 < 8 := by
      have key : ∀ r ∈ patchEdges3, r.2.2.1 < 8 ∧ r.2.2.2.1 < 8 := by decide
      exact key _ hrow
    unfold edgeDisp
    simp only
    split_ifs with h0
    · simp only
      change ∀ c < 8, ∀ k < 3, (((List.range 3).filter (· ≠ i)).foldl (fun d k =>
        setDisp (setDisp d (edgeAt i j).1 k (commonDisp (range (edgeAt i j).1 k) (range (edgeAt i j).2 k)
          (u i j k))) (edgeAt i j).2 k (commonDisp (range (edgeAt i j).1 k) (range (edgeAt i j).2 k)
          (u i j k))) s.1) c k = v c k
      generalize hl : (List.range 3).filter (· ≠ i) = l
      have hl' : ∀ k ∈ l, k < 3 ∧ k ≠ i := by
        rw [← hl]
        intro k hk
        simpa using hk
      clear hl
      have : ∀ t : ℕ → ℕ → ℝ, (∀ c < 8, ∀ k < 3, t c k = v c k) → ∀ c < 8, ∀ k < 3,
          (l.foldl (fun d k => setDisp (setDisp d (edgeAt i j).1 k (commonDisp (range (edgeAt i j).1 k)
            (range (edgeAt i j).2 k) (u i j k))) (edgeAt i j).2 k (commonDisp (range (edgeAt i j).1 k)
            (range (edgeAt i j).2 k) (u i j k))) t) c k = v c k := by
        induction l with
        | nil => exact fun t ht => ht
        | cons a l ih =>
          intro t ht
          refine ih (fun k hk => hl' k (by simp [hk])) _ ?_
          obtain ⟨ha, hai⟩ := hl' a (by simp)
          have hcom : commonDisp (range (edgeAt i j).1 a) (range (edgeAt i j).2 a) (u i j a) =
              v (edgeAt i j).1 a := by
            rw [hr _ hlt.1 _ ha, hr _ hlt.2 _ ha, ← hrow' a ha hai]
            simp [commonDisp, uniformDraw]
          intro c hc k hk
          beta_reduce
          rw [setDisp_apply, setDisp_apply, hcom]
          split_ifs with h1 h2
          · rw [h1.1, h1.2, hrow' a ha hai]
          · rw [h2.1, h2.2]
          · exact ht c hc k hk
      exact this s.1 hs
    · exact hs
  have hdim : ∀ i < 3, ∀ s : (ℕ → ℕ → ℝ) × (ℕ → ℕ → ℕ),
      (∀ c < 8, ∀ k < 3, s.1 c k = v c k) → ∀ c < 8, ∀ k < 3,
      ((List.range ((edgesPerDim 3).getD i []).length).foldl
        (edgeDisp 3 range u i ((edgesPerDim 3).getD i [])) s).1 c k = v c k := by
    intro i hi s hs
    have hlen : ∀ i < 3, ((edgesPerDim 3).getD i []).length = 8 := by decide
    have : ∀ l : List ℕ, (∀ j ∈ l, j < 8) → ∀ c < 8, ∀ k < 3,
        (l.foldl (edgeDisp 3 range u i ((edgesPerDim 3).getD i [])) s).1 c k = v c k := by
      intro l
      induction l using List.reverseRecOn with
      | nil => exact fun _ => hs
      | append_singleton l a ih =>
        intro hl
        rw [List.foldl_append]
        exact hstep i hi a (hl a (by simp)) _ (ih fun j hj => hl j (by simp [hj]))
    exact this _ fun j hj => by rw [hlen i hi] at hj; exact List.mem_range.mp hj
  unfold cornersDisp
  simp only [show List.range 3 = [0, 1, 2] from rfl, List.foldl_cons, List.foldl_nil]
  refine hdim 2 (by norm_num) _ (hdim 1 (by norm_num) _ (hdim 0 (by norm_num) _ ?_))
  intro c hc k hk
  simp only
  rw [hr c hc k hk]
  simp [uniformDraw]

/-- Displacements that the specification leaves no choice about. -/
theorem cornerDisplacements_const {bc : DictArg (Option (List ℤ))}
    (hbc : ∀ d, bc = .dict d → d.keys.Nodup)
    {ranges : DictArg (Option (List (Option (List ℝ))))} {order : OrderArg} {u₀ : ℕ → ℕ → ℝ}
    {u : ℕ → ℕ → ℕ → ℝ × ℝ} {v disp : ℕ → ℕ → ℝ}
    (hr : ∀ c < 8, ∀ k < 3, CornerRange bc ranges c k (v c k, v c k))
    (hv : ∀ lab i c d f, (lab, i, c, d, f) ∈ patchEdges3 → ∀ k < 3, k ≠ i → v c k = v d k)
    (h : cornerDisplacements 3 bc ranges order u₀ u = .ok disp) :
    ∀ c < 8, ∀ k < 3, disp c k = v c k := by
  unfold cornerDisplacements at h
  obtain ⟨b, hb, h⟩ := bind_ok h
  obtain ⟨r, hr', h⟩ := bind_ok h
  obtain ⟨o, ho, h⟩ := bind_ok h
  rw [← Except.ok.inj h]
  exact cornersDisp_const (fun c hc k hk => CornerRange_unique
    (buildCornersRange_spec (nDim := 3) hbc hb hr' hc hk) (hr c hc k hk)) hv

/-- A brick with dimensions of any sign is not degenerate. -/
theorem nonDegenerate3_of {L : Vec3} {disp : ℕ → ℕ → ℝ} {M : Vec3} (hM : ∀ r, M r ≠ 0)
    (h : ∀ c < 8, cornerPoint3 L disp c = fun r => (cornerBit c r : ℝ) * M r) :
    NonDegenerate3 L disp := by
  have h0 := hM 0
  have h1 := hM 1
  have h2 := hM 2
  have hlt : ∀ r ∈ patchEdges3, r.2.2.1 < 8 ∧ r.2.2.2.1 < 8 ∧ r.2.2.2.2 < 8 := by decide
  intro lab i c d f hrow
  obtain ⟨k1, k2, k3⟩ := hlt _ hrow
  simp only
  rw [h c k1, h d k2, h f k3]
  clear k1 k2 k3
  simp only [patchEdges3, List.mem_cons, Prod.mk.injEq, List.not_mem_nil, or_false] at hrow
  rcases hrow with ⟨rfl, rfl, rfl, rfl, rfl⟩ | ⟨rfl, rfl, rfl, rfl, rfl⟩ | ⟨rfl, rfl, rfl, rfl, rfl⟩ |
    ⟨rfl, rfl, rfl, rfl, rfl⟩ | ⟨rfl, rfl, rfl, rfl, rfl⟩ | ⟨rfl, rfl, rfl, rfl, rfl⟩ |
    ⟨rfl, rfl, rfl, rfl, rfl⟩ | ⟨rfl, rfl, rfl, rfl, rfl⟩ | ⟨rfl, rfl, rfl, rfl, rfl⟩ |
    ⟨rfl, rfl, rfl, rfl, rfl⟩ | ⟨rfl, rfl, rfl, rfl, rfl⟩ | ⟨rfl, rfl, rfl, rfl, rfl⟩ |
    ⟨rfl, rfl, rfl, rfl, rfl⟩ | ⟨rfl, rfl, rfl, rfl, rfl⟩ | ⟨rfl, rfl, rfl, rfl, rfl⟩ |
    ⟨rfl, rfl, rfl, rfl, rfl⟩ | ⟨rfl, rfl, rfl, rfl, rfl⟩ | ⟨rfl, rfl, rfl, rfl, rfl⟩ |
    ⟨rfl, rfl, rfl, rfl, rfl⟩ | ⟨rfl, rfl, rfl, rfl, rfl⟩ | ⟨rfl, rfl, rfl, rfl, rfl⟩ |
    ⟨rfl, rfl, rfl, rfl, rfl⟩ | ⟨rfl, rfl, rfl, rfl, rfl⟩ | ⟨rfl, rfl, rfl, rfl, rfl⟩ <;>
  simp only [ofNat3_zero, ofNat3_one, ofNat3_two] <;>
  simp [cornerBit, cross_apply, h0, h1, h2]

/-- The default specification, without or with motion, leaves the corners where they are. -/
theorem corners_default {order : OrderArg} {u₀ : ℕ → ℕ → ℝ} {u : ℕ → ℕ → ℕ → ℝ × ℝ} {disp : ℕ → ℕ → ℝ}
    (h : cornerDisplacements 3 .none .none order u₀ u = .ok disp) (L : Vec3) :
    ∀ c < 8, cornerPoint3 L disp c = fun r => (cornerBit c r : ℝ) * L r := by
  have := cornerDisplacements_const (v := fun _ _ => 0) (by simp) (by
    intro c _ k _
    refine Or.inr ⟨?_, Or.inr ⟨Or.inl rfl, rfl⟩⟩
    rintro ⟨d, v, hd, -⟩
    cases hd) (by simp) h
  intro c hc
  funext r
  simp [cornerPoint3, this c hc r r.2]

/-- **C112f.** Without deformation and rotation all nodes of the boundary are displaced by the same
vector, drawn from the ranges of the translation. -/
theorem C112_translation {fl : ℝ → ℝ} (hfl : IsRounding fl) {elem : String} {isEdge : Bool} {e : ℕ}
    (hk : (elem, isEdge, 3, e) ∈ feKinds) {L : Vec3} (hL : ∀ r, 0 < L r) {nElems : Fin 3 → ℕ}
    (hn : ∀ r, 1 ≤ nElems r ∧ nElems r * (e - 1) ≤ 2 ^ 50)
    (hres : ∀ r, 1 / 10 ^ 8 + 1 / 10 ^ 5 * L r < L r / (nElems r * (e - 1) : ℕ))
    {uniq : ℕ → List (ℕ × ℕ)} (hu : ListsEdges uniq) {order : OrderArg}
    (ho : ∀ lab o, EdgeOrder order lab o → o ≤ 1) {edgeRanges : DictArg (Option (List ℝ))}
    (hle : ∀ lab lo hi, 1 ≤ lab → lab ≤ 24 → EdgeDispRange edgeRanges lab lo hi → lo ≤ hi)
    {tr : PyDict (ℝ × ℝ)} {maxIter : ℕ} {u : PatchDraws} (hud : PatchDraws.Ok u)
    {adm : Bool} {p : DeformedPatch3}
    (h : generatePatch3 fl uniq L elem [nElems 0, nElems 1, nElems 2]
      ⟨.none, .none, order, edgeRanges, some tr, some [], 0⟩ maxIter u = .ok (adm, some p)) :
    ∃ t : Vec3, (InKeyRange tr "1" (t 0) ∧ InKeyRange tr "2" (t 1) ∧ InKeyRange tr "3" (t 2)) ∧
      ∀ l v, p.disps.get? l = some v → v = t := by
  have he : 2 ≤ e := by
    simp only [feKinds, List.mem_cons, List.not_mem_nil, or_false, Prod.mk.injEq] at hk
    omega
  obtain ⟨-, -, h⟩ := C112_patch hfl hk hL hn hres hu hle hud h
  obtain ⟨z, ⟨disp, tr', rd, t, α, β, γ, q, hdisp, htr, hrd, ht, hrot, hz⟩, hp⟩ := h p rfl
  simp only at hdisp htr hrd hz
  cases htr
  cases hrd
  refine ⟨t, ht, fun l v hv => ?_⟩
  have hc := corners_default hdisp L
  have hzero : α = 0 ∧ β = 0 ∧ γ = 0 := by
    obtain ⟨h1, h2, h3⟩ := hrot
    refine ⟨?_, ?_, ?_⟩
    · rcases h1 with ⟨r, hr, -⟩ | ⟨-, h⟩
      · cases hr
      · exact h
    · rcases h2 with ⟨r, hr, -⟩ | ⟨-, h⟩
      · cases hr
      · exact h
    · rcases h3 with ⟨r, hr, -⟩ | ⟨-, h⟩
      · cases hr
      · exact h
  have hR : rotZ α * rotX β * rotZ γ = 1 := by
    rw [hzero.1, hzero.2.1, hzero.2.2]
    ext i j
    fin_cases i <;> fin_cases j <;> simp [rotZ, rotX, Matrix.mul_apply, Fin.sum_univ_three]
  set N : Fin 3 → ℕ := fun r => nElems r * (e - 1) + 1 with hNe
  have hN : ∀ r, 2 ≤ N r := fun r => by
    have : 1 ≤ nElems r * (e - 1) := Nat.mul_pos (hn r).1 (by omega)
    simp only [hNe]
    omega
  have hpos : ∀ lab lab' i c d f f', (lab, i, c, d, f) ∈ patchEdges3 → (lab', i, c, d, f') ∈ patchEdges3 →
      lab' ≠ lab → ∀ k < N (Fin.ofNat 3 i), z lab k = gridPoint3 L N (edgePos3 N c i k) + t := by
    intro lab lab' i c d f f' hrow hrow' hne k hk'
    obtain ⟨o, o', lo, hi, j, ho1, ho2, -, -, hde, hzk⟩ := hz lab i c d f lab' f' hrow hrow' hne
    have hq := C112_straight (by split_ifs <;> simp [ho _ _ ho1]) (hN _) (by simp) hde hk'
    have hlt : ∀ r ∈ patchEdges3, r.2.2.1 < 8 ∧ r.2.2.2.1 < 8 := by decide
    obtain ⟨k1, k2⟩ := hlt _ hrow
    rw [hzk k hk', hR, one_mulVec, hq, hc c k1, hc d k2]
    have hs : (i, c, d, lab, lab') ∈ solidEdges ∨ (i, c, d, lab', lab) ∈ solidEdges :=
      solid_of_labels hrow hrow' hne.symm
    obtain ⟨hi3, -, -, hb⟩ : i < 3 ∧ c < 8 ∧ d < 8 ∧ ∀ r : Fin 3,
        ((r : ℕ) = i → cornerBit c r = 0 ∧ cornerBit d r = 1) ∧
        ((r : ℕ) ≠ i → cornerBit c r = cornerBit d r) := by
      rcases hs with hs | hs <;> exact solid_facts hs
    funext r
    have hNr : (0 : ℝ) < (N r : ℝ) - 1 := by
      have := hN r
      have : (2 : ℝ) ≤ N r := by exact_mod_cast this
      linarith
    have hidx : (edgePos3 N c i k).getD r 0 = if (r : ℕ) = i then k else cornerBit c r * (N r - 1) := by
      rw [edgePos3_eq]
      fin_cases r <;> simp
    simp only [gridPoint3, Pi.add_apply, Pi.sub_apply, Pi.smul_apply, smul_eq_mul, hidx]
    by_cases hr : (r : ℕ) = i
    · have hri : r = Fin.ofNat 3 i := Fin.ext (by rw [hr]; exact (Nat.mod_eq_of_lt hi3).symm)
      rw [if_pos hr, ((hb r).1 hr).1, ((hb r).1 hr).2, ← hri]
      push_cast
      field_simp
      ring
    · rw [if_neg hr, (hb r).2 hr]
      push_cast [Nat.cast_sub (show 1 ≤ N r by have := hN r; omega)]
      field_simp
      ring
  have hbound : ∀ r, v r ∈ Set.Icc (t r) (t r) := by
    intro r
    refine C112_bounds hfl hk hn (fun _ => rfl) hp ?_ hv
    intro lab i c d f hrow k hk' w hw
    obtain ⟨lab', f', hrow', hne⟩ : ∃ lab' f', (lab', i, c, d, f') ∈ patchEdges3 ∧ lab' ≠ lab := by
      have key : ∀ r ∈ patchEdges3, ∃ r' ∈ patchEdges3, r'.2.1 = r.2.1 ∧ r'.2.2.1 = r.2.2.1 ∧
          r'.2.2.2.1 = r.2.2.2.1 ∧ r'.1 ≠ r.1 := by decide +kernel
      obtain ⟨⟨l', i', c', d', f'⟩, h1, h2, h3, h4, h5⟩ := key _ hrow
      simp only at h2 h3 h4 h5
      subst h2 h3 h4
      exact ⟨l', f', h1, h5⟩
    have := hp.edge lab lab' i c d f f' hrow hrow' hne.symm k hk'
    rw [hw, hpos lab lab' i c d f f' hrow hrow' hne k hk',
      hpos lab' lab i c d f' f hrow' hrow hne.symm k hk'] at this
    rw [Option.some.inj this]
    simp only [Pi.sub_apply, Pi.smul_apply, Pi.add_apply, smul_eq_mul]
    constructor <;> apply le_of_eq <;> ring
  funext r
  exact le_antisymm (hbound r).2 (hbound r).1

/-! ### Violated clauses -/

/-- **C112 is violated for the default ranges.** Although documented as "no motion", and although it
is the default, `None` for the range of the translation or of the rotation angles is an error. -/
theorem C112_default_violated {fl : ℝ → ℝ} (hfl : IsRounding fl) {elem : String} {isEdge : Bool} {e : ℕ}
    (hk : (elem, isEdge, 3, e) ∈ feKinds) {L : Vec3} (hL : ∀ r, 0 < L r) {nElems : Fin 3 → ℕ}
    (hn : ∀ r, 1 ≤ nElems r ∧ nElems r * (e - 1) ≤ 2 ^ 50)
    (hres : ∀ r, 1 / 10 ^ 8 + 1 / 10 ^ 5 * L r < L r / (nElems r * (e - 1) : ℕ))
    {uniq : ℕ → List (ℕ × ℕ)} (hu : ListsEdges uniq) {tr rd : Option (PyDict (ℝ × ℝ))}
    (hnone : tr = none ∨ rd = none) {maxIter : ℕ} (hmax : 1 ≤ maxIter) {u : PatchDraws}
    (hud : PatchDraws.Ok u) :
    generatePatch3 fl uniq L elem [nElems 0, nElems 1, nElems 2] (defaultPatchArgs tr rd) maxIter u =
      .error .typeError :=
  (C112_accepts hfl hk hL hn hres hu (a := defaultPatchArgs tr rd) trivial trivial trivial trivial hmax
    hud fun _ h => nonDegenerate3_of (fun r => (hL r).ne') (corners_default h L)).2 hnone

theorem other_label {lab i c d f : ℕ} (hrow : (lab, i, c, d, f) ∈ patchEdges3) :
    ∃ lab' f', (lab', i, c, d, f') ∈ patchEdges3 ∧ lab' ≠ lab := by
  have key : ∀ r ∈ patchEdges3, ∃ r' ∈ patchEdges3, r'.2.1 = r.2.1 ∧ r'.2.2.1 = r.2.2.1 ∧
      r'.2.2.2.1 = r.2.2.2.1 ∧ r'.1 ≠ r.1 := by decide +kernel
  obtain ⟨⟨l', i', c', d', f'⟩, h1, h2, h3, h4, h5⟩ := key _ hrow
  simp only at h2 h3 h4 h5
  subst h2 h3 h4
  exact ⟨l', f', h1, h5⟩

/-- Positions of the nodes of straight edges. -/
theorem straight_positions {L M : Vec3} {N : Fin 3 → ℕ} (hN : ∀ r, 2 ≤ N r) {a : PatchArgs}
    (hnoise : a.noise = 0) (ho : ∀ lab o, EdgeOrder a.order lab o → o ≤ 1) {u : PatchDraws}
    {z : ℕ → ℕ → Vec3} (hz : DeformedSolid L N a u z)
    (hc : ∀ disp, cornerDisplacements 3 a.bc a.ranges a.order u.corner u.edge = .ok disp →
      ∀ c < 8, cornerPoint3 L disp c = fun r => (cornerBit c r : ℝ) * M r) :
    ∃ tr rd, a.translation = some tr ∧ a.rotation = some rd ∧ ∃ (t : Vec3) (α β γ : ℝ),
      (InKeyRange tr "1" (t 0) ∧ InKeyRange tr "2" (t 1) ∧ InKeyRange tr "3" (t 2)) ∧
      (InKeyRange rd "alpha" α ∧ InKeyRange rd "beta" β ∧ InKeyRange rd "gamma" γ) ∧
      ∀ lab i c d f, (lab, i, c, d, f) ∈ patchEdges3 → ∀ k < N (Fin.ofNat 3 i),
        z lab k = (fun r => M r / 2) + (rotZ α * rotX β * rotZ γ) *ᵥ
          (fun r => ((if (r : ℕ) = i then (k : ℝ) / ((N r : ℝ) - 1) else cornerBit c r) - 1 / 2) * M r) +
          t := by
  obtain ⟨disp, tr, rd, t, α, β, γ, q, hdisp, htr, hrd, ht, hrot, hz⟩ := hz
  refine ⟨tr, rd, htr, hrd, t, α, β, γ, ht, hrot, fun lab i c d f hrow k hk => ?_⟩
  obtain ⟨lab', f', hrow', hne⟩ := other_label hrow
  obtain ⟨o, o', lo, hi, j, ho1, ho2, -, -, hde, hzk⟩ := hz lab i c d f lab' f' hrow hrow' hne
  have hq := C112_straight (by split_ifs <;> simp [ho _ _ ho1]) (hN _) (by simp [hnoise]) hde hk
  have hc := hc disp hdisp
  have hlt : ∀ r ∈ patchEdges3, r.2.2.1 < 8 ∧ r.2.2.2.1 < 8 := by decide
  obtain ⟨k1, k2⟩ := hlt _ hrow
  have hmean : (fun r => (∑ c ∈ Finset.range 8, cornerPoint3 L disp c r) / 8) = fun r => M r / 2 := by
    funext r
    rw [Finset.sum_congr rfl fun c hc' => by rw [hc c (Finset.mem_range.mp hc')]]
    fin_cases r <;> simp [Finset.sum_range_succ, cornerBit] <;> ring
  rw [hzk k hk]
  simp only [hmean]
  congr 2
  have hs := solid_of_labels hrow hrow' hne.symm
  obtain ⟨hi3, -, -, hb⟩ : i < 3 ∧ c < 8 ∧ d < 8 ∧ ∀ r : Fin 3,
      ((r : ℕ) = i → cornerBit c r = 0 ∧ cornerBit d r = 1) ∧
      ((r : ℕ) ≠ i → cornerBit c r = cornerBit d r) := by
    rcases hs with hs | hs <;> exact solid_facts hs
  rw [hq, hc c k1, hc d k2]
  congr 1
  funext r
  simp only [Pi.sub_apply, Pi.add_apply, Pi.smul_apply, smul_eq_mul]
  by_cases hr : (r : ℕ) = i
  · have hri : r = Fin.ofNat 3 i := Fin.ext (by rw [hr]; exact (Nat.mod_eq_of_lt hi3).symm)
    rw [if_pos hr, ((hb r).1 hr).1, ((hb r).1 hr).2, ← hri]
    push_cast
    ring
  · rw [if_neg hr, (hb r).2 hr]
    ring

theorem key_const {key : String} {v x : ℝ} {d : PyDict (ℝ × ℝ)} (hd : d.get? key = some (x, x))
    (h : InKeyRange d key v) : v = x := by
  rcases h with ⟨r, hr, h⟩ | ⟨h, -⟩
  · rw [hd] at hr
    cases hr
    have := h le_rfl
    exact le_antisymm this.2 this.1
  · exact absurd (KDict.mem_keys_iff.mpr ⟨_, hd⟩) h

theorem key_none {key : String} {v : ℝ} {d : PyDict (ℝ × ℝ)} (hd : d.get? key = none)
    (h : InKeyRange d key v) : v = 0 := by
  rcases h with ⟨r, hr, -⟩ | ⟨-, h⟩
  · rw [hd] at hr
    cases hr
  · exact h

theorem halfTurn_mulVec (w : Vec3) :
    (!![-1, 0, 0; 0, -1, 0; 0, 0, 1] : Matrix (Fin 3) (Fin 3) ℝ) *ᵥ w = fun r => (![-1, -1, 1] : Vec3) r * w r := by
  funext r
  fin_cases r <;> simp [Matrix.mulVec, dotProduct, Fin.sum_univ_three]

theorem translation_zero {t : Vec3} {d : PyDict (ℝ × ℝ)} (hd : d = [])
    (h : InKeyRange d "1" (t 0) ∧ InKeyRange d "2" (t 1) ∧ InKeyRange d "3" (t 2)) : t = 0 := by
  subst hd
  funext r
  fin_cases r
  · exact key_none rfl h.1
  · exact key_none rfl h.2.1
  · exact key_none rfl h.2.2

/-- **C112 is violated for the nodes inside the faces.** The weights of the interpolation between
opposite edges do not reach one, so that a rigid rotation is not reproduced: a unit cube with two
elements along each dimension is turned by 180 degrees about its vertical axis, and the node of the
bottom face on that axis is displaced. -/
theorem C112_rigid_violated {uniq : ℕ → List (ℕ × ℕ)} (hu : ListsEdges uniq) :
    ∃ p, generatePatch3 id uniq 1 "SHEXA8" [2, 2, 2]
        (defaultPatchArgs (some []) (some [("alpha", (180, 180))])) 1 halfDraws = .ok (true, some p) ∧
      p.disps.get? (p.mesh.matrix [1, 1, 0]) = some ![1 / 6, 1 / 6, 0] ∧
      let C : Vec3 := ![1 / 2, 1 / 2, 1 / 2]
      let x := gridPoint3 1 (fun _ => 3) [1, 1, 0]
      C + rotZ 180 *ᵥ (x - C) - x = 0 := by
  set a := defaultPatchArgs (some []) (some [("alpha", (180, 180))]) with ha
  have hk : ("SHEXA8", true, 3, 2) ∈ feKinds := by simp [feKinds]
  have hn : ∀ r : Fin 3, 1 ≤ (fun _ => 2 : Fin 3 → ℕ) r ∧ (fun _ => 2 : Fin 3 → ℕ) r * (2 - 1) ≤ 2 ^ 50 := by
    norm_num
  have hres : ∀ r, 1 / 10 ^ 8 + 1 / 10 ^ 5 * (1 : Vec3) r <
      (1 : Vec3) r / ((fun _ => 2 : Fin 3 → ℕ) r * (2 - 1) : ℕ) := by
    norm_num
  obtain ⟨p, hp⟩ := (C112_accepts isRounding_id hk (L := 1) (by simp) hn hres hu (a := a) trivial trivial
    trivial trivial (le_refl 1) halfDraws_ok fun _ h => nonDegenerate3_of (by simp)
      (corners_default h 1)).1 (by simp [ha, defaultPatchArgs]) (by simp [ha, defaultPatchArgs])
  refine ⟨p, hp, ?_, ?_⟩
  · obtain ⟨-, -, hpat⟩ := C112_patch isRounding_id hk (L := 1) (by simp) hn hres hu (by
      rintro lab lo hi - - (⟨-, rfl, rfl⟩ | ⟨d, hd, -⟩)
      · exact le_rfl
      · cases hd) halfDraws_ok hp
    obtain ⟨z, hz, hs⟩ := hpat p rfl
    simp only [show (fun _ : Fin 3 => 2 * (2 - 1) + 1) = fun _ : Fin 3 => 3 from rfl] at hz hs
    obtain ⟨tr, rd, htr, hrd, t, α, β, γ, ht, ⟨hα, hβ, hγ⟩, hzz⟩ := straight_positions
      (M := 1) (by norm_num) rfl (by intro lab o h; simp only [ha, defaultPatchArgs, EdgeOrder] at h; omega)
      hz (fun _ h => corners_default h 1)
    cases htr
    cases hrd
    obtain rfl := key_const (x := 180) rfl hα
    obtain rfl := key_none (by decide) hβ
    obtain rfl := key_none (by decide) hγ
    obtain rfl := translation_zero rfl ht
    have hpi : (180 : ℝ) * Real.pi / 180 = Real.pi := by ring
    have hR : rotZ 180 * rotX 0 * rotZ 0 = !![-1, 0, 0; 0, -1, 0; 0, 0, 1] := by
      ext i j
      fin_cases i <;> fin_cases j <;> simp [rotZ, rotX, Matrix.mul_apply, Fin.sum_univ_three, hpi]
    simp only [hR, halfTurn_mulVec] at hzz
    have edge : ∀ lab lab' i c d f f', (lab, i, c, d, f) ∈ patchEdges3 →
        (lab', i, c, d, f') ∈ patchEdges3 → lab ≠ lab' →
        p.disps.get? (p.mesh.matrix (edgePos3 (fun _ => 3) c i 1)) = some (fun r =>
          (![-1, -1, 1] : Vec3) r * ((if (r : ℕ) = i then 1 / 2 else (cornerBit c r : ℝ)) - 1 / 2) + 1 / 2 -
            gridPoint3 1 (fun _ => 3) (edgePos3 (fun _ => 3) c i 1) r) := by
      intro lab lab' i c d f f' h h' hne
      rw [hs.edge lab lab' i c d f f' h h' hne 1 (by norm_num), hzz lab i c d f h 1 (by norm_num),
        hzz lab' i c d f' h' 1 (by norm_num)]
      congr 1
      funext r
      simp only [Pi.smul_apply, Pi.add_apply, Pi.sub_apply, Pi.zero_apply, Pi.one_apply, smul_eq_mul]
      push_cast
      split_ifs <;> ring
    have h0 : p.mesh.matrix [1, 1, 0] ≠ 0 := by
      obtain ⟨m, hm, g1, -⟩ := C95_mesh isRounding_id hk (dims := [(1 : Vec3) 0, (1 : Vec3) 1, (1 : Vec3) 2])
        (nElems := [2, 2, 2]) rfl (by simp)
      have hmm := hs.mesh
      rw [hm] at hmm
      have hmm := Prod.mk.inj (Except.ok.inj hmm)
      rw [← hmm.1]
      refine (g1 _).mpr ⟨?_, fun _ => by simp⟩
      rw [hmm.2, onGrid_three]
      exact ⟨1, 1, 0, rfl, by norm_num, by norm_num, by norm_num⟩
    obtain ⟨l, r, b, tp, hl, hr, hb, htp, hv⟩ := hs.face 2 0 (Or.inl rfl) 1 1 (by norm_num)
      (by decide) (by norm_num) (by decide) h0
    have e1 := edge 3 9 1 0 3 2 7 (by decide) (by decide) (by decide)
    have e2 := edge 4 13 1 1 2 3 6 (by decide) (by decide) (by decide)
    have e3 := edge 1 17 0 0 1 2 5 (by decide) (by decide) (by decide)
    have e4 := edge 2 21 0 3 2 1 6 (by decide) (by decide) (by decide)
    rw [show edgePos3 (fun _ => 3) 0 1 1 = facePos 2 0 0 1 from by rw [edgePos3_eq]; rfl, hl] at e1
    rw [show edgePos3 (fun _ => 3) 1 1 1 = facePos 2 0 (3 - 1) 1 from by rw [edgePos3_eq]; rfl, hr] at e2
    rw [show edgePos3 (fun _ => 3) 0 0 1 = facePos 2 0 1 0 from by rw [edgePos3_eq]; rfl, hb] at e3
    rw [show edgePos3 (fun _ => 3) 3 0 1 = facePos 2 0 1 (3 - 1) from by rw [edgePos3_eq]; rfl, htp] at e4
    rw [show [1, 1, 0] = facePos 2 0 1 1 from rfl, hv, Option.some.inj e1, Option.some.inj e2,
      Option.some.inj e3, Option.some.inj e4]
    congr 1
    funext r
    fin_cases r <;> simp [gridPoint3, facePos, cornerBit] <;> norm_num
  · have hpi : (180 : ℝ) * Real.pi / 180 = Real.pi := by ring
    have hx : gridPoint3 1 (fun _ => 3) [1, 1, 0] = ![1 / 2, 1 / 2, 0] := by
      funext r
      fin_cases r <;> simp [gridPoint3] <;> norm_num
    have hR : rotZ 180 = !![-1, 0, 0; 0, -1, 0; 0, 0, 1] := by
      ext i j
      fin_cases i <;> fin_cases j <;> simp [rotZ, hpi]
    simp only [hx, hR, halfTurn_mulVec]
    funext r
    simp only [Pi.sub_apply, Pi.add_apply, Pi.zero_apply]
    fin_cases r <;> simp

/-- Ranges that move the four corners with `x = L` by `- 2`. -/
def invertedRanges : DictArg (Option (List (Option (List ℝ)))) :=
  .dict (["2", "3", "6", "7"].map fun c => (c, some [some [-2, -2], some [0, 0], some [0, 0]]))

theorem invertedRanges_get {c : ℕ} (hc : c < 8) :
    (c ∈ [1, 2, 5, 6] → ∀ d, invertedRanges = .dict d →
      d.get? (toString (c + 1)) = some (some [some [-2, -2], some [0, 0], some [0, 0]])) ∧
    (c ∉ [1, 2, 5, 6] → ∀ d, invertedRanges = .dict d → d.get? (toString (c + 1)) = none) := by
  have hlab : ∀ s : String, s ∈ ["2", "3", "6", "7"] → ∀ l : List String, s ∈ l →
      KDict.get? (l.map fun c => (c, some [some [(-2 : ℝ), -2], some [0, 0], some [0, 0]])) s =
        some (some [some [-2, -2], some [0, 0], some [0, 0]]) := by
    intro s _ l
    induction l with
    | nil => simp
    | cons a l ih =>
      intro h
      by_cases hs : a = s
      · simp [KDict.get?, hs]
      · have := ih (by simpa [Ne.symm hs] using h)
        simpa [KDict.get?, hs] using this
  constructor
  · intro h d hd
    cases hd
    have hm : toString (c + 1) ∈ ["2", "3", "6", "7"] := by
      have key : ∀ c < 8, c ∈ [1, 2, 5, 6] → toString (c + 1) ∈ ["2", "3", "6", "7"] := by decide
      exact key c hc h
    exact hlab _ hm _ hm
  · intro h d hd
    cases hd
    rw [KDict.get?_eq_none]
    have key : ∀ c < 8, c ∉ [1, 2, 5, 6] → toString (c + 1) ∉ ["2", "3", "6", "7"] := by decide
    have := key c hc h
    simpa [KDict.keys] using this

theorem corners_inverted {u₀ : ℕ → ℕ → ℝ} {u : ℕ → ℕ → ℕ → ℝ × ℝ} {disp : ℕ → ℕ → ℝ}
    (h : cornerDisplacements 3 .none invertedRanges .none u₀ u = .ok disp) :
    ∀ c < 8, cornerPoint3 1 disp c = fun r => (cornerBit c r : ℝ) * (![-1, 1, 1] : Vec3) r := by
  have hnf : ∀ c k, ¬ CornerFixed .none c k := by
    rintro c k ⟨_, _, h, -⟩
    cases h
  have := cornerDisplacements_const
    (v := fun c k => if c ∈ [1, 2, 5, 6] ∧ k = 0 then (-2 : ℝ) else 0) (by simp) (by
    intro c hc k hk
    refine Or.inr ⟨hnf c k, ?_⟩
    by_cases hm : c ∈ [1, 2, 5, 6]
    · refine Or.inl ⟨_, _, rfl, (invertedRanges_get hc).1 hm _ rfl, ?_⟩
      interval_cases k <;> simp [hm]
    · refine Or.inr ⟨Or.inr ⟨_, rfl, ?_⟩, by simp [hm]⟩
      exact KDict.get?_eq_none.mp ((invertedRanges_get hc).2 hm _ rfl)) (by
    have key : ∀ r ∈ patchEdges3, ∀ k < 3, k ≠ r.2.1 →
        ((r.2.2.1 ∈ [1, 2, 5, 6] ∧ k = 0) ↔ (r.2.2.2.1 ∈ [1, 2, 5, 6] ∧ k = 0)) := by decide +kernel
    intro lab i c d f hrow k hk hki
    exact if_congr (key _ hrow k hk hki) rfl rfl) h
  intro c hc
  funext r
  simp only [cornerPoint3, this c hc r r.2]
  interval_cases c <;> fin_cases r <;> norm_num [cornerBit]

/-- **C112 is violated for deformations that turn the patch inside out.** Every deformation of a solid
patch is flagged as admissible: here a unit cube is mirrored, so that its single element has a negative
volume. -/
theorem C112_inverted_violated {uniq : ℕ → List (ℕ × ℕ)} (hu : ListsEdges uniq) :
    ∃ p d₀ d₁ d₃ d₄, generatePatch3 id uniq 1 "SHEXA8" [1, 1, 1]
        ⟨.none, invertedRanges, .none, .none, some [], some [], 0⟩ 1 halfDraws = .ok (true, some p) ∧
      p.disps.get? (p.mesh.matrix [0, 0, 0]) = some d₀ ∧
      p.disps.get? (p.mesh.matrix [1, 0, 0]) = some d₁ ∧
      p.disps.get? (p.mesh.matrix [0, 1, 0]) = some d₃ ∧
      p.disps.get? (p.mesh.matrix [0, 0, 1]) = some d₄ ∧
      (Matrix.of ![![1, 0, 0] + d₁ - d₀, ![0, 1, 0] + d₃ - d₀, ![0, 0, 1] + d₄ - d₀] :
        Matrix (Fin 3) (Fin 3) ℝ).det < 0 := by
  have hk : ("SHEXA8", true, 3, 2) ∈ feKinds := by simp [feKinds]
  have hn : ∀ r : Fin 3, 1 ≤ (fun _ => 1 : Fin 3 → ℕ) r ∧ (fun _ => 1 : Fin 3 → ℕ) r * (2 - 1) ≤ 2 ^ 50 := by
    norm_num
  have hres : ∀ r, 1 / 10 ^ 8 + 1 / 10 ^ 5 * (1 : Vec3) r <
      (1 : Vec3) r / ((fun _ => 1 : Fin 3 → ℕ) r * (2 - 1) : ℕ) := by
    norm_num
  obtain ⟨p, hp⟩ := (C112_accepts isRounding_id hk (L := 1) (by simp) hn hres hu
    (a := ⟨.none, invertedRanges, .none, .none, some [], some [], 0⟩) trivial (by
      intro c hc v hv
      by_cases hm : c ∈ [1, 2, 5, 6]
      · rw [(invertedRanges_get hc).1 hm _ rfl] at hv
        cases hv
        exact ⟨_, rfl, rfl, by simp⟩
      · rw [(invertedRanges_get hc).2 hm _ rfl] at hv
        cases hv) trivial trivial (le_refl 1) halfDraws_ok fun _ h => nonDegenerate3_of
        (M := ![-1, 1, 1]) (by intro r; fin_cases r <;> simp) (corners_inverted h)).1 (by simp) (by simp)
  obtain ⟨-, -, hpat⟩ := C112_patch isRounding_id hk (L := 1) (by simp) hn hres hu (by
      rintro lab lo hi - - (⟨-, rfl, rfl⟩ | ⟨d, hd, -⟩)
      · exact le_rfl
      · cases hd) halfDraws_ok hp
  obtain ⟨z, hz, hs⟩ := hpat p rfl
  simp only [show (fun _ : Fin 3 => 1 * (2 - 1) + 1) = fun _ : Fin 3 => 2 from rfl] at hz hs
  obtain ⟨tr, rd, htr, hrd, t, α, β, γ, ht, ⟨hα, hβ, hγ⟩, hzz⟩ := straight_positions
    (M := ![-1, 1, 1]) (by norm_num) rfl (by intro lab o h; simp only [EdgeOrder] at h; omega)
    hz (fun _ h => corners_inverted h)
  cases htr
  cases hrd
  obtain rfl := key_none rfl hα
  obtain rfl := key_none rfl hβ
  obtain rfl := key_none rfl hγ
  obtain rfl := translation_zero rfl ht
  have hR : rotZ 0 * rotX 0 * rotZ 0 = 1 := by
    ext i j
    fin_cases i <;> fin_cases j <;> simp [rotZ, rotX, Matrix.mul_apply, Fin.sum_univ_three]
  simp only [hR, one_mulVec] at hzz
  have edge : ∀ lab lab' i c d f f', (lab, i, c, d, f) ∈ patchEdges3 →
      (lab', i, c, d, f') ∈ patchEdges3 → lab ≠ lab' → ∀ k < 2,
      p.disps.get? (p.mesh.matrix (edgePos3 (fun _ => 2) c i k)) = some (fun r : Fin 3 =>
        (if (r : ℕ) = i then (k : ℝ) else (cornerBit c r : ℝ)) * (![-1, 1, 1] : Vec3) r -
          gridPoint3 1 (fun _ => 2) (edgePos3 (fun _ => 2) c i k) r) := by
    intro lab lab' i c d f f' h h' hne k hk
    rw [hs.edge lab lab' i c d f f' h h' hne k hk, hzz lab i c d f h k hk,
      hzz lab' i c d f' h' k hk]
    congr 1
    funext r
    simp only [Pi.smul_apply, Pi.add_apply, Pi.sub_apply, Pi.zero_apply, smul_eq_mul]
    push_cast
    split_ifs <;> ring
  have e0 := edge 1 17 0 0 1 2 5 (by decide) (by decide) (by decide) 0 (by norm_num)
  have e1 := edge 1 17 0 0 1 2 5 (by decide) (by decide) (by decide) 1 (by norm_num)
  have e3 := edge 3 9 1 0 3 2 7 (by decide) (by decide) (by decide) 1 (by norm_num)
  have e4 := edge 11 19 2 0 4 7 5 (by decide) (by decide) (by decide) 1 (by norm_num)
  have f0 : p.disps.get? (p.mesh.matrix [0, 0, 0]) = some ![0, 0, 0] := by
    rw [show edgePos3 (fun _ => 2) 0 0 0 = [0, 0, 0] from by rw [edgePos3_eq]; rfl] at e0
    rw [e0]
    congr 1
    funext r
    fin_cases r <;> norm_num [gridPoint3, cornerBit]
  have f1 : p.disps.get? (p.mesh.matrix [1, 0, 0]) = some ![-2, 0, 0] := by
    rw [show edgePos3 (fun _ => 2) 0 0 1 = [1, 0, 0] from by rw [edgePos3_eq]; rfl] at e1
    rw [e1]
    congr 1
    funext r
    fin_cases r <;> norm_num [gridPoint3, cornerBit]
  have f3 : p.disps.get? (p.mesh.matrix [0, 1, 0]) = some ![0, 0, 0] := by
    rw [show edgePos3 (fun _ => 2) 0 1 1 = [0, 1, 0] from by rw [edgePos3_eq]; rfl] at e3
    rw [e3]
    congr 1
    funext r
    fin_cases r <;> norm_num [gridPoint3, cornerBit]
  have f4 : p.disps.get? (p.mesh.matrix [0, 0, 1]) = some ![0, 0, 0] := by
    rw [show edgePos3 (fun _ => 2) 0 2 1 = [0, 0, 1] from by rw [edgePos3_eq]; rfl] at e4
    rw [e4]
    congr 1
    funext r
    fin_cases r <;> norm_num [gridPoint3, cornerBit]
  refine ⟨p, _, _, _, _, hp, f0, f1, f3, f4, ?_⟩
  have hM : (Matrix.of ![![1, 0, 0] + ![-2, 0, 0] - ![0, 0, 0], ![0, 1, 0] + ![0, 0, 0] - ![0, 0, 0],
      ![0, 0, 1] + ![0, 0, 0] - ![0, 0, 0]] : Matrix (Fin 3) (Fin 3) ℝ) =
      !![-1, 0, 0; 0, 1, 0; 0, 0, 1] := by
    ext i j
    fin_cases i <;> fin_cases j <;> simp <;> norm_num
  rw [hM, Matrix.det_fin_three]
  simp

/-! ### The hypotheses are met -/

/-- The edges in the order of their labels on the bottom, top, left and right faces. -/
def someEdges (i : ℕ) : List (ℕ × ℕ) :=
  if i = 0 then [(0, 1), (3, 2), (4, 5), (7, 6)] else if i = 1 then [(0, 3), (1, 2), (4, 7), (5, 6)]
  else [(0, 4), (3, 7), (1, 5), (2, 6)]

theorem someEdges_lists : ListsEdges someEdges := by
  have k1 : ∀ i < 3, (someEdges i).Nodup := by decide
  have k2 : ∀ i < 3, ∀ x ∈ someEdges i, ∃ r ∈ patchEdges3, r.2.1 = i ∧ r.2.2.1 = x.1 ∧ r.2.2.2.1 = x.2 := by
    decide
  have k3 : ∀ r ∈ patchEdges3, (r.2.2.1, r.2.2.2.1) ∈ someEdges r.2.1 := by decide
  intro i hi
  refine ⟨k1 i hi, fun c d => ⟨fun h => ?_, fun ⟨lab, f, h⟩ => k3 _ h⟩⟩
  obtain ⟨⟨lab, i', c', d', f⟩, h1, h2, h3, h4⟩ := k2 i hi _ h
  simp only at h2 h3 h4
  subst h2 h3 h4
  exact ⟨lab, f, h1⟩

/-- a brick of `3 × 2 × 1` twenty-node elements with edges of order three and a rigid motion -/
example : ∃ p, generatePatch3 id someEdges ![3, 2, 1] "SHEXA20" [3, 2, 1]
    ⟨.none, .none, .int 3, .dict [("5", some [-1 / 10, 1 / 10])], some [("3", (0, 1))],
      some [("beta", (0, 90))], 1 / 100⟩ 10 halfDraws = .ok (true, some p) :=
  (C112_accepts isRounding_id (elem := "SHEXA20") (isEdge := true) (e := 3) (by simp [feKinds])
    (L := ![3, 2, 1]) (by intro r; fin_cases r <;> simp) (nElems := ![3, 2, 1])
    (by intro r; fin_cases r <;> simp) (by intro r; fin_cases r <;> norm_num) someEdges_lists
    (a := ⟨.none, .none, .int 3, .dict [("5", some [-1 / 10, 1 / 10])], some [("3", (0, 1))],
      some [("beta", (0, 90))], 1 / 100⟩) trivial trivial trivial (by
      intro lab _ _ v hv
      by_cases h : "5" = toString lab
      · simp only [KDict.get?, h, if_true, Option.some.injEq] at hv
        exact ⟨_, _, hv.symm, by norm_num⟩
      · simp only [KDict.get?, h, if_false] at hv
        cases hv) (by norm_num) halfDraws_ok fun _ h =>
      nonDegenerate3_of (by intro r; fin_cases r <;> simp) (corners_default h _)).1 (by simp) (by simp)

/-- a translated cube -/
example : ∃ p t, generatePatch3 id someEdges 1 "SHEXA8" [2, 2, 2]
    ⟨.none, .none, .none, .none, some [("1", (1, 3))], some [], 0⟩ 1 halfDraws = .ok (true, some p) ∧
    ∀ l v, p.disps.get? l = some v → v = t := by
  have hk : ("SHEXA8", true, 3, 2) ∈ feKinds := by simp [feKinds]
  have hn : ∀ r : Fin 3, 1 ≤ (fun _ => 2 : Fin 3 → ℕ) r ∧ (fun _ => 2 : Fin 3 → ℕ) r * (2 - 1) ≤ 2 ^ 50 := by
    norm_num
  have hres : ∀ r, 1 / 10 ^ 8 + 1 / 10 ^ 5 * (1 : Vec3) r <
      (1 : Vec3) r / ((fun _ => 2 : Fin 3 → ℕ) r * (2 - 1) : ℕ) := by
    norm_num
  obtain ⟨p, hp⟩ := (C112_accepts isRounding_id hk (L := 1) (by simp) hn hres someEdges_lists
    (a := ⟨.none, .none, .none, .none, some [("1", (1, 3))], some [], 0⟩) trivial trivial
    trivial trivial (le_refl 1) halfDraws_ok fun _ h => nonDegenerate3_of (by simp)
      (corners_default h 1)).1 (by simp) (by simp)
  obtain ⟨t, -, ht⟩ := C112_translation isRounding_id hk (L := 1) (by simp) hn hres someEdges_lists
    (order := .none) (by intro lab o h; simp only [EdgeOrder] at h; omega) (by
      rintro lab lo hi - - (⟨-, rfl, rfl⟩ | ⟨d, hd, -⟩)
      · exact le_rfl
      · cases hd) halfDraws_ok hp
  exact ⟨p, t, hp, ht⟩

end Hooke
