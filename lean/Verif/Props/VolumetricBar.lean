import Verif.Lemmas.VolumetricBar

/-! # C58: volumetric strain averaging -/

namespace Hooke

open Spec

/-- Volumetric strain at a Gauss point: the trace of the strain tensor. -/
noncomputable def volStrain (m n : ℕ) (u : Tensor) (p : GaussData) : ℝ :=
  ∑ i ∈ Finset.range n, (strainTensor m n p.deriv u).val [i, i]

/-- Volume-weighted average over the Gauss points of the volumetric strain. -/
noncomputable def avgVolStrain (m n : ℕ) (u : Tensor) (gps : List GaussData) : ℝ :=
  (gps.map fun p => p.weight * p.det * volStrain m n u p).sum / (gps.map fun p => p.weight * p.det).sum

/-- Row `k` of an operator applied to the nodal displacements. -/
noncomputable def rowApply (m n : ℕ) (u g : Tensor) (k : ℕ) : ℝ :=
  ∑ j ∈ Finset.range m, ∑ p ∈ Finset.range n, g.val [k, j * n + p] * u.val [j, p]

theorem node_col_lt {m n j p : ℕ} (hj : j < m) (hp : p < n) : j * n + p < m * n := by
  calc j * n + p < j * n + n := by omega
    _ = (j + 1) * n := by ring
    _ ≤ m * n := Nat.mul_le_mul_right _ hj

theorem ProblemData.complete {pt n : ℕ} {co : List Comp} (h : ProblemData pt n co) : CompleteSym n co := by
  rcases h with ⟨-, rfl, rfl⟩ | ⟨-, rfl, rfl⟩
  · exact sym2d_complete
  · exact sym3d_complete

theorem ProblemData.normal {pt n : ℕ} {co : List Comp} (h : ProblemData pt n co) :
    n ≤ co.length ∧ ∀ k < co.length, ∃ a b, co[k]? = some [a, b] ∧ (k < n ↔ a = b) ∧
      (k < n → a - 1 = k) := by
  rcases h with ⟨-, rfl, rfl⟩ | ⟨-, rfl, rfl⟩
  · refine ⟨by decide, fun k hk => ?_⟩
    have hk : k < 3 := hk
    interval_cases k <;> exact ⟨_, _, rfl, by decide, by decide⟩
  · refine ⟨by decide, fun k hk => ?_⟩
    have hk : k < 6 := hk
    interval_cases k <;> exact ⟨_, _, rfl, by decide, by decide⟩

theorem vbuild_rows {m n : ℕ} {co : List Comp} (h : CompleteSym n co) {d u : Tensor}
    (hd : d.shape = [m, n]) (hu : u.shape = [m, n]) :
    ∃ g, vbuildDiscreteSymGradient d co = .ok g ∧ g.shape = [co.length, m * n] ∧
      ∀ k a b, co[k]? = some [a, b] → rowApply m n u g k =
        if a = b then (strainTensor m n d u).val [a - 1, b - 1]
        else 2 * (strainTensor m n d u).val [a - 1, b - 1] := by
  obtain ⟨g, v, h1, h2, -, h3⟩ := C15_sym_gradient h hd hu
  obtain ⟨g1, g', h4, h5, hs, he⟩ := C16_sym h hd
  obtain ⟨g2, h6, h7, -⟩ := buildSym_spec h.toValidPairs h.two_length hd
  have e1 : g = g1 := by rw [h1] at h4; injection h4
  have e2 : g = g2 := by rw [h1] at h6; injection h6
  subst e1 e2
  obtain ⟨v', h8, -, h9⟩ := matVec_flatten h7 hu
  have e3 : v = v' := by rw [h2] at h8; injection h8
  subst e3
  refine ⟨g', h5, by rw [← hs, h7], fun k a b hk => ?_⟩
  rw [← h3 k a b hk, h9]
  refine Finset.sum_congr rfl fun j hj => Finset.sum_congr rfl fun p hp => ?_
  rw [he]
  rw [h7]
  have hkl : k < co.length := (List.getElem?_eq_some_iff.1 hk).1
  have := node_col_lt (Finset.mem_range.1 hj) (Finset.mem_range.1 hp)
  simp [InBounds, hkl, this]

theorem rows_trace {pt m n : ℕ} {co : List Comp} (hp : ProblemData pt n co) {d u g : Tensor}
    (h : ∀ k a b, co[k]? = some [a, b] → rowApply m n u g k =
        if a = b then (strainTensor m n d u).val [a - 1, b - 1]
        else 2 * (strainTensor m n d u).val [a - 1, b - 1]) :
    ∑ i ∈ Finset.range n, rowApply m n u g i = ∑ i ∈ Finset.range n, (strainTensor m n d u).val [i, i] := by
  refine Finset.sum_congr rfl fun i hi => ?_
  have hi := Finset.mem_range.1 hi
  obtain ⟨a, b, h1, h2, h3⟩ := hp.normal.2 i (lt_of_lt_of_le hi hp.normal.1)
  rw [h i a b h1, if_pos (h2.1 hi), ← h2.1 hi, h3 hi]

theorem rowApply_sum (m n : ℕ) (u g : Tensor) (c : ℝ) (s : ℕ) :
    ∑ j ∈ Finset.range m, ∑ p ∈ Finset.range n,
      ((∑ i ∈ Finset.range s, g.val [i, j * n + p]) / c) * u.val [j, p] =
      (∑ i ∈ Finset.range s, rowApply m n u g i) / c := by
  unfold rowApply
  have : ∀ j, ∑ p ∈ Finset.range n, ((∑ i ∈ Finset.range s, g.val [i, j * n + p]) / c) * u.val [j, p] =
      (∑ i ∈ Finset.range s, ∑ p ∈ Finset.range n, g.val [i, j * n + p] * u.val [j, p]) / c := by
    intro j
    rw [Finset.sum_comm, Finset.sum_div]
    refine Finset.sum_congr rfl fun p _ => ?_
    rw [← Finset.sum_mul]; ring
  simp only [this]
  rw [← Finset.sum_div, Finset.sum_comm]

theorem localVol_rows {pt m n : ℕ} {co : List Comp} (hp : ProblemData pt n co) {u : Tensor}
    (hu : u.shape = [m, n]) (p : GaussData) (hd : p.deriv.shape = [m, n]) :
    ∃ r, localVolGradOperator pt p = .ok (r, p.weight * p.det) ∧ r.shape = [co.length, m * n] ∧
      ∀ k < co.length, rowApply m n u r k =
        p.weight * p.det * if k < n then volStrain m n u p / 3 else 0 := by
  obtain ⟨l, hl⟩ := hp.params
  obtain ⟨g, h1, h2, h3⟩ := vbuild_rows hp.complete hd hu
  obtain ⟨h, h4, h5, h6⟩ := localVol_spec hp h2
  refine ⟨⟨h.shape, fun idx => p.weight * (h.val idx * p.det)⟩, ?_, h5, fun k hk => ?_⟩
  · simp [localVolGradOperator, hl, h1, h4, pure, Except.pure, bind, Except.bind]
  · have : rowApply m n u ⟨h.shape, fun idx => p.weight * (h.val idx * p.det)⟩ k =
        p.weight * p.det * ∑ j ∈ Finset.range m, ∑ q ∈ Finset.range n,
          (if k < n then (∑ i ∈ Finset.range n, g.val [i, j * n + q]) / 3 else 0) * u.val [j, q] := by
      unfold rowApply
      rw [Finset.mul_sum]
      refine Finset.sum_congr rfl fun j hj => ?_
      rw [Finset.mul_sum]
      refine Finset.sum_congr rfl fun q hq => ?_
      dsimp only
      rw [h6 k hk _ (node_col_lt (Finset.mem_range.1 hj) (Finset.mem_range.1 hq))]
      ring
    rw [this]
    congr 1
    by_cases hkn : k < n
    · simp only [if_pos hkn]
      rw [rowApply_sum, rows_trace hp h3, volStrain]
    · simp [hkn]

theorem rowApply_list (m n k : ℕ) (u : Tensor) (s : List ℕ) (c : ℝ) (l : List (Tensor × ℝ)) :
    rowApply m n u ⟨s, fun idx => c * (l.map fun r => r.1.val idx).sum⟩ k =
      c * (l.map fun r => rowApply m n u r.1 k).sum := by
  induction l with
  | nil => simp [rowApply]
  | cons r l ih =>
    simp only [List.map_cons, List.sum_cons, mul_add]
    rw [← ih]
    simp only [rowApply, ← Finset.sum_add_distrib, Finset.mul_sum]
    refine Finset.sum_congr rfl fun j _ => Finset.sum_congr rfl fun p _ => ?_
    ring

theorem elementVol_rows {pt m n : ℕ} {co : List Comp} (hp : ProblemData pt n co) {u : Tensor}
    (hu : u.shape = [m, n]) (gps : List GaussData) (hne : gps ≠ [])
    (hd : ∀ p ∈ gps, p.deriv.shape = [m, n]) :
    ∃ r, elementVolGrad pt gps = .ok r ∧ r.shape = [co.length, m * n] ∧
      ∀ k < co.length, rowApply m n u r k = if k < n then avgVolStrain m n u gps / 3 else 0 := by
  have main : ∃ l, gps.mapM (localVolGradOperator pt) = .ok l ∧
      l.map Prod.snd = gps.map (fun p => p.weight * p.det) ∧ (∀ r ∈ l, r.1.shape = [co.length, m * n]) ∧
      ∀ k < co.length, (l.map fun r => rowApply m n u r.1 k) =
        gps.map fun p => p.weight * p.det * if k < n then volStrain m n u p / 3 else 0 := by
    clear hne
    induction gps with
    | nil => exact ⟨[], rfl, rfl, by simp, by simp⟩
    | cons p gps ih =>
      obtain ⟨l, h1, h2, h3, h4⟩ := ih fun q hq => hd q (by simp [hq])
      obtain ⟨r, h5, h6, h7⟩ := localVol_rows hp hu p (hd p (by simp))
      refine ⟨(r, p.weight * p.det) :: l, ?_, ?_, ?_, ?_⟩
      · rw [List.mapM_cons, h5, h1]; rfl
      · simp [h2]
      · simpa using ⟨h6, fun a b hab => h3 (a, b) hab⟩
      · intro k hk; simp [h4 k hk, h7 k hk]
  obtain ⟨l, h1, h2, h3, h4⟩ := main
  cases hl : l with
  | nil =>
    rw [hl] at h2
    cases gps with
    | nil => exact absurd rfl hne
    | cons => simp at h2
  | cons r0 l' =>
    have hs : r0.1.shape = [co.length, m * n] := h3 r0 (by simp [hl])
    refine ⟨⟨r0.1.shape, fun idx => 1 / (l.map Prod.snd).sum * (l.map fun r => r.1.val idx).sum⟩, ?_, hs, ?_⟩
    · simp [elementVolGrad, h1, hl, orRaise, pure, Except.pure, bind, Except.bind]
    · intro k hk
      rw [rowApply_list, h4 k hk, h2, avgVolStrain]
      by_cases hkn : k < n
      · simp only [if_pos hkn]
        have : (gps.map fun p => p.weight * p.det * (volStrain m n u p / 3)).sum =
            (gps.map fun p => p.weight * p.det * volStrain m n u p).sum / 3 := by
          rw [div_eq_inv_mul, ← List.sum_map_mul_left]
          congr 1; apply List.map_congr_left; intro p _; ring
        rw [this]; ring
      · simp [hkn]

/-- **C58.** For two- and three-dimensional problems, any number of nodes, any Gauss points and any
displacements, the strain of the averaged formulation at a point is the strain of the interpolated
field there, changed on the diagonal only: a third of the average volumetric strain of the element is
added and the volumetric strain of the point, divided by the number of dimensions, is subtracted. -/
theorem C58_strain {pt m n : ℕ} {co : List Comp} (hp : ProblemData pt n co) {u : Tensor}
    (hu : u.shape = [m, n]) (gps : List GaussData) (hne : gps ≠ [])
    (hd : ∀ p ∈ gps, p.deriv.shape = [m, n]) (p : GaussData) (hdp : p.deriv.shape = [m, n]) :
    ∃ avg v bar, elementVolGrad pt gps = .ok avg ∧ localStrainVbar pt avg p u = .ok (v, bar) ∧
      IsEngVoigt co ⟨[n, n], fun idx => (strainTensor m n p.deriv u).val idx +
        if idx.getD 0 0 = idx.getD 1 0 then avgVolStrain m n u gps / 3 - volStrain m n u p / n else 0⟩ v := by
  obtain ⟨l, hl⟩ := hp.params
  obtain ⟨avg, h1, h2, h3⟩ := elementVol_rows hp hu gps hne hd
  obtain ⟨g, h4, h5, h6⟩ := vbuild_rows hp.complete hdp hu
  obtain ⟨dev, h7, h8, h9⟩ := localDev_spec hp h5
  obtain ⟨v, h10, h11, h12⟩ := matVec_flatten (g := ⟨avg.shape, fun idx => avg.val idx + dev.val idx⟩) h2 hu
  refine ⟨avg, v, ⟨avg.shape, fun idx => avg.val idx + dev.val idx⟩, h1, ?_, h11, ?_⟩
  · simp [localStrainVbar, hl, h4, h7, addOperators, h2, h8, ← h10, pure, Except.pure, bind, Except.bind]
    rw [h2] at h10
    rw [h10]
  · intro k a b hk
    have hkl : k < co.length := (List.getElem?_eq_some_iff.1 hk).1
    obtain ⟨a', b', hk', hiff, -⟩ := hp.normal.2 k hkl
    obtain ⟨rfl, rfl⟩ : a' = a ∧ b' = b := by
      rw [hk'] at hk; simpa using hk
    have hsplit : v.val [k] = rowApply m n u avg k + (rowApply m n u g k -
        if k < n then (∑ i ∈ Finset.range n, rowApply m n u g i) / n else 0) := by
      rw [h12]
      have hz : (if k < n then (∑ i ∈ Finset.range n, rowApply m n u g i) / (n : ℝ) else 0) =
          ∑ j ∈ Finset.range m, ∑ q ∈ Finset.range n,
            (if k < n then (∑ i ∈ Finset.range n, g.val [i, j * n + q]) / (n : ℝ) else 0) * u.val [j, q] := by
        by_cases hkn : k < n
        · simp only [if_pos hkn, rowApply_sum]
        · simp [hkn]
      rw [hz]
      unfold rowApply
      rw [← Finset.sum_sub_distrib, ← Finset.sum_add_distrib]
      refine Finset.sum_congr rfl fun j hj => ?_
      rw [← Finset.sum_sub_distrib, ← Finset.sum_add_distrib]
      refine Finset.sum_congr rfl fun q hq => ?_
      dsimp only
      rw [h9 k hkl _ (node_col_lt (Finset.mem_range.1 hj) (Finset.mem_range.1 hq))]
      ring
    rw [hsplit, h3 k hkl, h6 k _ _ hk', rows_trace hp h6]
    obtain ⟨a2, b2, ha1, ha2, hb1, hb2, he⟩ := hp.complete.pair _ (List.mem_of_getElem? hk')
    obtain ⟨rfl, rfl⟩ : a' = a2 ∧ b' = b2 := by simpa using he
    by_cases hab : a' = b'
    · simp only [if_pos hab, if_pos (hiff.2 hab), volStrain, hab, List.getD_cons_zero, List.getD_cons_succ, if_true]
      ring
    · have : ¬ a' - 1 = b' - 1 := by omega
      simp only [if_neg hab, if_neg (fun h => hab (hiff.1 h)), List.getD_cons_zero, List.getD_cons_succ, if_neg this]
      ring

/-- **C58, three dimensions.** The averaged strain has the deviatoric part of the point and the average
volumetric part of the element; if the volumetric strain is the same at all Gauss points and at the
point, it is the strain of the point. -/
theorem C58_3d {m : ℕ} {u : Tensor} (hu : u.shape = [m, 3]) (gps : List GaussData) (hne : gps ≠ [])
    (hd : ∀ p ∈ gps, p.deriv.shape = [m, 3]) (p : GaussData) (hdp : p.deriv.shape = [m, 3])
    (hvol : (gps.map fun p => p.weight * p.det).sum ≠ 0)
    (hom : ∀ q ∈ gps, volStrain m 3 u q = volStrain m 3 u p) :
    ∃ avg v bar, elementVolGrad 4 gps = .ok avg ∧ localStrainVbar 4 avg p u = .ok (v, bar) ∧
      IsEngVoigt sym3d (strainTensor m 3 p.deriv u) v := by
  obtain ⟨avg, v, bar, h1, h2, h3, h4⟩ := C58_strain (.inr ⟨rfl, rfl, rfl⟩) hu gps hne hd p hdp
  have hav : avgVolStrain m 3 u gps = volStrain m 3 u p := by
    rw [avgVolStrain, div_eq_iff hvol, ← List.sum_map_mul_left]
    congr 1
    apply List.map_congr_left
    intro q hq
    rw [hom q hq]; ring
  refine ⟨avg, v, bar, h1, h2, h3, fun k a b hk => ?_⟩
  rw [h4 k a b hk, hav]
  norm_num

/-- **C58, violated in two dimensions.** With a uniform volumetric strain the averaged strain is the
strain of the point minus a sixth of the volumetric strain on the diagonal: it is the strain of the
point only if the volumetric strain vanishes. -/
theorem C58_2d_violated {m : ℕ} {u : Tensor} (hu : u.shape = [m, 2]) (gps : List GaussData) (hne : gps ≠ [])
    (hd : ∀ p ∈ gps, p.deriv.shape = [m, 2]) (p : GaussData) (hdp : p.deriv.shape = [m, 2])
    (hvol : (gps.map fun p => p.weight * p.det).sum ≠ 0)
    (hom : ∀ q ∈ gps, volStrain m 2 u q = volStrain m 2 u p) :
    ∃ avg v bar, elementVolGrad 1 gps = .ok avg ∧ localStrainVbar 1 avg p u = .ok (v, bar) ∧
      IsEngVoigt sym2d ⟨[2, 2], fun idx => (strainTensor m 2 p.deriv u).val idx -
        if idx.getD 0 0 = idx.getD 1 0 then volStrain m 2 u p / 6 else 0⟩ v ∧
      (IsEngVoigt sym2d (strainTensor m 2 p.deriv u) v ↔ volStrain m 2 u p = 0) := by
  obtain ⟨avg, v, bar, h1, h2, h3, h4⟩ := C58_strain (.inl ⟨rfl, rfl, rfl⟩) hu gps hne hd p hdp
  have hav : avgVolStrain m 2 u gps = volStrain m 2 u p := by
    rw [avgVolStrain, div_eq_iff hvol, ← List.sum_map_mul_left]
    congr 1
    apply List.map_congr_left
    intro q hq
    rw [hom q hq]; ring
  have h5 : IsEngVoigt sym2d ⟨[2, 2], fun idx => (strainTensor m 2 p.deriv u).val idx -
        if idx.getD 0 0 = idx.getD 1 0 then volStrain m 2 u p / 6 else 0⟩ v := by
    refine ⟨h3, fun k a b hk => ?_⟩
    rw [h4 k a b hk, hav]
    dsimp only
    split_ifs <;> push_cast <;> ring
  refine ⟨avg, v, bar, h1, h2, h5, fun h => ?_, fun h => ?_⟩
  · have e1 := h.2 0 1 1 rfl
    have e2 := h5.2 0 1 1 rfl
    simp only [if_true, List.getD_cons_zero, List.getD_cons_succ] at e1 e2
    linarith
  · refine ⟨h3, fun k a b hk => ?_⟩
    rw [h5.2 k a b hk, h]
    split_ifs <;> simp

/-- **C58.** The volumetric and deviatoric operators of a three-dimensional gradient add up to it. -/
theorem C58_split_3d {m : ℕ} {g : Tensor} (hg : g.shape = [6, m * 3]) :
    ∃ V D, localVolSymGradient g 3 = .ok V ∧ localDevSymGradient g 3 = .ok D ∧
      V.shape = g.shape ∧ D.shape = g.shape ∧
      ∀ k < 6, ∀ q < m * 3, V.val [k, q] + D.val [k, q] = g.val [k, q] := by
  obtain ⟨V, h1, h2, h3⟩ := localVol_spec (pt := 4) (.inr ⟨rfl, rfl, rfl⟩) hg
  obtain ⟨D, h4, h5, h6⟩ := localDev_spec (pt := 4) (.inr ⟨rfl, rfl, rfl⟩) hg
  refine ⟨V, D, h1, h4, by rw [h2, hg]; rfl, by rw [h5, hg]; rfl, fun k hk q hq => ?_⟩
  rw [h3 k hk q hq, h6 k hk q hq]
  norm_num

/-- **C58, violated in two dimensions.** The two operators of a two-dimensional gradient miss a sixth of
its volumetric row on the normal components. -/
theorem C58_split_2d_violated {m : ℕ} {g : Tensor} (hg : g.shape = [3, m * 2]) :
    ∃ V D, localVolSymGradient g 2 = .ok V ∧ localDevSymGradient g 2 = .ok D ∧
      ∀ k < 3, ∀ q < m * 2, V.val [k, q] + D.val [k, q] = g.val [k, q] -
        if k < 2 then (g.val [0, q] + g.val [1, q]) / 6 else 0 := by
  obtain ⟨V, h1, h2, h3⟩ := localVol_spec (pt := 1) (.inl ⟨rfl, rfl, rfl⟩) hg
  obtain ⟨D, h4, h5, h6⟩ := localDev_spec (pt := 1) (.inl ⟨rfl, rfl, rfl⟩) hg
  refine ⟨V, D, h1, h4, fun k hk q hq => ?_⟩
  rw [h3 k hk q hq, h6 k hk q hq]
  simp only [Finset.sum_range_succ, Finset.sum_range_zero]
  split_ifs <;> push_cast <;> ring

section Examples

/-- A point with two nodes and derivatives `∂N/∂x = (1, 0), (0, 1)`, stretched in the first direction:
the hypotheses hold and the volumetric strain is not zero. -/
example : ∃ (u : Tensor) (p : GaussData), u.shape = [2, 2] ∧ p.deriv.shape = [2, 2] ∧
    ([p].map fun p => p.weight * p.det).sum ≠ 0 ∧ volStrain 2 2 u p ≠ 0 := by
  refine ⟨⟨[2, 2], fun i => if i = [0, 0] then 1 else 0⟩,
    ⟨2, ⟨[2, 2], fun i => if i = [0, 0] ∨ i = [1, 1] then 1 else 0⟩, 1⟩, rfl, rfl, by norm_num, ?_⟩
  simp [volStrain, strainTensor, dispGrad, Finset.sum_range_succ]

end Examples

end Hooke
