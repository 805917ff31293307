import Verif.Lemmas.Voigt
import Verif.Props.Kelvin
import Mathlib.Tactic.LinearCombination

/-!
# C07, C08: Voigt notation
-/

namespace Hooke

open Spec

/-- C07a: a symmetric strain tensor is recovered from its engineering Voigt vector. -/
theorem C07_strain_recovered {n : ℕ} {co : List Comp} (h : CompleteSym n co) {e v : Tensor}
    (he : IsSym2 n e) (hv : IsEngVoigt co e v) :
    ∃ u, getStrainFromVmf v n co = .ok u ∧ SameTensor u e := by
  obtain ⟨u, h1, h2, h3⟩ := getStrainFromVmf_sym h hv.1
  refine ⟨u, h1, same_two h2 he.1 ?_⟩
  intro i hi j hj
  obtain ⟨c, hc, hr⟩ := h.exists_rep hi hj
  rw [h3 c hc i j hr, engVoigt_val h.toValidPairs hv hc, ← mul_assoc,
    one_div_mul_cancel (engFactor_pos c).ne', one_mul]
  rcases hr with ⟨rfl, rfl⟩ | ⟨rfl, rfl⟩
  · rfl
  · exact he.2 _ hj _ hi

/-- C07b: every vector is the engineering Voigt vector of the (symmetric) strain tensor
recovered from it. -/
theorem C07_vector_recovered {n : ℕ} {co : List Comp} (h : CompleteSym n co) {v : Tensor}
    (hv : v.shape = [co.length]) :
    ∃ u, getStrainFromVmf v n co = .ok u ∧ IsSym2 n u ∧ IsEngVoigt co u v := by
  obtain ⟨u, h1, h2, h3⟩ := getStrainFromVmf_sym h hv
  refine ⟨u, h1, ⟨h2, ?_⟩, hv, ?_⟩
  · intro i hi j hj
    obtain ⟨c, hc, hr⟩ := h.exists_rep hi hj
    rw [h3 c hc i j hr, h3 c hc j i (by unfold Comp.Rep at *; tauto)]
  · intro k a b hk
    have hc : [a, b] ∈ co := List.mem_of_getElem? hk
    obtain ⟨hlt, hge⟩ := List.getElem?_eq_some_iff.1 hk
    have hidx : co.idxOf [a, b] = k := by rw [← hge]; exact h.nodup.idxOf_getElem k hlt
    have := h3 _ hc (a - 1) (b - 1) (Or.inl (by simp [Comp.i, Comp.j]))
    rw [this, hidx]
    obtain ⟨a', b', h1, h2, h3, h4, heq⟩ := h.pair _ hc
    simp at heq
    obtain ⟨rfl, rfl⟩ := heq
    have e : (a - 1 = b - 1) ↔ a = b := by omega
    by_cases hab : a = b <;> simp [engFactor, Comp.i, Comp.j, e, hab]

/-- C07c: Voigt stress and engineering strain vectors are work conjugate. -/
theorem C07_work_conjugate {n : ℕ} {co : List Comp} (h : CompleteSym n co) {s e sv ev : Tensor}
    (hs : IsSym2 n s) (he : IsSym2 n e) (hsv : getStressVmf s n co = .ok sv)
    (hev : IsEngVoigt co e ev) :
    ∑ k ∈ Finset.range co.length, sv.val [k] * ev.val [k] =
      ∑ i ∈ Finset.range n, ∑ j ∈ Finset.range n, s.val [i, j] * e.val [i, j] := by
  obtain ⟨m, h1, h2, h3⟩ := getStressVmf_two h.toValidPairs hs.1
  obtain rfl : m = sv := by rw [h1] at hsv; simpa using hsv
  rw [sum_range_eq_map h.nodup, sum_pairs_sym h]
  · congr 1
    apply List.map_congr_left
    intro c hc
    rw [h3 c hc, engVoigt_val h.toValidPairs hev hc, engFactor]
    ring
  · intro i hi j hj
    rw [hs.2 i hi j hj, he.2 i hi j hj]

/-- C07d: the vectorised strain conversion agrees with the loop one. -/
theorem C07_vget_strain {n : ℕ} {co : List Comp} (h : CompleteSym n co) {v : Tensor}
    (hv : v.shape = [co.length]) :
    ∃ t t', getStrainFromVmf v n co = .ok t ∧ vgetStrainFromVmf v n co = .ok t' ∧
      SameTensor t t' := by
  obtain ⟨t, h1, h2, h3⟩ := getStrainFromVmf_sym h hv
  obtain ⟨t', h4, h5, h6⟩ := vgetStrainFromVmf_sym h hv
  refine ⟨t, t', h1, h4, same_two h2 h5 ?_⟩
  intro i hi j hj
  obtain ⟨c, hc, hr⟩ := h.exists_rep hi hj
  rw [h3 c hc i j hr, h6 c hc i j hr]

/-- C07e: the vectorised stress conversion agrees with the loop one and lists the
components of the tensor unchanged. -/
theorem C07_vget_stress {n : ℕ} {co : List Comp} (h : CompleteSym n co) {t : Tensor}
    (ht : t.shape = [n, n]) :
    ∃ m m', getStressVmf t n co = .ok m ∧ vgetStressVmf t n co = .ok m' ∧ SameTensor m m' ∧
      ∀ k a b, co[k]? = some [a, b] → m.val [k] = t.val [a - 1, b - 1] := by
  obtain ⟨m, h1, h2, h3⟩ := getStressVmf_two h.toValidPairs ht
  obtain ⟨m', h4, h5, h6⟩ := vgetStressVmf_two h.toValidPairs ht
  refine ⟨m, m', h1, h4, same_mf h.nodup h2 h5 fun c hc => by rw [h3 c hc, h6 c hc], ?_⟩
  intro k a b hk
  have hc : [a, b] ∈ co := List.mem_of_getElem? hk
  obtain ⟨hlt, hge⟩ := List.getElem?_eq_some_iff.1 hk
  have hidx : co.idxOf [a, b] = k := by rw [← hge]; exact h.nodup.idxOf_getElem k hlt
  rw [← hidx, h3 _ hc]
  simp [Comp.i, Comp.j]

example : CompleteSym 2 sym2d ∧ IsSym2 2 ⟨[2, 2], fun _ => 1⟩ ∧
    IsEngVoigt sym2d ⟨[2, 2], fun _ => 1⟩ ⟨[3], fun k => if k = [2] then 2 else 1⟩ := by
  refine ⟨sym2d_complete, ⟨rfl, fun _ _ _ _ => rfl⟩, rfl, ?_⟩
  intro k a b hk
  rcases k with _ | _ | _ | k <;> simp [sym2d] at hk <;> obtain ⟨rfl, rfl⟩ := hk <;> simp

/-! ## C08 projections -/

/-- C08: the matrices returned by `get_projection_tensors_vmf` sum to the identity, are
idempotent, annihilate each other, and the deviatoric part of every vector has normal
components of zero sum. -/
theorem C08_projections {n : ℕ} (hn : 1 ≤ n) {co : List Comp} (h : CompleteSym n co) :
    ∃ V D : ℕ → ℕ → ℝ, getProjectionTensorsVmf n co = .ok (V, D) ∧
      (∀ k l, V k l + D k l = if k = l then 1 else 0) ∧
      (∀ k l, ∑ p ∈ Finset.range co.length, V k p * V p l = V k l) ∧
      (∀ k < co.length, ∀ l < co.length,
        ∑ p ∈ Finset.range co.length, D k p * D p l = D k l) ∧
      (∀ k < co.length, ∀ l < co.length, ∑ p ∈ Finset.range co.length, V k p * D p l = 0) ∧
      (∀ k < co.length, ∀ l < co.length, ∑ p ∈ Finset.range co.length, D k p * V p l = 0) ∧
      (∀ x : ℕ → ℝ, ∑ k ∈ (Finset.range co.length).filter
          (fun k => (co.getD k []).getD 0 0 = (co.getD k []).getD 1 0),
          (∑ l ∈ Finset.range co.length, D k l * x l) = 0) ∧
      (∀ x : ℕ → ℝ, ∀ k < co.length, ∑ l ∈ Finset.range co.length, V k l * x l =
        if (co.getD k []).getD 0 0 = (co.getD k []).getD 1 0 then
          (∑ l ∈ (Finset.range co.length).filter
            (fun l => (co.getD l []).getD 0 0 = (co.getD l []).getD 1 0), x l) / n else 0) := by
  have hn0 : (n : ℝ) ≠ 0 := by positivity
  have hsum := sum_volIndicator h
  have hVV : ∀ k l, ∑ p ∈ Finset.range co.length, volProjVmf n co k p * volProjVmf n co p l =
      volProjVmf n co k l := by
    intro k l
    have : ∀ p, volProjVmf n co k p * volProjVmf n co p l =
        (1 / n) * (1 / n) * (volIndicator co k * volIndicator co l) * volIndicator co p := by
      intro p
      have hp := volIndicator_sq co p
      rw [volProjVmf, volProjVmf]
      linear_combination (1 / (n : ℝ)) * (1 / n) * (volIndicator co k * volIndicator co l) * hp
    simp only [this]
    rw [← Finset.mul_sum, hsum, volProjVmf]
    field_simp
  have hid : ∀ (f : ℕ → ℝ) (k), k < co.length →
      ∑ p ∈ Finset.range co.length, (if k = p then 1 else 0) * f p = f k := by
    intro f k hk
    simp [hk]
  have hid' : ∀ (f : ℕ → ℝ) (k), k < co.length →
      ∑ p ∈ Finset.range co.length, f p * (if p = k then 1 else 0) = f k := by
    intro f k hk
    simp [hk]
  have hVD : ∀ k < co.length, ∀ l < co.length,
      ∑ p ∈ Finset.range co.length, volProjVmf n co k p * devProjVmf n co p l = 0 := by
    intro k hk l hl
    simp only [devProjVmf, mul_sub, Finset.sum_sub_distrib]
    rw [hid' _ _ hl, hVV, sub_self]
  have hDV : ∀ k < co.length, ∀ l < co.length,
      ∑ p ∈ Finset.range co.length, devProjVmf n co k p * volProjVmf n co p l = 0 := by
    intro k hk l hl
    simp only [devProjVmf, sub_mul, Finset.sum_sub_distrib]
    rw [hid _ _ hk, hVV, sub_self]
  have hflt : ∀ f : ℕ → ℝ, ∑ k ∈ (Finset.range co.length).filter
      (fun k => (co.getD k []).getD 0 0 = (co.getD k []).getD 1 0), f k =
      ∑ k ∈ Finset.range co.length, volIndicator co k * f k := by
    intro f
    rw [Finset.sum_filter]
    apply Finset.sum_congr rfl
    intro k _
    unfold volIndicator
    split <;> simp
  have hcol : ∀ l < co.length, ∑ k ∈ Finset.range co.length,
      volIndicator co k * devProjVmf n co k l = 0 := by
    intro l hl
    have : ∀ k, volIndicator co k * devProjVmf n co k l =
        volIndicator co k * (if k = l then 1 else 0)
          - (1 / n) * volIndicator co l * volIndicator co k := by
      intro k
      rw [devProjVmf, volProjVmf]
      nth_rewrite 4 [← volIndicator_sq co k]
      ring
    simp only [this, Finset.sum_sub_distrib]
    rw [hid' _ _ hl, ← Finset.mul_sum, hsum]
    field_simp
    ring
  refine ⟨volProjVmf n co, devProjVmf n co, ?_, ?_, hVV, ?_, hVD, hDV, ?_, ?_⟩
  · simp only [getProjectionTensorsVmf, h.toValidPairs.any_short, if_neg (show n ≠ 0 by omega)]
    simp
  · intro k l; simp [devProjVmf]
  · intro k hk l hl
    have : ∀ p, devProjVmf n co k p * devProjVmf n co p l =
        (if k = p then 1 else 0) * devProjVmf n co p l
          - volProjVmf n co k p * devProjVmf n co p l := by
      intro p; rw [devProjVmf]; ring
    simp only [this, Finset.sum_sub_distrib]
    rw [hVD k hk l hl, hid _ _ hk, sub_zero]
  · intro x
    rw [hflt]
    simp only [Finset.mul_sum]
    rw [Finset.sum_comm]
    apply Finset.sum_eq_zero
    intro l hl
    have := hcol l (Finset.mem_range.1 hl)
    simp only [← mul_assoc]
    rw [← Finset.sum_mul, this, zero_mul]
  · intro x k hk
    rw [hflt]
    have : ∀ l, volProjVmf n co k l * x l =
        volIndicator co k * ((1 / n) * (volIndicator co l * x l)) := by
      intro l; rw [volProjVmf]; ring
    simp only [this]
    rw [← Finset.mul_sum, ← Finset.mul_sum]
    unfold volIndicator
    split
    · field_simp
    · simp

example : 1 ≤ 3 ∧ CompleteSym 3 sym3d := ⟨by norm_num, sym3d_complete⟩

end Hooke
