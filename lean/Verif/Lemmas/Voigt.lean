import Verif.Lemmas.SameTensor

namespace Hooke

open Spec

/-- Engineering factor. -/
noncomputable def engFactor (c : Comp) : ℝ := if c.i = c.j then 1 else 2

theorem engFactor_pos (c : Comp) : 0 < engFactor c := by unfold engFactor; split <;> norm_num

/-- Assignments of one step of the strain loop. -/
noncomputable def strainWrites (v : Tensor) (co : List Comp) (c : Comp) : List (List ℕ × ℝ) :=
  let x := (1 / engFactor c) * v.val [co.idxOf c]
  (if c.i ≠ c.j then [([c.j, c.i], x)] else []) ++ [([c.i, c.j], x)]

theorem strainStep_eq (v co) (t : Tensor) (c : Comp) :
    strainStep v co t c = t.writes (strainWrites v co c) := by
  unfold strainStep strainWrites engFactor
  by_cases h : c.i = c.j <;> simp [h, Tensor.writes]

theorem mem_strainWrites {v co} {c : Comp} {w : List ℕ × ℝ} (h : w ∈ strainWrites v co c) :
    w.2 = (1 / engFactor c) * v.val [co.idxOf c] ∧
      (w.1 = [c.i, c.j] ∨ w.1 = [c.j, c.i]) := by
  unfold strainWrites at h
  by_cases e : c.i = c.j <;> simp [e] at h <;> aesop

theorem getStrainFromVmf_sym {n : ℕ} {co : List Comp} (h : CompleteSym n co)
    {v : Tensor} (hv : v.shape = [co.length]) :
    ∃ t, getStrainFromVmf v n co = .ok t ∧ t.shape = [n, n] ∧
      ∀ c ∈ co, ∀ i j, c.Rep i j → t.val [i, j] = (1 / engFactor c) * v.val [co.idxOf c] := by
  obtain ⟨h1, h2, h3⟩ := h.toValidPairs.checks
  refine ⟨(Tensor.zeros [n, n]).writes (co.flatMap (strainWrites v co)), ?_, ?_, ?_⟩
  · have e := foldl_eq_writes _ _ (strainStep_eq v co) co (Tensor.zeros [n, n])
    simp [getStrainFromVmf, h1, h2, h3, pure, Except.pure, hv, e]
  · simp [Tensor.zeros]
  · intro c hc i j hr
    apply Tensor.writes_val
    · intro w hw e
      obtain ⟨d, hd, hw⟩ := List.mem_flatMap.1 hw
      obtain ⟨hv, hi⟩ := mem_strainWrites hw
      have hdr : d.Rep i j := by
        rw [e] at hi; simp at hi; unfold Comp.Rep; omega
      rw [hv, h.rep_unique hc hd hr hdr]
    · refine ⟨([i, j], (1 / engFactor c) * v.val [co.idxOf c]),
        List.mem_flatMap.2 ⟨c, hc, ?_⟩, rfl⟩
      unfold strainWrites
      rcases hr with ⟨rfl, rfl⟩ | ⟨rfl, rfl⟩
      · simp
      · by_cases e : c.i = c.j <;> simp [e]

theorem vgetStrainFromVmf_sym {n : ℕ} {co : List Comp} (h : CompleteSym n co)
    {v : Tensor} (hv : v.shape = [co.length]) :
    ∃ t, vgetStrainFromVmf v n co = .ok t ∧ t.shape = [n, n] ∧
      ∀ c ∈ co, ∀ i j, c.Rep i j → t.val [i, j] = (1 / engFactor c) * v.val [co.idxOf c] := by
  simp only [vgetStrainFromVmf, hv, h.toValidPairs.any_short,
    gather_sym_total h, ne_eq, not_true_eq_false]
  refine ⟨_, rfl, rfl, ?_⟩
  intro c hc i j hr
  simp only [List.getD_cons_zero, List.getD_cons_succ, gatherIndex_sym h hc hr,
    Option.getD_some, getD_idxOf hc]
  obtain ⟨a, b, h1, h2, h3, h4, rfl⟩ := h.pair c hc
  have e : (a - 1 = b - 1) ↔ a = b := by omega
  by_cases hab : a = b <;> simp [engFactor, Comp.i, Comp.j, e, hab, mul_comm]

theorem getStressVmf_two {n : ℕ} {co : List Comp} (h : ValidPairs n co)
    {t : Tensor} (ht : t.shape = [n, n]) :
    ∃ m, getStressVmf t n co = .ok m ∧ m.shape = [co.length] ∧
      ∀ c ∈ co, m.val [co.idxOf c] = t.val [c.i, c.j] := by
  obtain ⟨h1, h2, h3⟩ := h.checks
  let g : Comp → List (List ℕ × ℝ) := fun c => [([co.idxOf c], t.val [c.i, c.j])]
  have hb : co.any (fun c => decide (n ≤ c.i ∨ n ≤ c.j)) = false := by
    simp only [List.any_eq_false]
    intro c hc
    have := h.ij hc
    simp only [decide_eq_true_eq]; omega
  refine ⟨(Tensor.zeros [co.length]).writes (co.flatMap g), ?_, by simp [Tensor.zeros], ?_⟩
  · have e := foldl_eq_writes (fun (mf : Tensor) (c : Comp) =>
      mf.set [co.idxOf c] (t.val [c.i, c.j])) g (fun t a => rfl) co (Tensor.zeros [co.length])
    simp only [getStressVmf, ht, h1, h2, h3, hb, pure, Except.pure, e]
    simp
  · intro c hc
    apply Tensor.writes_val
    · intro w hw
      simp only [List.mem_flatMap, g, List.mem_singleton] at hw
      obtain ⟨d, hd, rfl⟩ := hw
      intro e
      simp only [List.cons.injEq, and_true] at e
      rw [List.idxOf_inj hd] at e
      rw [e]
    · exact ⟨([co.idxOf c], t.val [c.i, c.j]), by
        simp only [List.mem_flatMap]; exact ⟨c, hc, by simp [g]⟩, rfl⟩

theorem vgetStressVmf_two {n : ℕ} {co : List Comp} (h : ValidPairs n co)
    {t : Tensor} (ht : t.shape = [n, n]) :
    ∃ m, vgetStressVmf t n co = .ok m ∧ m.shape = [co.length] ∧
      ∀ c ∈ co, m.val [co.idxOf c] = t.val [c.i, c.j] := by
  simp only [vgetStressVmf, ht, min_self, h.any_vIndex]
  refine ⟨_, rfl, rfl, ?_⟩
  intro c hc
  simp only [List.getD_cons_zero, getD_idxOf hc]

theorem engVoigt_val {n : ℕ} {co : List Comp} (h : ValidPairs n co) {e v : Tensor}
    (hv : IsEngVoigt co e v) {c : Comp} (hc : c ∈ co) :
    v.val [co.idxOf c] = engFactor c * e.val [c.i, c.j] := by
  obtain ⟨a, b, h1, h2, h3, h4, rfl⟩ := h.pair c hc
  have hl := List.idxOf_lt_length_iff.2 hc
  rw [hv.2 (co.idxOf [a, b]) a b (by rw [List.getElem?_eq_getElem hl, List.getElem_idxOf hl])]
  have e : (a - 1 = b - 1) ↔ a = b := by omega
  by_cases hab : a = b <;> simp [engFactor, Comp.i, Comp.j, e, hab]

/-! ### Projections -/

theorem volIndicator_idxOf {n : ℕ} {co : List Comp} (h : ValidPairs n co) {c : Comp} (hc : c ∈ co) :
    volIndicator co (co.idxOf c) = if c.i = c.j then 1 else 0 := by
  unfold volIndicator
  rw [getD_idxOf hc]
  obtain ⟨a, b, h1, h2, h3, h4, rfl⟩ := h.pair c hc
  have e : (a - 1 = b - 1) ↔ a = b := by omega
  simp [Comp.i, Comp.j, e]

theorem volIndicator_sq (co : List Comp) (k : ℕ) :
    volIndicator co k * volIndicator co k = volIndicator co k := by
  unfold volIndicator; split <;> simp

/-- A complete symmetric order lists `n` normal components. -/
theorem sum_volIndicator {n : ℕ} {co : List Comp} (h : CompleteSym n co) :
    ∑ k ∈ Finset.range co.length, volIndicator co k = n := by
  have h2 := sum_pairs_sym h (fun i j => if i = j then 1 else 0)
    (fun i _ j _ => by simp [eq_comm])
  rw [sum_range_eq_map h.nodup]
  have h3 : (co.map fun c => volIndicator co (co.idxOf c)) =
      co.map (fun c => (if c.i = c.j then 1 else 2) * (if c.i = c.j then 1 else 0 : ℝ)) := by
    apply List.map_congr_left
    intro c hc
    rw [volIndicator_idxOf h.toValidPairs hc]
    split <;> simp
  rw [h3, ← h2]
  rw [Finset.sum_congr rfl (g := fun _ => (1 : ℝ))]
  · simp
  · intro i hi
    rw [Finset.sum_ite_eq, if_pos hi]

end Hooke
