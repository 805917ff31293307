import Verif.Model.SeriesPlot
import Verif.Props.TruthPlot

/-! # C169: plots of time series -/

noncomputable section

open Classical

namespace Hooke

open Spec

/-- The values of all the processes. -/
theorem mem_seriesValues {sets : List (String × List (ℝ × ℝ))} {x : ℝ} :
    x ∈ (sets.flatMap fun s => s.2.map Prod.snd) ↔ ∃ s ∈ sets, ∃ q ∈ s.2, q.2 = x := by
  simp only [List.mem_flatMap, List.mem_map]

theorem unitSteps_length (n : ℕ) : (unitSteps n).length = n := by simp [unitSteps]

theorem unitSteps_get {n k : ℕ} (h : k < n) :
    (unitSteps n)[k]? = some (if n = 1 then 0 else (k : ℝ) / ((n : ℝ) - 1)) := by
  unfold unitSteps
  rw [List.getElem?_map, List.getElem?_range h]
  rfl

theorem seriesCurves_ok {sets : List (String × List (ℝ × ℝ))} (hne : sets ≠ [])
    (hl : ∀ s ∈ sets, ∀ s' ∈ sets, s.2.length = s'.2.length) {mn mx : ℝ}
    (hs : Spans (sets.flatMap fun s => s.2.map Prod.snd) mn mx) :
    seriesCurves true sets = if mx - mn = 0 then .error .zeroDivision else
      .ok (sets.map fun s =>
        (s.1, (unitSteps s.2.length).zip (s.2.map fun q => (q.2 - mn) / (mx - mn)))) := by
  have hv : (sets.flatMap fun s => s.2.map Prod.snd) ≠ [] := List.ne_nil_of_mem hs.2.1
  obtain ⟨a, h1, h2, h3⟩ := npMin_spec hv
  obtain ⟨b, h4, h5, h6⟩ := npMax_spec hv
  have ha : a = mn := le_antisymm (h3 _ hs.2.1) (hs.1 a h2).1
  have hb : b = mx := le_antisymm (hs.1 b h5).2 (h6 _ hs.2.2)
  have e1 : ¬ ∃ s ∈ sets, ∃ s' ∈ sets, s.2.length ≠ s'.2.length := by
    rintro ⟨s, hs, s', hs', h⟩
    exact h (hl s hs s' hs')
  unfold seriesCurves
  rw [raiseIf, if_neg hne, if_pos rfl, raiseIf, if_neg e1, h1, h4, ha, hb]
  by_cases h0 : mx - mn = 0
  · rw [if_pos h0]
    change (raiseIf (mx - mn = 0) .zeroDivision >>= fun _ => _) = _
    rw [raiseIf, if_pos h0]
    rfl
  · rw [if_neg h0]
    change (raiseIf (mx - mn = 0) .zeroDivision >>= fun _ => _) = _
    rw [raiseIf, if_neg h0]
    rfl

/-- **C169 (given data).** Without normalization, every process is shown with its label, its times and its
values, and so is every process with an uncertainty. -/
theorem C169_given {sets : List (String × List (ℝ × ℝ))} (hne : sets ≠ [])
    (ranges : List (String × List (List ℝ))) (x y : String) :
    seriesCurves false sets = .ok sets ∧ seriesRanges false ranges = .ok ranges ∧
      seriesAxes false x y = (x, y) := by
  refine ⟨?_, rfl, rfl⟩
  unfold seriesCurves
  rw [raiseIf, if_neg hne]
  rfl

/-- **C169 (normalized data).** Processes of the same length whose values are not all the same are shown in
order with their labels.  Their values are scaled to the unit interval by the smallest and the largest of all
the values, so that the processes can be compared; their points are in equal steps over the unit interval. -/
theorem C169_normalized {sets : List (String × List (ℝ × ℝ))} (hne : sets ≠ []) {n : ℕ}
    (hl : ∀ s ∈ sets, s.2.length = n) {mn mx : ℝ} (hlt : mn < mx)
    (hs : Spans (sets.flatMap fun s => s.2.map Prod.snd) mn mx) :
    ∃ out, seriesCurves true sets = .ok out ∧
      List.Forall₂ (fun (s o : String × List (ℝ × ℝ)) => o.1 = s.1 ∧ o.2.length = n ∧
        ∀ (k : ℕ) (q : ℝ × ℝ), s.2[k]? = some q → ∃ x y : ℝ, o.2[k]? = some (x, y) ∧ 0 ≤ y ∧ y ≤ 1 ∧
          y * (mx - mn) = q.2 - mn ∧ (y = 0 ↔ q.2 = mn) ∧ (y = 1 ↔ q.2 = mx) ∧
          0 ≤ x ∧ x ≤ 1 ∧ x * ((n : ℝ) - 1) = k) sets out := by
  have h0 : 0 < mx - mn := by linarith
  refine ⟨_, by
    rw [seriesCurves_ok hne (fun s h s' h' => (hl s h).trans (hl s' h').symm) hs, if_neg h0.ne'], ?_⟩
  rw [List.forall₂_map_right_iff, List.forall₂_same]
  intro s hsm
  have hn := hl s hsm
  refine ⟨rfl, by simp [unitSteps_length, hn], fun k q hq => ?_⟩
  have hk : k < n := by
    rw [← hn]
    exact (List.getElem?_eq_some_iff.mp hq).1
  have hq2 := hs.1 q.2 (mem_seriesValues.mpr ⟨s, hsm, q, List.mem_of_getElem? hq, rfl⟩)
  refine ⟨if n = 1 then 0 else (k : ℝ) / ((n : ℝ) - 1), (q.2 - mn) / (mx - mn), ?_, ?_, ?_, ?_, ?_, ?_, ?_, ?_, ?_⟩
  · dsimp only
    rw [List.getElem?_zip_eq_some, hn]
    exact ⟨unitSteps_get hk, by rw [List.getElem?_map, hq]; rfl⟩
  · exact div_nonneg (by linarith) h0.le
  · rw [div_le_one h0]
    linarith
  · exact div_mul_cancel₀ _ h0.ne'
  · rw [div_eq_zero_iff]
    constructor
    · rintro (h | h) <;> linarith
    · intro h
      left
      linarith
  · rw [div_eq_one_iff_eq h0.ne']
    constructor <;> intro h <;> linarith
  all_goals
    split_ifs with h1
    · subst h1
      obtain rfl : k = 0 := by omega
      norm_num
    have hn1 : (0 : ℝ) < (n : ℝ) - 1 := by
      have : (1 : ℝ) < n := by exact_mod_cast (show 1 < n by omega)
      linarith
    have hkn : (k : ℝ) + 1 ≤ n := by exact_mod_cast hk
  · positivity
  · rw [div_le_one hn1]
    linarith
  · exact div_mul_cancel₀ _ hn1.ne'

/-- **C169 is violated for the times of normalized data.** The times do not matter: processes with the same
labels and the same values are shown at the same abscissae whatever their times are.  Of the times 0, 1
and 10, the second one is shown in the middle. -/
theorem C169_times_violated :
    (∀ sets sets' : List (String × List (ℝ × ℝ)),
      (sets.map fun s => (s.1, s.2.map Prod.snd)) = (sets'.map fun s => (s.1, s.2.map Prod.snd)) →
      ∀ out, seriesCurves true sets = .ok out → seriesCurves true sets' = .ok out) ∧
    seriesCurves true [("a", [(0, 0), (1, 3), (10, 6)])] =
      .ok [("a", [(0, 0), (1 / 2, 1 / 2), (1, 1)])] := by
  constructor
  · intro sets sets' h out ho
    have g : ∀ l : List (String × List (ℝ × ℝ)), (l.flatMap fun s => s.2.map Prod.snd) =
        (l.map fun s => (s.1, s.2.map Prod.snd)).flatMap Prod.snd := by
      intro l
      rw [List.flatMap_map]
    have g2 : ∀ (l : List (String × List (ℝ × ℝ))) (mn mx : ℝ), (l.map fun s =>
        (s.1, (unitSteps s.2.length).zip (s.2.map fun q => (q.2 - mn) / (mx - mn)))) =
        (l.map fun s => (s.1, s.2.map Prod.snd)).map fun s =>
          (s.1, (unitSteps s.2.length).zip (s.2.map fun v => (v - mn) / (mx - mn))) := by
      intro l mn mx
      rw [List.map_map]
      refine List.map_congr_left fun s _ => ?_
      simp only [Function.comp, List.length_map, List.map_map]
      rfl
    have g3 : ∀ l : List (String × List (ℝ × ℝ)),
        (∃ s ∈ l, ∃ s' ∈ l, s.2.length ≠ s'.2.length) ↔
          ∃ s ∈ l.map fun s => (s.1, s.2.map Prod.snd), ∃ s' ∈ l.map fun s => (s.1, s.2.map Prod.snd),
            s.2.length ≠ s'.2.length := by
      intro l
      simp only [List.mem_map, exists_exists_and_eq_and, List.length_map]
    have g4 : sets = [] ↔ sets' = [] := by
      have := congrArg List.length h
      simp only [List.length_map] at this
      rw [← List.length_eq_zero_iff, ← List.length_eq_zero_iff, this]
    unfold seriesCurves at ho ⊢
    simp only [g, g2, g3, h, g4] at ho ⊢
    exact ho
  · have hs : Spans ([(("a" : String), [((0 : ℝ), (0 : ℝ)), (1, 3), (10, 6)])].flatMap
        fun s => s.2.map Prod.snd) 0 6 := by
      refine ⟨?_, by simp, by simp⟩
      intro x hx
      simp only [List.flatMap_cons, List.flatMap_nil, List.map_cons, List.map_nil, List.append_nil,
        List.mem_cons, List.not_mem_nil, or_false] at hx
      rcases hx with rfl | rfl | rfl <;> norm_num
    rw [seriesCurves_ok (by simp) (by simp) hs, if_neg (by norm_num)]
    simp [unitSteps, List.range_succ]
    norm_num

/-- **C169 is violated for normalized processes of different lengths.** They raise a `TypeError`, although
the array of processes is filled up for them. -/
theorem C169_lengths_violated {sets : List (String × List (ℝ × ℝ))} {s s' : String × List (ℝ × ℝ)}
    (h : s ∈ sets) (h' : s' ∈ sets) (hl : s.2.length ≠ s'.2.length) :
    seriesCurves true sets = .error .typeError := by
  unfold seriesCurves
  rw [raiseIf, if_neg (List.ne_nil_of_mem h), if_pos rfl, raiseIf, if_pos ⟨s, h, s', h', hl⟩]
  rfl

/-- **C169 is violated for constant data.** Normalized processes of the same length whose values are all the
same number raise a `ZeroDivisionError`. -/
theorem C169_constant_violated {sets : List (String × List (ℝ × ℝ))} (hne : sets ≠ []) {n : ℕ}
    (hl : ∀ s ∈ sets, s.2.length = n + 1) {v : ℝ} (hv : ∀ s ∈ sets, ∀ q ∈ s.2, q.2 = v) :
    seriesCurves true sets = .error .zeroDivision := by
  obtain ⟨s, hs⟩ := List.exists_mem_of_ne_nil _ hne
  have hsn : s.2 ≠ [] := by
    intro e
    have := hl s hs
    rw [e] at this
    simp at this
  obtain ⟨q, hq⟩ := List.exists_mem_of_ne_nil _ hsn
  have hm : v ∈ (sets.flatMap fun s => s.2.map Prod.snd) := mem_seriesValues.mpr ⟨s, hs, q, hq, hv s hs q hq⟩
  have hspan : Spans (sets.flatMap fun s => s.2.map Prod.snd) v v := by
    refine ⟨fun x hx => ?_, hm, hm⟩
    obtain ⟨s, hs, q, hq, rfl⟩ := mem_seriesValues.mp hx
    rw [hv s hs q hq]
    exact ⟨le_rfl, le_rfl⟩
  rw [seriesCurves_ok hne (fun s h s' h' => (hl s h).trans (hl s' h').symm) hspan, if_pos (sub_self v)]

/-- **C169 (refusals).** No process at all, normalizing processes without points, and normalizing processes
with an uncertainty are refused. -/
theorem C169_refusals : (∀ b, seriesCurves b [] = .error .valueError) ∧
    (∀ sets : List (String × List (ℝ × ℝ)), sets ≠ [] → (∀ s ∈ sets, s.2 = []) →
      seriesCurves true sets = .error .valueError) ∧
    ∀ ranges, seriesRanges true ranges = .error .runtimeError := by
  refine ⟨?_, ?_, ?_⟩
  · intro b
    unfold seriesCurves
    rw [raiseIf, if_pos rfl]
    rfl
  · intro sets hne h
    have e1 : ¬ ∃ s ∈ sets, ∃ s' ∈ sets, s.2.length ≠ s'.2.length := by
      rintro ⟨s, hs, s', hs', h'⟩
      rw [h s hs, h s' hs'] at h'
      exact h' rfl
    have e2 : (sets.flatMap fun s => s.2.map Prod.snd) = [] := by
      rw [List.flatMap_eq_nil_iff]
      intro s hs
      rw [h s hs]
      rfl
    unfold seriesCurves
    rw [raiseIf, if_neg hne, if_pos rfl, raiseIf, if_neg e1, e2]
    rfl
  · intro ranges
    unfold seriesRanges
    rw [raiseIf, if_pos rfl]
    rfl

/-- Two processes of two points, whose values span the interval from 1 to 5. -/
example : Spans ([("a", [((0 : ℝ), (1 : ℝ)), (1, 2)]), ("b", [(0, 3), (2, 5)])].flatMap
    fun s => s.2.map Prod.snd) 1 5 := by
  refine ⟨?_, by simp, by simp⟩
  intro x hx
  simp only [List.flatMap_cons, List.flatMap_nil, List.map_cons, List.map_nil, List.append_nil,
    List.cons_append, List.nil_append, List.mem_cons, List.not_mem_nil, or_false] at hx
  rcases hx with rfl | rfl | rfl | rfl <;> norm_num

end Hooke
