import Verif.Lemmas.Hardening
import Mathlib.Analysis.Calculus.Deriv.Basic
import Mathlib.Analysis.SpecialFunctions.Pow.Deriv

/-! # C26, C27: hardening laws -/

noncomputable section

namespace Hooke

open Spec

/-- C26a: between two neighbouring data points (with nonnegative plastic strain) the yield stress
is the straight line through them; in particular the curve passes through every data point. -/
theorem C26_segment {pts : List (ℝ × ℝ)} (h : IsTable pts) {i : ℕ} (hi : i + 1 < pts.length)
    {x : ℝ} (hx : 0 ≤ x) (hlo : (pts[i]).1 ≤ x) (hhi : x ≤ (pts[i + 1]).1) :
    (piecewiseLinear pts x).1 = line pts[i] pts[i + 1] x := by
  have h2 := h.two
  have hr : relu x = x := max_eq_left hx
  have hlt := h.incr i hi
  have hne : (pts[i + 1]).1 - (pts[i]).1 ≠ 0 := by linarith [sub_pos.mpr hlt]
  have hx0 : ¬ x < (pts[0]).1 := by
    rcases Nat.eq_zero_or_pos i with h0 | h0
    · subst h0; exact not_lt.mpr hlo
    · exact not_lt.mpr ((h.lt h0 (by omega)).le.trans hlo)
  have hxn : ¬ x > (pts[pts.length - 1]).1 := by
    rcases Nat.lt_or_ge (i + 1) (pts.length - 1) with h0 | h0
    · exact not_lt.mpr (hhi.trans (h.lt h0 (by omega)).le)
    · have : i + 1 = pts.length - 1 := by omega
      simp only [← this]; exact not_lt.mpr hhi
  have hgen : ∀ j (hj : j + 1 < pts.length), segIndex (pts.map Prod.fst) x = j →
      (piecewiseLinear pts x).1 = line pts[j] pts[j + 1] x := by
    intro j hj hseg
    simp only [piecewiseLinear, torchInterp, hr, hseg, List.length_map]
    rw [getD_fst (i := 0) (by omega), getD_fst (i := pts.length - 1) (by omega), if_neg hx0,
      if_neg hxn, getD_fst (by omega), getD_fst (by omega), getD_snd (by omega),
      getD_snd (by omega), line]
    ring
  rcases hhi.lt_or_eq with hlt' | heq
  · exact hgen i hi (segIndex_eq h hi hlo hlt')
  · rcases Nat.lt_or_ge (i + 2) pts.length with h3 | h3
    · rw [hgen (i + 1) h3 (segIndex_eq h h3 heq.ge (by rw [heq]; exact h.incr _ h3))]
      simp only [line, heq]
      field_simp
      ring
    · have : i + 1 = pts.length - 1 := by omega
      refine hgen i hi ?_
      rw [segIndex_last h (by simp only [← this]; exact heq.ge)]
      omega

/-- C26b: the curve passes through every data point. -/
theorem C26_interpolates {pts : List (ℝ × ℝ)} (h : IsTable pts) {i : ℕ} (hi : i < pts.length)
    (hx : 0 ≤ (pts[i]).1) : (piecewiseLinear pts (pts[i]).1).1 = (pts[i]).2 := by
  have h2 := h.two
  rcases Nat.lt_or_ge (i + 1) pts.length with h1 | h1
  · rw [C26_segment h h1 hx le_rfl (h.incr i h1).le, line]
    simp
  · obtain ⟨j, rfl⟩ : ∃ j, i = j + 1 := ⟨i - 1, by omega⟩
    have hlt := h.incr j hi
    rw [C26_segment h hi hx hlt.le le_rfl, line]
    have : (pts[j + 1]).1 - (pts[j]).1 ≠ 0 := by linarith [sub_pos.mpr hlt]
    field_simp
    ring

/-- C26c: outside the table the yield stress is the first or the last ordinate and the slope is
zero; a negative plastic strain is treated as zero. -/
theorem C26_outside {pts : List (ℝ × ℝ)} (h : IsTable pts) :
    (∀ x, 0 ≤ x → x < (pts[0]'(by have := h.two; omega)).1 →
      piecewiseLinear pts x = ((pts[0]'(by have := h.two; omega)).2, 0)) ∧
    (∀ x, 0 ≤ x → (pts[pts.length - 1]'(by have := h.two; omega)).1 < x →
      piecewiseLinear pts x = ((pts[pts.length - 1]'(by have := h.two; omega)).2, 0)) ∧
    (∀ x, x ≤ 0 → piecewiseLinear pts x = piecewiseLinear pts 0) := by
  have h2 := h.two
  refine ⟨?_, ?_, ?_⟩
  · intro x hx hlt
    have hr : relu x = x := max_eq_left hx
    have hn : ¬ x > (pts[pts.length - 1]).1 :=
      not_lt.mpr (hlt.trans (h.lt (i := 0) (by omega) (by omega))).le
    simp only [piecewiseLinear, torchInterp, hr, List.length_map]
    rw [getD_fst (i := 0) (by omega), getD_fst (i := pts.length - 1) (by omega), if_neg hn,
      if_pos hlt, if_pos hlt, getD_snd (by omega)]
  · intro x hx hlt
    have hr : relu x = x := max_eq_left hx
    have hn : ¬ x < (pts[0]).1 :=
      not_lt.mpr ((h.lt (i := 0) (by omega) (by omega)).trans hlt).le
    simp only [piecewiseLinear, torchInterp, hr, List.length_map]
    rw [getD_fst (i := 0) (by omega), getD_fst (i := pts.length - 1) (by omega), if_neg hn,
      if_pos hlt, if_neg hn, if_pos hlt.le, getD_snd (by omega)]
  · intro x hx
    have hr : relu x = 0 := max_eq_right hx
    have hr0 : relu 0 = 0 := max_self 0
    simp only [piecewiseLinear, hr, hr0]

/-- C26d: the yield stress never decreases with the plastic strain if the data do not. -/
theorem C26_monotone {pts : List (ℝ × ℝ)} (h : IsTable pts) (hm : MonotoneTable pts) :
    Monotone (fun x => (piecewiseLinear pts x).1) := by
  have h2 := h.two
  -- bounds of the line inside a segment
  have hb : ∀ i (hi : i + 1 < pts.length) x, (pts[i]).1 ≤ x → x ≤ (pts[i + 1]).1 →
      (pts[i]).2 ≤ line pts[i] pts[i + 1] x ∧ line pts[i] pts[i + 1] x ≤ (pts[i + 1]).2 := by
    intro i hi x hlo hhi
    have hlt := sub_pos.mpr (h.incr i hi)
    have hy := sub_nonneg.mpr (hm i hi)
    have hs : 0 ≤ ((pts[i + 1]).2 - (pts[i]).2) / ((pts[i + 1]).1 - (pts[i]).1) := by positivity
    constructor
    · have := mul_nonneg hs (sub_nonneg.mpr hlo)
      simp only [line]; linarith
    · have h1 : ((pts[i + 1]).2 - (pts[i]).2) / ((pts[i + 1]).1 - (pts[i]).1) * (x - (pts[i]).1) ≤
          ((pts[i + 1]).2 - (pts[i]).2) / ((pts[i + 1]).1 - (pts[i]).1) *
            ((pts[i + 1]).1 - (pts[i]).1) :=
        mul_le_mul_of_nonneg_left (by linarith) hs
      rw [div_mul_cancel₀ _ hlt.ne'] at h1
      simp only [line]; linarith
  have main : ∀ x y, 0 ≤ x → x ≤ y → (piecewiseLinear pts x).1 ≤ (piecewiseLinear pts y).1 := by
    intro x y hx hxy
    have hy : 0 ≤ y := hx.trans hxy
    have h0n := h.lt (i := 0) (j := pts.length - 1) (by omega) (by omega)
    -- value below / above everything
    have lower : ∀ z, 0 ≤ z → (pts[0]).2 ≤ (piecewiseLinear pts z).1 := by
      intro z hz
      rcases lt_or_ge z (pts[0]).1 with h1 | h1
      · rw [(C26_outside h).1 z hz h1]
      · rcases lt_or_ge z (pts[pts.length - 1]).1 with h3 | h3
        · obtain ⟨i, hi, ha, hb'⟩ := exists_segment h h1 h3
          rw [C26_segment h hi hz ha hb'.le]
          exact (hm.le (Nat.zero_le i) (by omega)).trans (hb i hi z ha hb'.le).1
        · rcases h3.lt_or_eq with h4 | h4
          · rw [(C26_outside h).2.1 z hz h4]; exact hm.le (Nat.zero_le _) (by omega)
          · rw [← h4, C26_interpolates h (by omega) (h4 ▸ hz)]; exact hm.le (Nat.zero_le _) (by omega)
    have upper : ∀ z, 0 ≤ z → (piecewiseLinear pts z).1 ≤ (pts[pts.length - 1]).2 := by
      intro z hz
      rcases lt_or_ge z (pts[0]).1 with h1 | h1
      · rw [(C26_outside h).1 z hz h1]; exact hm.le (Nat.zero_le _) (by omega)
      · rcases lt_or_ge z (pts[pts.length - 1]).1 with h3 | h3
        · obtain ⟨i, hi, ha, hb'⟩ := exists_segment h h1 h3
          rw [C26_segment h hi hz ha hb'.le]
          exact (hb i hi z ha hb'.le).2.trans (hm.le (by omega) (by omega))
        · rcases h3.lt_or_eq with h4 | h4
          · rw [(C26_outside h).2.1 z hz h4]
          · rw [← h4, C26_interpolates h (by omega) (h4 ▸ hz)]
    rcases lt_or_ge x (pts[0]).1 with h1 | h1
    · rw [(C26_outside h).1 x hx h1]; exact lower y hy
    · rcases lt_or_ge y (pts[pts.length - 1]).1 with h3 | h3
      · obtain ⟨i, hi, ha, ha'⟩ := exists_segment h h1 (hxy.trans_lt h3)
        obtain ⟨j, hj, hc, hc'⟩ := exists_segment h (h1.trans hxy) h3
        rw [C26_segment h hi hx ha ha'.le, C26_segment h hj hy hc hc'.le]
        rcases Nat.lt_trichotomy i j with hij | rfl | hij
        · exact (hb i hi x ha ha'.le).2.trans ((hm.le hij (by omega)).trans (hb j hj y hc hc'.le).1)
        · have hlt := sub_pos.mpr (h.incr i hi)
          have hyy := sub_nonneg.mpr (hm i hi)
          have hs : 0 ≤ ((pts[i + 1]).2 - (pts[i]).2) / ((pts[i + 1]).1 - (pts[i]).1) := by
            positivity
          have := mul_le_mul_of_nonneg_left (sub_le_sub_right hxy (pts[i]).1) hs
          simp only [line]; linarith
        · exfalso
          have : (pts[j + 1]).1 ≤ (pts[i]).1 := by
            rcases Nat.lt_or_ge (j + 1) i with h5 | h5
            · exact (h.lt h5 (by omega)).le
            · have : j + 1 = i := by omega
              subst this; exact le_rfl
          linarith
      · rcases h3.lt_or_eq with h4 | h4
        · rw [(C26_outside h).2.1 y hy h4]; exact upper x hx
        · rw [← h4, C26_interpolates h (by omega) (h4 ▸ hy)]; exact upper x hx
  intro x y hxy
  rcases le_total 0 x with hx | hx
  · exact main x y hx hxy
  · show (piecewiseLinear pts x).1 ≤ _
    rw [(C26_outside h).2.2 x hx]
    rcases le_total 0 y with hy | hy
    · exact main 0 y le_rfl hy
    · show _ ≤ (piecewiseLinear pts y).1
      rw [(C26_outside h).2.2 y hy]

/-- C26e: strictly inside a segment the reported slope is the slope of the segment, and it is the
derivative of the yield stress. -/
theorem C26_slope {pts : List (ℝ × ℝ)} (h : IsTable pts) {i : ℕ} (hi : i + 1 < pts.length)
    {x : ℝ} (hx : 0 < x) (hlo : (pts[i]).1 < x) (hhi : x < (pts[i + 1]).1) :
    (piecewiseLinear pts x).2 = ((pts[i + 1]).2 - (pts[i]).2) / ((pts[i + 1]).1 - (pts[i]).1) ∧
      HasDerivAt (fun y => (piecewiseLinear pts y).1) (piecewiseLinear pts x).2 x := by
  have h2 := h.two
  have hr : relu x = x := max_eq_left hx.le
  have hx0 : (pts[0]).1 < x := by
    rcases Nat.eq_zero_or_pos i with h0 | h0
    · subst h0; exact hlo
    · exact (h.lt h0 (by omega)).trans hlo
  have hxn : x < (pts[pts.length - 1]).1 := by
    rcases Nat.lt_or_ge (i + 1) (pts.length - 1) with h0 | h0
    · exact hhi.trans (h.lt h0 (by omega))
    · have : i + 1 = pts.length - 1 := by omega
      simp only [← this]; exact hhi
  have hslope : (piecewiseLinear pts x).2 =
      ((pts[i + 1]).2 - (pts[i]).2) / ((pts[i + 1]).1 - (pts[i]).1) := by
    simp only [piecewiseLinear, hr, hardeningSlope, segIndex_eq h hi hlo.le hhi, List.length_map]
    rw [getD_fst (i := 0) (by omega), getD_fst (i := pts.length - 1) (by omega),
      if_neg (not_lt.mpr hx0.le), if_neg (not_le.mpr hxn), getD_fst (by omega), getD_fst (by omega),
      getD_snd (by omega), getD_snd (by omega)]
    have h3 : sgn (relu (x - (pts[0]).1)) = 1 := by
      simp [sgn, relu, max_eq_left (sub_pos.mpr hx0).le, sign_pos (sub_pos.mpr hx0)]
    have h4 : sgn (relu ((pts[pts.length - 1]).1 - x)) = 1 := by
      simp [sgn, relu, max_eq_left (sub_pos.mpr hxn).le, sign_pos (sub_pos.mpr hxn)]
    rw [h3, h4]
    ring
  refine ⟨hslope, ?_⟩
  rw [hslope]
  have hline : HasDerivAt (line pts[i] pts[i + 1])
      (((pts[i + 1]).2 - (pts[i]).2) / ((pts[i + 1]).1 - (pts[i]).1)) x := by
    unfold line
    simpa using (((hasDerivAt_id x).sub_const (pts[i]).1).const_mul
      (((pts[i + 1]).2 - (pts[i]).2) / ((pts[i + 1]).1 - (pts[i]).1))).const_add (pts[i]).2
  refine hline.congr_of_eventuallyEq ?_
  filter_upwards [lt_mem_nhds hlo, gt_mem_nhds hhi, lt_mem_nhds hx] with y h3 h4 h5
  exact C26_segment h hi h5.le h3.le h4.le

/-- C26f: at an interior data point the reported slope is that of the segment to its right, but at
the first data point the reported slope is zero (the mask of hardening.py:277-281), whatever the
slope of the first segment. -/
theorem C26_slope_at_points {pts : List (ℝ × ℝ)} (h : IsTable pts) {i : ℕ}
    (hi : i + 1 < pts.length) (hx : 0 ≤ (pts[i]).1) :
    (piecewiseLinear pts (pts[i]).1).2 =
      if i = 0 then 0 else ((pts[i + 1]).2 - (pts[i]).2) / ((pts[i + 1]).1 - (pts[i]).1) := by
  have h2 := h.two
  have hr : relu (pts[i]).1 = (pts[i]).1 := max_eq_left hx
  have hxn : (pts[i]).1 < (pts[pts.length - 1]).1 := h.lt (by omega) (by omega)
  have h4 : sgn (relu ((pts[pts.length - 1]).1 - (pts[i]).1)) = 1 := by
    simp [sgn, relu, max_eq_left (sub_pos.mpr hxn).le, sign_pos (sub_pos.mpr hxn)]
  simp only [piecewiseLinear, hr, hardeningSlope, segIndex_eq h hi le_rfl (h.incr i hi),
    List.length_map]
  rw [getD_fst (i := 0) (by omega), getD_fst (i := pts.length - 1) (by omega),
      getD_fst (by omega), getD_fst (by omega),
      getD_snd (by omega), getD_snd (by omega)]
  by_cases h0 : i = 0
  · subst h0; simp [sgn, relu]
  · rw [if_neg h0]
    have hx0 : (pts[0]).1 < (pts[i]).1 := h.lt (by omega) (by omega)
    have h3 : sgn (relu ((pts[i]).1 - (pts[0]).1)) = 1 := by
      simp [sgn, relu, max_eq_left (sub_pos.mpr hx0).le, sign_pos (sub_pos.mpr hx0)]
    rw [if_neg (not_lt.mpr hx0.le), if_neg (not_le.mpr hxn), h3, h4]
    ring

/-- C26g: with data checks on, exactly the tables with increasing nonnegative abscissae, evaluated
at a nonnegative plastic strain, are accepted. -/
theorem C26_checks {pts : List (ℝ × ℝ)} (h2 : 2 ≤ pts.length) (x : ℝ) :
    ((IsTable pts ∧ (∀ p ∈ pts, 0 ≤ p.1) ∧ 0 ≤ x) →
      piecewiseLinearChecked pts x = .ok (piecewiseLinear pts x)) ∧
    (¬ (IsTable pts ∧ (∀ p ∈ pts, 0 ≤ p.1) ∧ 0 ≤ x) →
      piecewiseLinearChecked pts x = .error .runtimeError) := by
  have hinc : IsTable pts ↔ ∀ i < (pts.map Prod.fst).length - 1,
      (pts.map Prod.fst).getD (i + 1) 0 - (pts.map Prod.fst).getD i 0 > 0 := by
    rw [List.length_map]
    constructor
    · intro h i hi
      rw [getD_fst (by omega), getD_fst (by omega)]
      exact sub_pos.mpr (h.incr i (by omega))
    · intro h
      refine ⟨h2, fun i hi => ?_⟩
      have := h i (by omega)
      rw [getD_fst (by omega), getD_fst (by omega)] at this
      exact sub_pos.mp this
  have hnn : (∀ p ∈ pts, 0 ≤ p.1) ↔ ∀ y ∈ pts.map Prod.fst, y ≥ 0 := by simp
  rw [hinc, hnn]
  unfold piecewiseLinearChecked
  constructor
  · rintro ⟨a, b, c⟩
    rw [if_neg (not_not.mpr a), if_neg (not_not.mpr b), if_neg (not_lt.mpr c)]
  · intro hn
    by_cases a : ∀ i < (pts.map Prod.fst).length - 1,
      (pts.map Prod.fst).getD (i + 1) 0 - (pts.map Prod.fst).getD i 0 > 0
    · by_cases b : ∀ y ∈ pts.map Prod.fst, y ≥ 0
      · have c : x < 0 := by
          by_contra c
          exact hn ⟨a, b, not_lt.mp c⟩
        simp only [if_neg (not_not.mpr a), if_neg (not_not.mpr b), if_pos c]
      · simp only [if_neg (not_not.mpr a), if_pos b]
    · simp only [if_pos a]

example : IsTable [(0, 1), (1, 3), (2, 4)] ∧ MonotoneTable [(0, 1), (1, 3), (2, 4)] := by
  refine ⟨⟨by simp, ?_⟩, ?_⟩ <;> intro i hi <;> rcases i with _ | _ | i <;>
    first | (exfalso; simp only [List.length_cons, List.length_nil] at hi; omega) | norm_num

/-! ### C27 -/

/-- C27a: linear hardening is `s0 + a ε` with slope `a`; negative strains count as zero in the
value. -/
theorem C27_linear (s0 a x : ℝ) (hx : 0 ≤ x) :
    linearHardening s0 a x = (s0 + a * x, a) ∧
      (0 < x → HasDerivAt (fun y => (linearHardening s0 a y).1) (linearHardening s0 a x).2 x) ∧
      ∀ y ≤ 0, linearHardening s0 a y = (s0, a) := by
  refine ⟨by simp [linearHardening, relu, max_eq_left hx], fun h => ?_, fun y hy => by
    simp [linearHardening, relu, max_eq_right hy]⟩
  have : HasDerivAt (fun y => s0 + a * y) a x := by
    simpa using ((hasDerivAt_id x).const_mul a).const_add s0
  refine this.congr_of_eventuallyEq ?_
  filter_upwards [lt_mem_nhds h] with y hy
  simp [linearHardening, relu, max_eq_left hy.le]

/-- C27b (partial): for `ep0 = 0` the Nadai-Ludwik law returns the documented
`s0 + a (ep0 + ε)^b`.  Missing: `ep0 ≠ 0`, where the claim is false (next theorem). -/
theorem C27_nadai_partial (s0 a b x : ℝ) (hx : 0 ≤ x) :
    (nadaiLudwik s0 a b 0 x).1 = s0 + a * (0 + x) ^ b := by
  simp [nadaiLudwik, relu, max_eq_left hx]

/-- C27c (violated): for every `ep0 > 0` and `a, b > 0` the returned yield stress exceeds the
documented `s0 + a (ep0 + ε)^b`, since `ep0` is added twice. -/
theorem C27_nadai_violated (s0 : ℝ) {a b ep0 x : ℝ} (hx : 0 ≤ x) (h0 : 0 < ep0) (ha : 0 < a)
    (hb : 0 < b) :
    (nadaiLudwik s0 a b ep0 x).1 = s0 + a * (ep0 + (ep0 + x)) ^ b ∧
      s0 + a * (ep0 + x) ^ b < (nadaiLudwik s0 a b ep0 x).1 := by
  have e : (nadaiLudwik s0 a b ep0 x).1 = s0 + a * (ep0 + (ep0 + x)) ^ b := by
    simp only [nadaiLudwik, relu, max_eq_left hx]
    congr 3; ring
  refine ⟨e, ?_⟩
  rw [e]
  have : (ep0 + x) ^ b < (ep0 + (ep0 + x)) ^ b :=
    Real.rpow_lt_rpow (by linarith) (by linarith) hb
  have := mul_lt_mul_of_pos_left this ha
  linarith

/-- C27d: nevertheless the returned slope is the derivative of the returned yield stress. -/
theorem C27_nadai_slope (s0 a b : ℝ) {ep0 x : ℝ} (hx : 0 < x) (h0 : 0 ≤ ep0) :
    HasDerivAt (fun y => (nadaiLudwik s0 a b ep0 y).1) (nadaiLudwik s0 a b ep0 x).2 x := by
  have h1 : HasDerivAt (fun y => s0 + a * (y + ep0 + ep0) ^ b)
      (a * (1 * b * (x + ep0 + ep0) ^ (b - 1))) x := by
    have hlin : HasDerivAt (fun y : ℝ => y + ep0 + ep0) 1 x := by
      simpa using ((hasDerivAt_id x).add_const ep0).add_const ep0
    exact ((hlin.rpow_const (p := b) (Or.inl (by linarith))).const_mul a).const_add s0
  have h2 : (nadaiLudwik s0 a b ep0 x).2 = a * (1 * b * (x + ep0 + ep0) ^ (b - 1)) := by
    simp only [nadaiLudwik, relu, max_eq_left hx.le]; ring
  rw [h2]
  refine h1.congr_of_eventuallyEq ?_
  filter_upwards [lt_mem_nhds hx] with y hy
  simp [nadaiLudwik, relu, max_eq_left hy.le]

/-- C27e: an unknown hardening type raises, the three documented types do not. -/
theorem C27_selection (t : HardType) :
    getHardeningLaw t = .error .runtimeError ↔ t = .unknown := by
  cases t <;> simp [getHardeningLaw]

end Hooke
