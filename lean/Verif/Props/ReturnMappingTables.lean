import Verif.Props.ReturnMapping

/-!
# Tabulated, linear and power-law hardening is saturating
-/

noncomputable section

namespace Hooke

open Spec

theorem getD_row {pts : List (ℝ × ℝ)} {i : ℕ} (hi : i < pts.length) : pts.getD i 0 = pts[i] := by
  simp [List.getD_eq_getElem?_getD, hi]

theorem segmentSlope_eq {pts : List (ℝ × ℝ)} {i : ℕ} (hi : i + 1 < pts.length) :
    segmentSlope pts i = (pts[i + 1].2 - pts[i].2) / (pts[i + 1].1 - pts[i].1) := by
  unfold segmentSlope
  rw [getD_row hi, getD_row (by omega : i < pts.length)]

theorem line_slope {pts : List (ℝ × ℝ)} {i : ℕ} (hi : i + 1 < pts.length) (x : ℝ) :
    line pts[i] pts[i + 1] x = pts[i].2 + segmentSlope pts i * (x - pts[i].1) := by
  rw [segmentSlope_eq hi]; rfl

theorem line_right {pts : List (ℝ × ℝ)} (h : IsTable pts) {i : ℕ} (hi : i + 1 < pts.length) (x : ℝ) :
    line pts[i] pts[i + 1] x = pts[i + 1].2 + segmentSlope pts i * (x - pts[i + 1].1) := by
  have h1 := h.incr i hi
  rw [line_slope hi, segmentSlope_eq hi]
  have : pts[i + 1].1 - pts[i].1 ≠ 0 := by linarith
  field_simp
  ring

theorem segmentSlope_nonneg {pts : List (ℝ × ℝ)} (h : IsTable pts) (hm : MonotoneTable pts) {i : ℕ}
    (hi : i + 1 < pts.length) : 0 ≤ segmentSlope pts i := by
  rw [segmentSlope_eq hi]
  have h1 := h.incr i hi
  have h2 := hm i hi
  exact div_nonneg (by linarith) (by linarith)

theorem segmentSlope_le {pts : List (ℝ × ℝ)} (h : ConcaveTable pts) {i : ℕ} (hi : i + 1 < pts.length) :
    segmentSlope pts i ≤ segmentSlope pts 0 := by
  induction i with
  | zero => exact le_rfl
  | succ i ih => exact (h.concave i hi).trans (ih (by omega))

/-- Lines of later segments are below to the right. -/
theorem line_up {pts : List (ℝ × ℝ)} (h : ConcaveTable pts) {i : ℕ} (k : ℕ) (hk : i + k + 1 < pts.length)
    {y : ℝ} (hy : (pts[i + k]).1 ≤ y) :
    line pts[i + k] pts[i + k + 1] y ≤ line (pts[i]'(by omega)) (pts[i + 1]'(by omega)) y := by
  induction k with
  | zero => exact le_rfl
  | succ k ih =>
    have hlt := h.table.incr (i + k) (by omega)
    have hy' : (pts[i + k + 1]).1 ≤ y := hy
    refine le_trans ?_ (ih (by omega) (hlt.le.trans hy'))
    have hc := h.concave (i + k) (by omega)
    have e1 := line_right h.table (i := i + k) (by omega) y
    have e2 := line_slope (pts := pts) (i := i + k + 1) (by omega) y
    change line pts[i + k + 1] pts[i + k + 1 + 1] y ≤ _
    rw [e1, e2]
    have := mul_le_mul_of_nonneg_right hc (sub_nonneg.mpr hy')
    linarith

/-- Lines of later segments are above to the left. -/
theorem line_down {pts : List (ℝ × ℝ)} (h : ConcaveTable pts) {i : ℕ} (k : ℕ) (hk : i + k + 1 < pts.length)
    {y : ℝ} (hy : y ≤ (pts[i + 1]).1) :
    line (pts[i]'(by omega)) (pts[i + 1]'(by omega)) y ≤ line pts[i + k] pts[i + k + 1] y := by
  induction k with
  | zero => exact le_rfl
  | succ k ih =>
    refine le_trans (ih (by omega) hy) ?_
    have hle : (pts[i + 1]).1 ≤ (pts[i + k + 1]).1 := by
      rcases Nat.eq_zero_or_pos k with h0 | h0
      · subst h0; exact le_rfl
      · exact (h.table.lt (by omega) (by omega)).le
    have hc := h.concave (i + k) (by omega)
    have e1 := line_right h.table (i := i + k) (by omega) y
    have e2 := line_slope (pts := pts) (i := i + k + 1) (by omega) y
    change _ ≤ line pts[i + k + 1] pts[i + k + 1 + 1] y
    rw [e1, e2]
    have := mul_le_mul_of_nonpos_right hc (sub_nonpos.mpr (hy.trans hle))
    linarith

theorem table_last {pts : List (ℝ × ℝ)} (h : IsTable pts) {x : ℝ} (hx : 0 ≤ x)
    (hl : (pts[pts.length - 1]'(by have := h.two; omega)).1 ≤ x) :
    piecewiseLinear pts x = ((pts[pts.length - 1]'(by have := h.two; omega)).2, 0) := by
  have h2 := h.two
  rcases hl.lt_or_eq with hl | hl
  · exact (C26_outside h).2.1 x hx hl
  · refine Prod.ext ?_ ?_
    · rw [← hl]
      exact C26_interpolates h (by omega) (by rw [hl]; exact hx)
    · have hr : relu x = x := max_eq_left hx
      simp only [piecewiseLinear, hr, List.length_map]
      rw [getD_fst (i := 0) (by omega), getD_fst (i := pts.length - 1) (by omega),
        if_neg (not_lt.mpr ((h.lt (i := 0) (by omega) (by omega)).trans_eq hl).le), if_pos hl.le]

/-- The yield stress lies below the line of every segment. -/
theorem table_below {pts : List (ℝ × ℝ)} (h : ConcaveTable pts) {i : ℕ} (hi : i + 1 < pts.length) {y : ℝ}
    (hy : 0 ≤ y) : (piecewiseLinear pts y).1 ≤ line pts[i] pts[i + 1] y := by
  have h2 := h.table.two
  have hz : (pts[0]).1 = 0 := by
    rw [← h.zero, getD_row (by omega : 0 < pts.length)]
  have inside : ∀ (j : ℕ) (hj : j + 1 < pts.length) (y : ℝ), (pts[j]).1 ≤ y → y ≤ (pts[j + 1]).1 →
      line pts[j] pts[j + 1] y ≤ line pts[i] pts[i + 1] y := by
    intro j hj y h1 h2
    rcases Nat.le_total i j with hij | hij
    · obtain ⟨k, rfl⟩ := Nat.exists_eq_add_of_le hij
      exact line_up h k hj h1
    · obtain ⟨k, rfl⟩ := Nat.exists_eq_add_of_le hij
      exact line_down h k hi h2
  rcases lt_or_ge y (pts[pts.length - 1]).1 with hl | hl
  · obtain ⟨j, hj, h3, h4⟩ := exists_segment h.table (x := y) (by rw [hz]; exact hy) hl
    rw [C26_segment h.table hj hy h3 h4.le]
    exact inside j hj y h3 h4.le
  · rw [table_last h.table hy hl]
    obtain ⟨n, hn⟩ : ∃ n, pts.length = n + 2 := ⟨pts.length - 2, by omega⟩
    have h5 := inside n (by omega) (pts[n + 1]).1 (h.table.incr n (by omega)).le le_rfl
    have e1 := line_right h.table (i := n) (by omega) (pts[n + 1]).1
    rw [sub_self, mul_zero, add_zero] at e1
    rw [e1] at h5
    have hl' : (pts[n + 1]).1 ≤ y := by simpa [hn] using hl
    have e2 := line_slope hi y
    have e3 := line_slope hi (pts[n + 1]).1
    have h6 := mul_le_mul_of_nonneg_left hl' (segmentSlope_nonneg h.table h.mono hi)
    have e4 : (pts[pts.length - 1]).2 = (pts[n + 1]).2 := by simp [hn]
    change (pts[pts.length - 1]).2 ≤ _
    rw [e4]
    nlinarith

/-- C132d: a table with abscissae from zero, nondecreasing ordinates and nonincreasing slopes is a
saturating hardening law; the bound of the slopes is the slope of its first segment. -/
theorem C132_table {pts : List (ℝ × ℝ)} (h : ConcaveTable pts) :
    Saturating (piecewiseLinear pts) (segmentSlope pts 0) := by
  have h2 := h.table.two
  have hz : (pts[0]).1 = 0 := by
    rw [← h.zero, getD_row (by omega : 0 < pts.length)]
  have e0 : (piecewiseLinear pts 0).1 = (pts[0]).2 := by
    have := C26_interpolates h.table (i := 0) (by omega) (by rw [hz])
    rwa [hz] at this
  have hslope : ∀ x, 0 < x → x < (pts[pts.length - 1]).1 → ∃ (i : ℕ) (hi : i + 1 < pts.length),
      (pts[i]).1 ≤ x ∧ x < (pts[i + 1]).1 ∧ (piecewiseLinear pts x).2 = segmentSlope pts i := by
    intro x hx hl
    obtain ⟨i, hi, h3, h4⟩ := exists_segment h.table (x := x) (by rw [hz]; exact hx.le) hl
    refine ⟨i, hi, h3, h4, ?_⟩
    rw [segmentSlope_eq hi]
    rcases h3.lt_or_eq with h3 | h3
    · exact (C26_slope h.table hi hx h3 h4).1
    · have hi0 : i ≠ 0 := by
        rintro rfl
        rw [hz] at h3
        exact hx.ne h3
      have := C26_slope_at_points h.table hi (by rw [h3]; exact hx.le)
      rw [if_neg hi0] at this
      rw [← this, h3]
  refine ⟨(C26_outside h.table).2.2, ?_, ?_, ?_, Or.inl ?_⟩
  · intro x y hx hy
    rcases lt_or_ge x (pts[pts.length - 1]).1 with hl | hl
    · obtain ⟨i, hi, h3, h4, h5⟩ := hslope x hx hl
      have h6 := table_below h hi hy
      have h7 := C26_segment h.table hi hx.le h3 h4.le
      rw [h7, h5]
      rw [line_slope hi] at h6 ⊢
      linarith
    · rw [table_last h.table hx.le hl]
      have h3 := C26_monotone h.table h.mono (le_max_left y x)
      have h4 : (piecewiseLinear pts (max y x)).1 = (pts[pts.length - 1]).2 := by
        rw [table_last h.table (hx.le.trans (le_max_right _ _)) (hl.trans (le_max_right _ _))]
      simp only at h3
      rw [h4] at h3
      simpa using h3
  · intro x hx
    rcases lt_or_ge x (pts[pts.length - 1]).1 with hl | hl
    · obtain ⟨i, hi, -, -, h5⟩ := hslope x hx hl
      rw [h5]
      exact ⟨segmentSlope_nonneg h.table h.mono hi, segmentSlope_le h hi⟩
    · rw [table_last h.table hx.le hl]
      exact ⟨le_rfl, segmentSlope_nonneg h.table h.mono (by omega)⟩
  · intro y hy
    have := table_below h (i := 0) (by omega) hy
    rw [line_slope (by omega : 0 + 1 < pts.length), hz, sub_zero] at this
    rw [e0]
    exact this
  · have := C26_slope_at_points h.table (i := 0) (by omega) (by rw [hz])
    rwa [hz, if_pos rfl] at this

/-- C132e: linear hardening with a nonnegative slope is saturating. -/
theorem C132_linear {s0 a : ℝ} (ha : 0 ≤ a) : Saturating (linearHardening s0 a) a := by
  refine ⟨fun x hx => ?_, fun x y hx hy => ?_, fun x _ => ⟨ha, le_rfl⟩, fun y hy => ?_, Or.inr rfl⟩
  · simp [linearHardening, relu, max_eq_right hx]
  · simp only [linearHardening, relu, max_eq_left hx.le, max_eq_left hy]
    linarith
  · simp only [linearHardening, relu, max_eq_left hy, max_self, mul_zero, add_zero]
    linarith

end Hooke
