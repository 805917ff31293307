import Verif.Spec.ScatterPlot
import Verif.Props.NoiseConvergence

/-!
# C165: scatter plots with a coefficient of determination
-/

noncomputable section

namespace Hooke

open Spec

theorem sumSqRes_eq {pts : List (ℝ × ℝ)} {a : ℝ} (h : SquaredErrors pts a) : sumSqRes pts = a := by
  rw [h]
  unfold sumSqRes
  congr 1
  refine List.map_congr_left fun q _ => ?_
  ring

theorem isMean_unique165 {l : List ℝ} {a b : ℝ} (hl : l ≠ []) (ha : IsMean l a) (hb : IsMean l b) : a = b := by
  have : (l.length : ℝ) ≠ 0 := by simpa using hl
  unfold IsMean at ha hb
  exact mul_right_cancel₀ this (ha.trans hb.symm)

theorem sumSqTot_eq {pts : List (ℝ × ℝ)} {b : ℝ} (h : SquaredSpread pts b) : sumSqTot pts = b := by
  obtain ⟨μ, hμ, rfl⟩ := h
  by_cases hp : pts = []
  · subst hp
    rfl
  · unfold sumSqTot
    rw [isMean_unique165 (by simpa using hp) (sampleMean_isMean (by simpa using hp)) hμ]

theorem sumSqTot_spread (pts : List (ℝ × ℝ)) (hp : pts ≠ []) : SquaredSpread pts (sumSqTot pts) :=
  ⟨_, sampleMean_isMean (by simpa using hp), rfl⟩

theorem sum_sq_nonneg {α : Type} (l : List α) (f : α → ℝ) : 0 ≤ (l.map fun q => f q ^ 2).sum := by
  refine List.sum_nonneg fun x hx => ?_
  obtain ⟨q, -, rfl⟩ := List.mem_map.mp hx
  positivity

theorem sum_sq_eq_zero {α : Type} {l : List α} {f : α → ℝ} :
    (l.map fun q => f q ^ 2).sum = 0 ↔ ∀ q ∈ l, f q = 0 := by
  induction l with
  | nil => simp
  | cons a l ih =>
    rw [List.map_cons, List.sum_cons]
    have h1 := sum_sq_nonneg l f
    have h2 : 0 ≤ f a ^ 2 := by positivity
    rw [add_eq_zero_iff_of_nonneg h2 h1, ih, pow_eq_zero_iff (by norm_num)]
    simp

/-- **C165 (coefficient).** Unless the spread of the references is less than the tolerance times the
squared errors, or there is none, the coefficient shown is one minus the squared errors over the squared
spread; it is at most one, one exactly for predictions equal to the references, and not negative exactly
when the predictions are no worse than the mean. -/
theorem C165_r2 {pts : List (ℝ × ℝ)} {a b : ℝ} (ha : SquaredErrors pts a) (hb : SquaredSpread pts b)
    (h0 : b ≠ 0) (hs : 1 / 10 ^ 8 * a ≤ b) :
    ∃ r, r2Value pts = some r ∧ IsR2 pts r ∧ r ≤ 1 ∧ (r = 1 ↔ ∀ q ∈ pts, q.2 = q.1) ∧
      (0 ≤ r ↔ a ≤ b) := by
  have hb0 : 0 < b := by
    refine lt_of_le_of_ne ?_ (Ne.symm h0)
    obtain ⟨μ, -, rfl⟩ := hb
    exact sum_sq_nonneg pts fun q => q.1 - μ
  have ha0 : 0 ≤ a := by
    rw [ha]
    exact sum_sq_nonneg pts fun q => q.2 - q.1
  refine ⟨1 - a / b, ?_, ⟨a, b, ha, hb, h0, rfl⟩, ?_, ?_, ?_⟩
  · unfold r2Value
    dsimp only
    rw [sumSqRes_eq ha, sumSqTot_eq hb, if_neg (not_lt.mpr hs), if_neg h0]
  · have : 0 ≤ a / b := by positivity
    linarith
  · have h1 : (1 - a / b = 1) ↔ a = 0 := by
      constructor
      · intro h
        have : a / b = 0 := by linarith
        rcases div_eq_zero_iff.mp this with h | h
        · exact h
        · exact absurd h h0
      · intro h
        rw [h]
        simp
    rw [h1, ha, sum_sq_eq_zero (f := fun q : ℝ × ℝ => q.2 - q.1)]
    simp only [sub_eq_zero]
  · rw [sub_nonneg, div_le_one hb0]

theorem sampleMean_affine {l : List ℝ} (hl : l ≠ []) (s t : ℝ) :
    sampleMean (l.map fun x => s * x + t) = s * sampleMean l + t := by
  have hn : (l.length : ℝ) ≠ 0 := by simpa using hl
  have h1 : (l.map fun x => s * x + t).sum = s * l.sum + t * l.length := by
    clear hl hn
    induction l with
    | nil => simp
    | cons a l ih =>
      rw [List.map_cons, List.sum_cons, ih, List.sum_cons, List.length_cons]
      push_cast
      ring
  unfold sampleMean
  rw [h1, List.length_map]
  field_simp

theorem sum_scaled {α : Type} (l : List α) (f : α → ℝ) (s : ℝ) :
    (l.map fun q => (s * f q) ^ 2).sum = s ^ 2 * (l.map fun q => f q ^ 2).sum := by
  induction l with
  | nil => simp
  | cons a l ih =>
    rw [List.map_cons, List.sum_cons, ih, List.map_cons, List.sum_cons]
    ring

/-- **C165 (units).** The coefficient does not change with the units and the origin in which references
and predictions are measured, unless the spread is less than the tolerance times the squared errors. -/
theorem C165_units {pts : List (ℝ × ℝ)} {a b : ℝ} (ha : SquaredErrors pts a) (hb : SquaredSpread pts b)
    (hs : 1 / 10 ^ 8 * a ≤ b) {s : ℝ} (hs0 : s ≠ 0) (t : ℝ) :
    r2Value (pts.map fun q => (s * q.1 + t, s * q.2 + t)) = r2Value pts := by
  by_cases hp : pts = []
  · subst hp
    rfl
  have h1 : sumSqRes (pts.map fun q => (s * q.1 + t, s * q.2 + t)) = s ^ 2 * a := by
    rw [← sumSqRes_eq ha]
    unfold sumSqRes
    rw [List.map_map, ← sum_scaled pts (fun q => q.1 - q.2)]
    congr 1
    refine List.map_congr_left fun q _ => ?_
    simp only [Function.comp]
    ring
  have h2 : sumSqTot (pts.map fun q => (s * q.1 + t, s * q.2 + t)) = s ^ 2 * b := by
    rw [← sumSqTot_eq hb]
    unfold sumSqTot
    have h3 : (pts.map fun q => (s * q.1 + t, s * q.2 + t)).map Prod.fst =
        (pts.map Prod.fst).map fun x => s * x + t := by
      rw [List.map_map, List.map_map]
      rfl
    rw [h3, sampleMean_affine (by simpa using hp), List.map_map,
      ← sum_scaled pts (fun q => q.1 - sampleMean (pts.map Prod.fst))]
    congr 1
    refine List.map_congr_left fun q _ => ?_
    simp only [Function.comp]
    ring
  have hss : 0 < s ^ 2 := by positivity
  have e1 : ¬ s ^ 2 * b < 1 / 10 ^ 8 * (s ^ 2 * a) := by
    have := mul_le_mul_of_nonneg_left hs hss.le
    rw [not_lt]
    linarith
  unfold r2Value
  dsimp only
  rw [h1, h2, sumSqRes_eq ha, sumSqTot_eq hb, if_neg (not_lt.mpr hs), if_neg e1]
  by_cases h0 : b = 0
  · rw [if_pos h0, if_pos (by rw [h0, mul_zero])]
  · rw [if_neg h0, if_neg (mul_ne_zero hss.ne' h0), mul_div_mul_left _ _ hss.ne']

/-- **C165 is violated for constant references.** Perfect predictions of references that are all the
same, or of a single reference, have a coefficient that is not a number. -/
theorem C165_constant_violated {pts : List (ℝ × ℝ)} {x : ℝ} (h : ∀ q ∈ pts, q = (x, x)) :
    r2Value pts = none := by
  by_cases hp : pts = []
  · subst hp
    simp [r2Value, sumSqRes, sumSqTot]
  have ha : SquaredErrors pts 0 := by
    unfold SquaredErrors
    symm
    rw [sum_sq_eq_zero (f := fun q : ℝ × ℝ => q.2 - q.1)]
    intro q hq
    rw [h q hq]
    simp
  have hb : SquaredSpread pts 0 := by
    refine ⟨x, ?_, ?_⟩
    · have hx : pts.map Prod.fst = List.replicate pts.length x := by
        rw [List.eq_replicate_iff]
        refine ⟨List.length_map _, fun y hy => ?_⟩
        obtain ⟨q, hq, rfl⟩ := List.mem_map.mp hy
        rw [h q hq]
      unfold IsMean
      rw [hx, List.sum_replicate, List.length_replicate, nsmul_eq_mul, mul_comm]
    · symm
      rw [sum_sq_eq_zero (f := fun q : ℝ × ℝ => q.1 - x)]
      intro q hq
      rw [h q hq]
      simp
  unfold r2Value
  dsimp only
  rw [sumSqRes_eq ha, sumSqTot_eq hb]
  simp

/-- **C165 is violated for references that differ little.** The predictions exceed the references `s` and
`-s` by 0.01, which is more than ten thousand times the spread; the coefficient shown is 0.9998, although
the coefficient of determination is less than minus ten million. -/
theorem C165_small_spread_violated {s : ℝ} (h0 : 0 < s) (h1 : s < 1 / 10 ^ 6) :
    r2Value [(s, s + 1 / 100), (-s, -s + 1 / 100)] = some (1 - 2 / 10 ^ 4) ∧
      ∃ r, IsR2 [(s, s + 1 / 100), (-s, -s + 1 / 100)] r ∧ r < -10 ^ 7 := by
  have ha : SquaredErrors [(s, s + 1 / 100), (-s, -s + 1 / 100)] (2 / 10 ^ 4) := by
    unfold SquaredErrors
    simp only [List.map_cons, List.map_nil, List.sum_cons, List.sum_nil]
    ring
  have hb : SquaredSpread [(s, s + 1 / 100), (-s, -s + 1 / 100)] (2 * s ^ 2) := by
    refine ⟨0, ?_, ?_⟩
    · unfold IsMean
      simp
    · simp only [List.map_cons, List.map_nil, List.sum_cons, List.sum_nil]
      ring
  have h2 : s ^ 2 < 1 / 10 ^ 12 := by nlinarith
  have h3 : 0 < s ^ 2 := by positivity
  constructor
  · have e1 : 2 * s ^ 2 < 1 / 10 ^ 8 * (2 / 10 ^ 4) := by
      norm_num at h2 ⊢
      linarith
    unfold r2Value
    dsimp only
    rw [sumSqRes_eq ha, sumSqTot_eq hb, if_pos e1, if_neg one_ne_zero, div_one]
  · refine ⟨_, ⟨_, _, ha, hb, by positivity, rfl⟩, ?_⟩
    have h4 : 2 * 10 ^ 7 < 2 / 10 ^ 4 / (2 * s ^ 2) := by
      rw [lt_div_iff₀ (by positivity)]
      norm_num at h2 ⊢
      linarith
    norm_num at h4 ⊢
    linarith

/-- **C165 (data sets).** An array with an odd number of columns, or a number of labels other than that of
pairs of columns, is refused; otherwise, for rows with all the columns, there is a data set for each pair
of columns, with its label, whose points are the entries of the two columns, row by row; the coefficient is
shown for a single data set only. -/
theorem C165_sets (nCol : ℕ) (labels : Option (List String)) (data : List (List ℝ)) :
    (nCol % 2 ≠ 0 → scatterSets nCol labels data = .error .runtimeError) ∧
    (∀ n l, nCol = 2 * n → labels = some l → l.length ≠ n →
      scatterSets nCol labels data = .error .runtimeError) ∧
    ∀ n, nCol = 2 * n → (∀ l, labels = some l → l.length = n) → (∀ row ∈ data, row.length = nCol) →
      ∃ sets, scatterSets nCol labels data = .ok sets ∧ sets.length = n ∧
        (∀ i < n, ∃ s, sets[i]? = some s ∧ s.label = labels.bind (fun l => l[i]?) ∧
          List.Forall₂ (fun row (q : ℝ × ℝ) => row[2 * i]? = some q.1 ∧ row[2 * i + 1]? = some q.2) data
            s.points) ∧
        ((scatterR2 true sets).isSome = true ↔ n = 1) ∧ scatterR2 false sets = none := by
  refine ⟨?_, ?_, ?_⟩
  · intro h
    unfold scatterSets scatterCount
    rw [raiseIf, if_pos h]
    rfl
  · rintro n l rfl rfl hl
    unfold scatterSets scatterCount
    rw [raiseIf, if_neg (by omega)]
    have : 2 * n / 2 = n := by omega
    simp only [bind, Except.bind, pure, Except.pure, this, scatterLabels, raiseIf]
    rw [if_pos hl]
  · rintro n rfl hl hr
    have hn : 2 * n / 2 = n := by omega
    obtain ⟨ls, h1, h2⟩ : ∃ ls, scatterLabels n labels = .ok ls ∧
        ∀ i < n, ls[i]? = some (labels.bind fun l => l[i]?) := by
      cases labels with
      | none =>
        refine ⟨_, rfl, fun i hi => ?_⟩
        rw [List.getElem?_replicate, if_pos hi]
        rfl
      | some l =>
        refine ⟨l.map some, ?_, fun i hi => ?_⟩
        · simp only [scatterLabels, raiseIf]
          rw [if_neg (not_not.mpr (hl l rfl))]
          rfl
        · rw [List.getElem?_map, List.getElem?_eq_getElem (by rw [hl l rfl]; exact hi)]
          simp [List.getElem?_eq_getElem (show i < l.length by rw [hl l rfl]; exact hi)]
    have hx : scatterSets (2 * n) labels data = .ok ((List.range n).map fun i =>
        ⟨labels.bind fun l => l[i]?, data.map fun row => (row.getD (2 * i) 0, row.getD (2 * i + 1) 0)⟩) := by
      unfold scatterSets scatterCount
      rw [raiseIf, if_neg (by omega)]
      simp only [bind, Except.bind, pure, Except.pure, hn, h1]
      refine mapM_of_forall fun i hi => ?_
      have hi := List.mem_range.mp hi
      have hrow : data.mapM (fun row => do
          let x ← orRaise row[2 * i]? .indexError
          let y ← orRaise row[2 * i + 1]? .indexError
          return (x, y)) = .ok (data.map fun row : List ℝ => (row.getD (2 * i) 0, row.getD (2 * i + 1) 0)) := by
        refine mapM_of_forall fun row hrow => ?_
        have hlen := hr row hrow
        rw [List.getD_eq_getElem?_getD, List.getD_eq_getElem?_getD,
          List.getElem?_eq_getElem (show 2 * i < row.length by omega),
          List.getElem?_eq_getElem (show 2 * i + 1 < row.length by omega)]
        rfl
      simp only [bind, Except.bind, pure, Except.pure] at hrow
      rw [hrow]
      simp only [h2 i hi, orRaise]
    refine ⟨_, hx, by simp, ?_, ?_, ?_⟩
    · intro i hi
      refine ⟨_, by rw [List.getElem?_map, List.getElem?_range hi]; rfl, rfl, ?_⟩
      dsimp only
      rw [List.forall₂_map_right_iff, List.forall₂_same]
      intro row hrow
      have hlen := hr row hrow
      rw [List.getD_eq_getElem?_getD, List.getD_eq_getElem?_getD,
        List.getElem?_eq_getElem (show 2 * i < row.length by omega),
        List.getElem?_eq_getElem (show 2 * i + 1 < row.length by omega)]
      exact ⟨rfl, rfl⟩
    · match n with
      | 0 => simp [scatterR2]
      | 1 => simp [scatterR2]
      | n + 2 => simp [scatterR2, List.range_succ_eq_map]
    · match n with
      | 0 => simp [scatterR2]
      | 1 => simp [scatterR2]
      | n + 2 => simp [scatterR2, List.range_succ_eq_map]

/-- **C165 (error bars).** With error bars over the range, there is a point for each row of the array, at
the abscissa of the first data set, with the mean of the ordinates of all data sets and a bar from the
smallest to the largest of them. -/
theorem C165_bars {n : ℕ} (hn : 0 < n) {labels : Option (List String)}
    (hl : ∀ l, labels = some l → l.length = n) {data : List (List ℝ)}
    (hr : ∀ row ∈ data, row.length = 2 * n) :
    ∃ bars, scatterBars (2 * n) labels "min-max" data = .ok bars ∧
      List.Forall₂ (fun row (q : ScatterBar) => row[0]? = some q.x ∧
        ∃ ys e, ys.length = n ∧ (∀ i < n, ys[i]? = row[2 * i + 1]?) ∧ IsMean ys q.mean ∧ q.err = some e ∧
          Spans ys (q.mean - e.1) (q.mean + e.2)) data bars := by
  have hn2 : 2 * n / 2 = n := by omega
  obtain ⟨ls, h1⟩ : ∃ ls, scatterLabels n labels = .ok ls := by
    cases labels with
    | none => exact ⟨_, rfl⟩
    | some l =>
      refine ⟨l.map some, ?_⟩
      simp only [scatterLabels, raiseIf]
      rw [if_neg (not_not.mpr (hl l rfl))]
      rfl
  have hne : ∀ row : List ℝ, (List.range n).map (fun i => row.getD (2 * i + 1) 0) ≠ [] := by
    intro row h
    have := congrArg List.length h
    simp at this
    omega
  choose e he hsp using fun row : List ℝ => barErr_minmax (hne row)
  have hx : scatterBars (2 * n) labels "min-max" data = .ok (data.map fun row =>
      ⟨row.getD 0 0, sampleMean ((List.range n).map fun i => row.getD (2 * i + 1) 0), some (e row)⟩) := by
    unfold scatterBars scatterCount
    rw [raiseIf, if_neg (by omega)]
    simp only [bind, Except.bind, pure, Except.pure, hn2, h1]
    refine mapM_of_forall fun row hrow => ?_
    have hlen := hr row hrow
    have hys : (List.range n).mapM (fun i => orRaise row[2 * i + 1]? .indexError) =
        .ok ((List.range n).map fun i => row.getD (2 * i + 1) 0) := by
      refine mapM_of_forall fun i hi => ?_
      have hi := List.mem_range.mp hi
      rw [List.getD_eq_getElem?_getD, List.getElem?_eq_getElem (show 2 * i + 1 < row.length by omega)]
      rfl
    rw [hys, List.getD_eq_getElem?_getD, List.getElem?_eq_getElem (show 0 < row.length by omega)]
    simp only [orRaise, he, Option.getD_some]
  refine ⟨_, hx, ?_⟩
  rw [List.forall₂_map_right_iff, List.forall₂_same]
  intro row hrow
  have hlen := hr row hrow
  refine ⟨?_, (List.range n).map fun i => row.getD (2 * i + 1) 0, e row, by simp, ?_,
    sampleMean_isMean (hne row), rfl, hsp row⟩
  · dsimp only
    rw [List.getD_eq_getElem?_getD, List.getElem?_eq_getElem (show 0 < row.length by omega)]
    rfl
  · intro i hi
    rw [List.getElem?_map, List.getElem?_range hi, Option.map_some, List.getD_eq_getElem?_getD,
      List.getElem?_eq_getElem (show 2 * i + 1 < row.length by omega)]
    rfl

/-- **C165 is violated for data sets with other abscissae.** With error bars, the abscissae of the data
sets after the first one are not used: points of different abscissae are averaged. -/
theorem C165_abscissae_violated (labels : Option (List String)) (range : String) (x x' y y' z : ℝ) :
    scatterBars 4 labels range [[x, y, x', y']] = scatterBars 4 labels range [[x, y, z, y']] := by
  have h : scatterCount 4 = .ok 2 := by
    unfold scatterCount
    rw [raiseIf, if_neg (by norm_num)]
    rfl
  unfold scatterBars
  rw [h]
  simp [bind, Except.bind, List.range_succ]

/-- **C165 (band).** The band of a relative error holds a point exactly when the ordinate differs from the
abscissa by at most the relative error of the abscissa. -/
theorem C165_band {e : ℝ} (he : 0 ≤ e) (x y : ℝ) :
    (min (identityBand e x).1 (identityBand e x).2 ≤ y ∧ y ≤ max (identityBand e x).1 (identityBand e x).2) ↔
      |y - x| ≤ e * |x| := by
  unfold identityBand
  dsimp only
  rcases le_total 0 x with hx | hx
  · rw [abs_of_nonneg hx, abs_le, min_eq_right (by nlinarith), max_eq_left (by nlinarith)]
    constructor <;> rintro ⟨h1, h2⟩ <;> constructor <;> nlinarith
  · rw [abs_of_nonpos hx, abs_le, min_eq_left (by nlinarith), max_eq_right (by nlinarith)]
    constructor <;> rintro ⟨h1, h2⟩ <;> constructor <;> nlinarith

/-- References 0 and 2, predictions 0 and 1: the coefficient is one half. -/
example : SquaredErrors [(0, 0), (2, 1)] 1 ∧ SquaredSpread [(0, 0), (2, 1)] 2 ∧
    r2Value [(0, 0), (2, 1)] = some (1 / 2) := by
  have ha : SquaredErrors [(0, 0), (2, 1)] 1 := by
    unfold SquaredErrors
    norm_num
  have hb : SquaredSpread [(0, 0), (2, 1)] 2 := by
    refine ⟨1, ?_, ?_⟩
    · unfold IsMean
      norm_num
    · norm_num
  refine ⟨ha, hb, ?_⟩
  obtain ⟨r, hr, ⟨a, b, ha', hb', -, rfl⟩, -⟩ := C165_r2 ha hb (by norm_num) (by norm_num)
  rw [hr, ← sumSqRes_eq ha', ← sumSqTot_eq hb', sumSqRes_eq ha, sumSqTot_eq hb]
  norm_num

/-- Two data sets with two points each. -/
example : (∃ bars, scatterBars (2 * 2) (some ["a", "b"]) "min-max" [[0, 1, 0, 3], [1, 2, 1, 5]] = .ok bars ∧
      bars.length = 2) ∧
    ∃ sets, scatterSets 4 (some ["a", "b"]) [[0, 1, 0, 3], [1, 2, 1, 5]] = .ok sets ∧ sets.length = 2 := by
  obtain ⟨bars, h, h'⟩ := C165_bars (n := 2) (by norm_num) (labels := some ["a", "b"])
    (by rintro l ⟨⟩; rfl) (data := [[0, 1, 0, 3], [1, 2, 1, 5]])
    (by intro row hr; fin_cases hr <;> rfl)
  obtain ⟨sets, h1, h2, -⟩ := (C165_sets 4 (some ["a", "b"]) [[0, 1, 0, 3], [1, 2, 1, 5]]).2.2 2 rfl
    (by rintro l ⟨⟩; rfl) (by intro row hr; fin_cases hr <;> rfl)
  exact ⟨⟨bars, h, h'.length_eq.symm⟩, sets, h1, h2⟩

end Hooke
