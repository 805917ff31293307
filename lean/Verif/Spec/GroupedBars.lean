import Verif.Model.GroupedBars

/-!
# What a chart of grouped bars should show
-/

noncomputable section

namespace Hooke.Spec

/-- The bar of the data set `k` in the group `g` has this centre and height. -/
def BarAt (c : BarChart) (k g : ℕ) (centre height : ℝ) : Prop :=
  ∃ s, c.sets[k]? = some s ∧ s.bars[g]? = some (centre, height)

/-- Two bars of the same width overlap: some abscissa is strictly inside both. -/
def BarsOverlap (w a b : ℝ) : Prop :=
  ∃ x, a - w / 2 < x ∧ x < a + w / 2 ∧ b - w / 2 < x ∧ x < b + w / 2

/-- No two different bars of the chart overlap. -/
def BarsApart (c : BarChart) : Prop :=
  ∀ k g k' g' a b v v', BarAt c k g a v → BarAt c k' g' b v' → (k, g) ≠ (k', g') → ¬ BarsOverlap c.width a b

/-- The label of the group `g` is at the middle of the bars of the group, from the left side of the bar of the
first data set to the right side of the bar of the last. -/
def LabelCentred (c : BarChart) (g : ℕ) : Prop :=
  ∀ t l a b v v', c.ticks[g]? = some (t, l) → BarAt c 0 g a v → BarAt c (c.sets.length - 1) g b v' →
    t = ((a - c.width / 2) + (b + c.width / 2)) / 2

end Hooke.Spec
