import Verif.Model.NoiseConvergence

/-! # Points with error bars -/

noncomputable section

namespace Hooke.Spec

/-- `y` is the mean of the numbers. -/
def IsMean (l : List ℝ) (y : ℝ) : Prop := y * l.length = l.sum

/-- `[a, b]` is the smallest interval with all the numbers. -/
def Spans (l : List ℝ) (a b : ℝ) : Prop := (∀ x ∈ l, a ≤ x ∧ x ≤ b) ∧ a ∈ l ∧ b ∈ l

/-- The point shows the losses at the size `x`: their mean, with a bar over all of them. -/
def Shows (p : BarPoint) (x : ℕ) (losses : List ℝ) : Prop :=
  p.x = x ∧ IsMean losses p.mean ∧
    ∃ e, p.err = some e ∧ Spans losses (p.mean - e.1) (p.mean + e.2)

end Hooke.Spec
