import Verif.Model.ScatterPlot
import Verif.Spec.NoiseConvergence

/-! # Coefficient of determination -/

noncomputable section

namespace Hooke.Spec

/-- The sum of the squared differences of references and predictions. -/
def SquaredErrors (pts : List (ℝ × ℝ)) (s : ℝ) : Prop := s = (pts.map fun q => (q.2 - q.1) ^ 2).sum

/-- The sum of the squared differences of the references and their mean. -/
def SquaredSpread (pts : List (ℝ × ℝ)) (s : ℝ) : Prop :=
  ∃ μ, IsMean (pts.map Prod.fst) μ ∧ s = (pts.map fun q => (q.1 - μ) ^ 2).sum

/-- `r` is the coefficient of determination of references and predictions. -/
def IsR2 (pts : List (ℝ × ℝ)) (r : ℝ) : Prop :=
  ∃ a b, SquaredErrors pts a ∧ SquaredSpread pts b ∧ b ≠ 0 ∧ r = 1 - a / b

end Hooke.Spec
