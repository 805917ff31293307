import Mathlib.Data.Real.Basic

/-!
# What a comparison of stress predictions should show
-/

namespace Hooke.Spec

/-- The curve has, at each time, the component `i` of the stresses at that time. -/
def ShowsComponent (times : List ℝ) (path : List (List ℝ)) (i : ℕ) (curve : List (ℝ × ℝ)) : Prop :=
  curve.map Prod.fst = times ∧ curve.map (fun q => some q.2) = path.map fun row => row[i]?

/-- The stresses are given at each time, with `n` components. -/
def StressPath (times : List ℝ) (n : ℕ) (path : List (List ℝ)) : Prop :=
  path.length = times.length ∧ ∀ row ∈ path, row.length = n

end Hooke.Spec
