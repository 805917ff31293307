import Verif.Spec.YieldConvexity
import Verif.Spec.DruckerPrager
import Mathlib.Analysis.SpecialFunctions.Complex.Arg

/-! # Specification: yield surfaces in principal stresses -/

noncomputable section

namespace Hooke.Spec

/-- The principal stresses are on or inside the Mohr-Coulomb surface with the friction angle `phi`
and the cohesion `c` (tension positive). -/
def MohrCoulomb (phi c : ℝ) (s : Fin 3 → ℝ) : Prop :=
  ∀ i j, (s i - s j) + (s i + s j) * Real.sin phi ≤ 2 * c * Real.cos phi

/-- Counter-clockwise order around a centre, starting at the negative horizontal axis. -/
def CounterClockwise (o : ℝ × ℝ) (pts : List (ℝ × ℝ)) : Prop :=
  pts.Pairwise fun p q =>
    Complex.arg ⟨p.1 - o.1, p.2 - o.2⟩ ≤ Complex.arg ⟨q.1 - o.1, q.2 - o.2⟩

/-- Arithmetic mean of points. -/
def meanPoint (pts : List (ℝ × ℝ)) : ℝ × ℝ :=
  ((pts.map fun p => p.1).sum / pts.length, (pts.map fun p => p.2).sum / pts.length)

end Hooke.Spec
