import Verif.Model.LearnableParameters
import Verif.Model.StrainPath

/-!
# Model of the convexity boundary of the Lou-Zhang-Yoon yield parameters

`compute_convex_boundary` and `directional_convex_boundary` with any search window
(simulators/fetorch/material/models/standard/lou.py 1612-1699).
-/

noncomputable section

namespace Hooke

/-- `directional_convex_boundary(theta, r_lower, r_upper, search_tol)` (lou.py:1643-1699), for at most `fuel`
tests of the condition of the loop; `none` if it has not ended.  The yield parameters are unbound if the body
of the loop is never run (1696). -/
def directionalBoundary (convex : ℝ → ℝ → Bool) (lo hi tol : ℝ) (fuel : ℕ) (theta : ℝ) :
    Option (Py (ℝ × ℝ)) :=
  (bisectRadius (fun r => convex (r * Real.cos theta) (r * Real.sin theta)) tol fuel lo hi none).map
    fun last => (orRaise last .unboundLocal).map fun r => (r * Real.cos theta, r * Real.sin theta)

/-- The loop over the angles (lou.py:1634-1639); the points are the rows of the tensor. -/
def boundaryRows (convex : ℝ → ℝ → Bool) (fuel : ℕ) : List ℝ → Option (Py (List (ℝ × ℝ)))
  | [] => some (.ok [])
  | theta :: thetas =>
    match directionalBoundary convex 0 5 1e-6 fuel theta with
    | none => none
    | some (.error e) => some (.error e)
    | some (.ok p) =>
      match boundaryRows convex fuel thetas with
      | none => none
      | some (.error e) => some (.error e)
      | some (.ok ps) => some (.ok (p :: ps))

/-- `compute_convex_boundary(n_theta)` (lou.py:1611-1641).  `torch.linspace` (1628) refuses a negative number
of steps. -/
def convexBoundary (convex : ℝ → ℝ → Bool) (fuel : ℕ) (n : ℤ) : Option (Py (List (ℝ × ℝ))) :=
  if n < 0 then some (.error .runtimeError)
  else boundaryRows convex fuel (npLinspace 0 (2 * Real.pi) n.toNat)

end Hooke
