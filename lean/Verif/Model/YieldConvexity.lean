import Verif.Model.Lou
import Mathlib.Analysis.SpecialFunctions.Trigonometric.Basic

/-!
# Model of the convexity check of the yield surface

`check_yield_surface_convexity`, standard/lou.py:1701-1835.  A number which is not finite is `none`;
comparisons with it are false (a quotient by zero is infinite or NaN, and so is the value computed
from it).
-/

noncomputable section

namespace Hooke

/-- `get_dev_stress`, lou.py:1719-1740. -/
def lodeStress (lode : ℝ) : T2 3 := fun i j =>
  if i = j then
    ![2 / 3 * Real.cos lode, 2 / 3 * Real.cos (2 * Real.pi / 3 - lode),
      2 / 3 * Real.cos (4 * Real.pi / 3 - lode)] i
  else 0

/-- `convexity_function`, lou.py:1742-1767. -/
def convexityFunction (s : T2 3) (c d : ℝ) : Option ℝ :=
  let j2 := 0.5 * ∑ i, ∑ j, s i j * s i j
  let j3 := Matrix.det (Matrix.of s)
  (fpow (j2 ^ 3 - c * j3 ^ 2) (1 / 2)).bind fun r => fpow (r - d * j3) (1 / 3)

/-- Division of a stress by the value of the function, lou.py:1799-1800, 1804-1805. -/
def scaleToSurface (s : T2 3) (c d : ℝ) : Option (T2 3) :=
  (convexityFunction s c d).bind fun v => if v = 0 then none else some fun i j => s i j / v

/-- `lode_small`: 0.001 degrees, lou.py:1793-1794. -/
def lodeSmall : ℝ := 0.001 * Real.pi / 180

/-- `evaluate_convexity_lode`, lou.py:1769-1813. -/
def evaluateConvexityLode (lode c d : ℝ) : Option ℝ :=
  (scaleToSurface (lodeStress lode) c d).bind fun a =>
    (scaleToSurface (lodeStress (lode + lodeSmall)) c d).bind fun b =>
      convexityFunction (fun i j => (a i j + b i j) / 2) c d

/-- Comparison with one, lou.py:1833. -/
def atMostOne : Option ℝ → Prop
  | none => False
  | some v => v ≤ 1

/-- `check_yield_surface_convexity`, lou.py:1701-1835: 1000 Lode angles from 0 to 360 degrees
(1819-1820). -/
def checkConvexity (c d : ℝ) : Prop :=
  ∀ k < 1000, atMostOne (evaluateConvexityLode ((360 * (k : ℕ) / 999) * Real.pi / 180) c d)

end Hooke
