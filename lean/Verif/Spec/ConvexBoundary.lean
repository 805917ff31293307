import Mathlib.Analysis.SpecialFunctions.Trigonometric.Basic

/-! # The boundary of a region along a ray -/

noncomputable section

namespace Hooke.Spec

/-- The point at the distance `r` from the origin in the direction `θ`. -/
def rayPoint (θ r : ℝ) : ℝ × ℝ := (r * Real.cos θ, r * Real.sin θ)

/-- The radius `r` is within `δ` of a change of the test along the ray in the direction `θ`, seen from the
window `[lo, hi]`: `r - δ` is the lower end or passes the test, `r + δ` is the upper end or fails it. -/
def NearChange (test : ℝ → ℝ → Bool) (lo hi δ θ r : ℝ) : Prop :=
  (r - δ = lo ∨ test (rayPoint θ (r - δ)).1 (rayPoint θ (r - δ)).2 = true) ∧
  (r + δ = hi ∨ test (rayPoint θ (r + δ)).1 (rayPoint θ (r + δ)).2 = false)

/-- The angle with number `i` of `n` angles from `0` to `2π`. -/
def circleAngle (n i : ℕ) : ℝ := 2 * Real.pi * i / (n - 1)

end Hooke.Spec
