import Mathlib.Data.Real.Basic

/-! # Specification: a table of data points -/

namespace Hooke.Spec

/-- A table with at least two rows and strictly increasing abscissae. -/
structure IsTable (pts : List (ℝ × ℝ)) : Prop where
  two : 2 ≤ pts.length
  incr : ∀ (i : ℕ) (h : i + 1 < pts.length), (pts[i]).1 < (pts[i + 1]).1

/-- The ordinates do not decrease. -/
def MonotoneTable (pts : List (ℝ × ℝ)) : Prop :=
  ∀ (i : ℕ) (h : i + 1 < pts.length), (pts[i]).2 ≤ (pts[i + 1]).2

/-- Straight line through two points. -/
noncomputable def line (P Q : ℝ × ℝ) (x : ℝ) : ℝ := P.2 + (Q.2 - P.2) / (Q.1 - P.1) * (x - P.1)

end Hooke.Spec
