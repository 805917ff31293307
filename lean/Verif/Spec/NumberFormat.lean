import Mathlib.Data.Real.Basic

/-!
# Specification of the texts of numbers
-/

namespace Hooke.Spec

/-- A rounding to `p + 1` significant digits: every number becomes a number with `p + 1` digits before a
power of ten, at most half a unit of the last digit away. -/
structure RoundsTo (p : ℕ) (rd : ℝ → ℝ) : Prop where
  digits : ∀ x, ∃ (m : ℤ) (e : ℤ), rd x = m * (10 : ℝ) ^ (e - p) ∧ |m| < 10 ^ (p + 1) ∧
    (x ≠ 0 → 10 ^ p ≤ |m|)
  error : ∀ x, |rd x - x| ≤ |x| * ((10 : ℝ) ^ p)⁻¹ / 2
  mono : ∀ x y, x ≤ y → rd x ≤ rd y
  odd : ∀ x, rd (-x) = -rd x
  idem : ∀ x, rd (rd x) = rd x

end Hooke.Spec
