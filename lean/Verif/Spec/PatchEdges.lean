import Mathlib.Analysis.Real.Sqrt
import Mathlib.Algebra.Polynomial.Eval.Defs
import Mathlib.Algebra.Polynomial.Degree.Defs
import Mathlib.Algebra.BigOperators.Group.Finset.Basic

/-!
# Specification: a deformed edge of a material patch
-/

noncomputable section

namespace Hooke.Spec

/-- The length of the chord of the graph of `P` over the `j`-th of `m` equal parts of `[0, L]`. -/
def chord (P : Polynomial ℝ) (L : ℝ) (m j : ℕ) : ℝ :=
  √((L * (j + 1) / m - L * j / m) ^ 2 + (P.eval (L * (j + 1) / m) - P.eval (L * j / m)) ^ 2)

/-- `x` is the abscissa at which the polygon through the points of the graph of `P` at the ends of `m`
equal parts of `[0, L]` has covered the fraction `f` of its length. -/
def AtFraction (P : Polynomial ℝ) (L : ℝ) (m : ℕ) (f x : ℝ) : Prop :=
  ∃ j < m, L * j / m ≤ x ∧ x ≤ L * (j + 1) / m ∧
    (∑ i ∈ Finset.range j, chord P L m i) + (x - L * j / m) / (L / m) * chord P L m j =
      f * ∑ i ∈ Finset.range m, chord P L m i

/-- A deformed edge with `n` nodes from `a` to `b`, with polynomial order `order` and orthogonal
displacements between `lo` and `hi` at the control points; `v` points from the edge into the patch.
In the frame of unit vectors `e` along the edge and `ν` orthogonal to it, away from the patch, the
nodes are on the graph of a polynomial that vanishes at both ends, and divide the polygon of its points
at 999 equal parts into pieces of equal length; `noise` is added to the interior nodes. -/
def IsDeformedEdge (a b v : ℝ × ℝ) (order : ℕ) (lo hi : ℝ) (n : ℕ) (noise : ℕ → ℝ × ℝ)
    (q : ℕ → ℝ × ℝ) : Prop :=
  ∃ (e ν : ℝ × ℝ) (L : ℝ) (P : Polynomial ℝ) (x : ℕ → ℝ),
    (e.1 ^ 2 + e.2 ^ 2 = 1 ∧ ν.1 ^ 2 + ν.2 ^ 2 = 1 ∧ e.1 * ν.1 + e.2 * ν.2 = 0) ∧
    (0 < L ∧ b = a + L • e ∧ ν.1 * v.1 + ν.2 * v.2 < 0) ∧
    (P.natDegree ≤ max 1 order ∧ P.eval 0 = 0 ∧ P.eval L = 0 ∧
      ∀ m, 1 ≤ m → m < order → P.eval (L * m / order) ∈ Set.Icc lo hi) ∧
    (x 0 = 0 ∧ x (n - 1) = L ∧ (∀ k, k + 1 < n → x k < x (k + 1)) ∧
      ∀ k < n, AtFraction P L 999 ((k : ℝ) / ((n : ℝ) - 1)) (x k)) ∧
    q 0 = a ∧ q (n - 1) = b ∧
    ∀ k, 0 < k → k < n - 1 →
      q k = a + (x k + (noise k).1) • e + (P.eval (x k) + (noise k).2) • ν

end Hooke.Spec
