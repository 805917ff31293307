import Verif.Model.Quadrature
import Mathlib.Analysis.SpecialFunctions.Integrals.Basic
import Mathlib.Algebra.MvPolynomial.Degrees

/-!
# Specification of exact quadrature over the reference domains
-/

noncomputable section

namespace Hooke.Spec

/-- Quadrature sum of a function. -/
def quad {d : ℕ} (r : GaussRule d) (f : (Fin d → ℝ) → ℝ) : ℝ :=
  (r.map fun p => p.2 * f p.1).sum

/-- Integral over `[-1, 1]`. -/
def intLine (f : (Fin 1 → ℝ) → ℝ) : ℝ := ∫ x in (-1 : ℝ)..1, f ![x]
/-- Integral over the square `[-1, 1]²`. -/
def intSquare (f : (Fin 2 → ℝ) → ℝ) : ℝ := ∫ x in (-1 : ℝ)..1, ∫ y in (-1 : ℝ)..1, f ![x, y]
/-- Integral over the cube `[-1, 1]³`. -/
def intCube (f : (Fin 3 → ℝ) → ℝ) : ℝ :=
  ∫ x in (-1 : ℝ)..1, ∫ y in (-1 : ℝ)..1, ∫ z in (-1 : ℝ)..1, f ![x, y, z]
/-- Integral over the unit triangle. -/
def intTriangle (f : (Fin 2 → ℝ) → ℝ) : ℝ :=
  ∫ x in (0 : ℝ)..1, ∫ y in (0 : ℝ)..(1 - x), f ![x, y]
/-- Integral over the unit tetrahedron. -/
def intTetra (f : (Fin 3 → ℝ) → ℝ) : ℝ :=
  ∫ x in (0 : ℝ)..1, ∫ y in (0 : ℝ)..(1 - x), ∫ z in (0 : ℝ)..(1 - x - y), f ![x, y, z]

/-- Integral over the reference domain. -/
def refIntegral : (D : Domain) → ((Fin D.dim → ℝ) → ℝ) → ℝ
  | .linear => intLine
  | .quadrilateral => intSquare
  | .hexahedral => intCube
  | .triangular => intTriangle
  | .tetrahedral => intTetra
  | .other => fun _ => 0

/-- Membership in the reference domain. -/
def inDomain : (D : Domain) → (Fin D.dim → ℝ) → Prop
  | .linear, x | .quadrilateral, x | .hexahedral, x => ∀ i, -1 ≤ x i ∧ x i ≤ 1
  | .triangular, x | .tetrahedral, x => (∀ i, 0 ≤ x i) ∧ ∑ i, x i ≤ 1
  | .other, _ => False

/-- Measure of the reference domain. -/
def refVolume : Domain → ℝ
  | .linear => 2 | .quadrilateral => 4 | .hexahedral => 8
  | .triangular => 1 / 2 | .tetrahedral => 1 / 6 | .other => 0

/-- The polynomials a rule with `n` points must integrate exactly: degree `2m - 1`
in each variable for a tensor rule with `m` points per direction, total degree 1
or 2 for the one-point and three/four-point simplex rules. -/
def exactFor (n : ℕ) : (D : Domain) → MvPolynomial (Fin D.dim) ℝ → Prop
  | .linear, p => ∀ i, p.degreeOf i + 1 ≤ 2 * n
  | .quadrilateral, p => ∃ m, m ^ 2 = n ∧ ∀ i, p.degreeOf i + 1 ≤ 2 * m
  | .hexahedral, p => ∃ m, m ^ 3 = n ∧ ∀ i, p.degreeOf i + 1 ≤ 2 * m
  | .triangular, p => p.totalDegree ≤ if n = 1 then 1 else 2
  | .tetrahedral, p => p.totalDegree ≤ if n = 1 then 1 else 2
  | .other, _ => False

end Hooke.Spec
