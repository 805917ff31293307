import Verif.Spec.Plasticity
import Verif.Spec.Hardening

/-!
# Specification vocabulary of saturating hardening
-/

noncomputable section

namespace Hooke.Spec

/-- The hardening slope never increases with the plastic strain (the yield stress is a concave
function), it is never negative and at most `H`: the yield stress lies below each of its tangents.
Without plastic strain the reported slope may be wrong (zero). -/
structure Saturating (law : HardLaw) (H : ℝ) : Prop where
  /-- a negative plastic strain counts as none -/
  below : ∀ x, x ≤ 0 → law x = law 0
  tangent : ∀ x y, 0 < x → 0 ≤ y → (law y).1 ≤ (law x).1 + (law x).2 * (y - x)
  slope : ∀ x, 0 < x → 0 ≤ (law x).2 ∧ (law x).2 ≤ H
  growth : ∀ y, 0 ≤ y → (law y).1 ≤ (law 0).1 + H * y
  start : (law 0).2 = 0 ∨ (law 0).2 = H

/-- Slope of the segment of a table which starts at row `i`. -/
def segmentSlope (pts : List (ℝ × ℝ)) (i : ℕ) : ℝ :=
  ((pts.getD (i + 1) 0).2 - (pts.getD i 0).2) / ((pts.getD (i + 1) 0).1 - (pts.getD i 0).1)

/-- A hardening table: abscissae increasing from zero, ordinates which do not decrease, slopes which do
not increase. -/
structure ConcaveTable (pts : List (ℝ × ℝ)) : Prop where
  table : IsTable pts
  zero : (pts.getD 0 0).1 = 0
  mono : MonotoneTable pts
  concave : ∀ i : ℕ, i + 2 < pts.length → segmentSlope pts (i + 1) ≤ segmentSlope pts i

/-- von Mises stress which a strain increment would cause elastically. -/
def elasticStep (p : PType) (E v : ℝ) (inc : T2 p.dim) : ℝ :=
  vm6 (hooke6 (lame E v) (shear E v) (increment3D p inc))

end Hooke.Spec
