import Verif.Spec.Plasticity

/-!
# Specification of proportional loading
-/

noncomputable section

namespace Hooke.Spec

/-- Stress of a linear elastic material under the unit strain of a proportional loading. -/
def unitStress {p : PType} (E v : ℝ) (D : T2 p.dim) : V6 :=
  hooke6 (lame E v) (shear E v) (increment3D p D)

/-- Direction of plastic flow of a proportional loading: three halves of the deviatoric stress over the
equivalent stress. -/
def flowDirection {p : PType} (E v : ℝ) (D : T2 p.dim) : V6 :=
  fun k => 3 / 2 * dev6 (unitStress E v D) k / vm6 (unitStress E v D)

/-- A proportional loading: multiples of one strain. -/
def proportional {p : PType} (D : T2 p.dim) (cs : List ℝ) : List (T2 p.dim) := cs.map fun c => c • D

end Hooke.Spec
