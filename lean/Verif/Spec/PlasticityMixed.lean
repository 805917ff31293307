import Verif.Spec.Plasticity
import Verif.Model.VonMisesMixed

/-! # Specification: mixed hardening -/

noncomputable section

namespace Hooke.Spec

/-- The back stress stored in a state, as a 3D Kelvin vector. -/
def back3D {p : PType} (s : MixState p) : V6 := to3D p s.back s.b33

/-- Equivalent relative stress: von Mises equivalent of stress minus back stress. -/
def relativeStress {p : PType} (s : MixState p) : ℝ :=
  vm6 (fun k => stress3D s.toVMState k - back3D s k)

/-- Equivalent relative stress of the elastic trial state. -/
def relativeTrial {p : PType} (E v : ℝ) (s : MixState p) (inc : T2 p.dim) : ℝ :=
  vm6 (fun k => hooke6 (lame E v) (shear E v) (trial3D s.toVMState inc) k - back3D s k)

/-- The trial state is within the yield tolerance. -/
def MixTrialElastic {p : PType} (E v : ℝ) (law : HardLaw) (old : MixState p) (inc : T2 p.dim) :
    Prop :=
  (law old.acc).1 ≠ 0 ∧ (relativeTrial E v old inc - (law old.acc).1) / (law old.acc).1 ≤ 1e-6

/-- What holds after every history of the mixed hardening model. -/
structure MixInvariant {p : PType} (E v : ℝ) (total : T2 p.dim) (s : MixState p) : Prop where
  /-- the total strain is the sum of the increments -/
  strain : s.strain = mf p total
  /-- the stress is Hooke's law of the elastic strain -/
  stress : stress3D s.toVMState = hooke6 (lame E v) (shear E v) (elastic3D s.toVMState)
  /-- plastic flow has preserved volume -/
  volume : tr6 (plastic3D s.toVMState) = 0
  /-- the back stress is deviatoric -/
  back : tr6 (back3D s) = 0
  ok : s.isSuFail = false

end Hooke.Spec
