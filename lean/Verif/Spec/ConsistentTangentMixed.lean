import Verif.Spec.ConsistentTangent
import Verif.Spec.PlasticityMixed
import Verif.Spec.DruckerPrager
import Verif.Model.VonMisesMixedVMAP

/-! # Specification: consistent tangent with mixed hardening and of the Drucker-Prager model -/

noncomputable section

namespace Hooke.Spec

/-- Stress stored by a state update of the mixed hardening model, as a function of the strain
increment (zero after a failure). -/
def updatedStressMixed (p : PType) (E v : ℝ) (law kin : HardLaw) (old : MixState p)
    (inc : T2 p.dim) : Vmf p :=
  match (mixUpdate p E v law kin inc old).1 with
  | .good s => s.stress
  | .nan _ => 0

/-- The same for the batched mixed hardening model. -/
def updatedStressMixedVmap (p : PType) (E v : ℝ) (law kin : HardLaw) (old : MixState p)
    (inc : T2 p.dim) : Vmf p :=
  match (mixVmapUpdate p E v law kin inc old).1 with
  | .good s => s.stress
  | .nan _ => 0

/-- The relative trial stress is strictly below the yield tolerance. -/
def MixStrictlyElastic {p : PType} (E v : ℝ) (law : HardLaw) (old : MixState p)
    (inc : T2 p.dim) : Prop :=
  (law old.acc).1 ≠ 0 ∧ (relativeTrial E v old inc - (law old.acc).1) / (law old.acc).1 < 1e-6

/-- Stress stored by a state update of the Drucker-Prager model, as a function of the strain
increment (zero after a failure). -/
def updatedStressDP (p : PType) (m : DPParams) (law : HardLaw) (old : DPState p)
    (inc : T2 p.dim) : Vmf p :=
  match (dpUpdate p m law inc old).1 with
  | .good s => s.stress
  | .nan _ => 0

/-- The trial state is strictly below the yield tolerance. -/
def DPStrictlyElastic {p : PType} (m : DPParams) (law : HardLaw) (old : DPState p)
    (inc : T2 p.dim) : Prop :=
  dpYield m (hooke6 (lame m.E m.v) (shear m.E m.v) (trial3D old.toVMState inc)) (law old.acc).1 <
    cohesionTol (law old.acc).1

/-- `√J2` left by the return to the cone with linear cohesion hardening `c0 + a acc`; the return
is to the cone if it is not negative and to the apex otherwise. -/
def coneRest {p : PType} (m : DPParams) (c0 a : ℝ) (old : DPState p) (inc : T2 p.dim) : ℝ :=
  sqrtJ2 (hooke6 (lame m.E m.v) (shear m.E m.v) (trial3D old.toVMState inc)) -
    shear m.E m.v *
      (dpYield m (hooke6 (lame m.E m.v) (shear m.E m.v) (trial3D old.toVMState inc))
        (c0 + a * old.acc) / (shear m.E m.v + bulk m.E m.v * m.etaf * m.etay + m.xi ^ 2 * a))

end Hooke.Spec
