import Verif.Model.DruckerPrager
import Verif.Spec.Units
import Verif.Spec.Continuum

/-!
# Specification: a Drucker-Prager material in another unit of stress
-/

noncomputable section

namespace Hooke.Spec

/-- A Drucker-Prager material with the stresses in another unit: Young's modulus is a stress, the other
parameters are numbers.  The cohesion law is changed by `unitLaw`. -/
def unitDP (k : ℝ) (m : DPParams) : DPParams := { m with E := k * m.E }

/-- A state of the Drucker-Prager model with the stresses in another unit. -/
def unitDPState (p : PType) (k : ℝ) (s : DPState p) : DPState p :=
  { unitVM p k s.toVMState with isApex := s.isApex }

/-- State variables of the Drucker-Prager model in another unit, with the failure marks unchanged. -/
def unitDPVars (p : PType) (k : ℝ) : DPVars p → DPVars p
  | .good s => .good (unitDPState p k s)
  | .nan strain => .nan strain

/-- The number `1e-8` of the code does not separate the trial deviators of the two units: the deviator of the
trial stress of the elastic strain `e` is zero, or its norm is well above the number in both units. -/
def DeviatorClear (k : ℝ) (m : DPParams) (e : V6) : Prop :=
  let n := √(∑ i, dev6 (hooke6 (lamOf m.E m.v) (miuOf m.E m.v) e) i ^ 2)
  n = 0 ∨ WellAbove k n

end Hooke.Spec
