import Verif.Spec.Plasticity
import Verif.Spec.DruckerPrager
import Verif.Spec.PlasticityMixed

/-!
# Specification of work, stored energy and dissipation
-/

noncomputable section

namespace Hooke.Spec

/-- Double contraction of two symmetric tensors in Kelvin form. -/
def inner6 (a b : V6) : ℝ := ∑ k, a k * b k

/-- Work of the stress at the end of a step on the plastic strain increment of the step. -/
def plasticWork {p : PType} (old new : VMState p) : ℝ :=
  inner6 (stress3D new) fun k => plastic3D new k - plastic3D old k

/-- Work of the stress relative to the back stress, at the end of a step, on the plastic strain increment of
the step: the plastic work less the part which is stored by kinematic hardening. -/
def relativePlasticWork {p : PType} (old new : MixState p) : ℝ :=
  inner6 (fun k => stress3D new.toVMState k - back3D new k) fun k =>
    plastic3D new.toVMState k - plastic3D old.toVMState k

/-- Elastic energy. -/
def storedEnergy {p : PType} (s : VMState p) : ℝ := 1 / 2 * inner6 (stress3D s) (elastic3D s)

/-- Work done on the material along a history: the stress at the end of each step on the strain increment
of the step. -/
def work {p : PType} {σ : Type} (stress : σ → V6) (step : σ → T2 p.dim → σ) : σ → List (T2 p.dim) → ℝ
  | _, [] => 0
  | s, inc :: incs =>
    inner6 (stress (step s inc)) (increment3D p inc) + work stress step (step s inc) incs

/-- Stress of the von Mises model; none after a failure. -/
def vmStress {p : PType} : VMVars p → V6
  | .good s => stress3D s
  | .nan _ => 0

/-- Stress of the Drucker-Prager model; none after a failure. -/
def dpStress {p : PType} : DPVars p → V6
  | .good s => stress3D s.toVMState
  | .nan _ => 0

end Hooke.Spec
