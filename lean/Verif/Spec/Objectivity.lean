import Verif.Model.VonMisesMixed
import Verif.Model.DruckerPrager
import Verif.Spec.Continuum
import Verif.Spec.Elastic

/-!
# Specification of rotated responses
-/

noncomputable section

namespace Hooke.Spec

/-- A rotation or reflection of the axes: `Q Qᵀ = 1`. -/
def IsOrthogonal {n : ℕ} (Q : T2 n) : Prop := ∀ i j, ∑ k, Q i k * Q j k = if i = j then 1 else 0

/-- The rotated tensor `Q S Qᵀ`. -/
def rotate {n : ℕ} (Q S : T2 n) : T2 n := fun i j => ∑ k, ∑ l, Q i k * S k l * Q j l

/-- The tensor stored in a matricial form. -/
def unmf : (p : PType) → Vmf p → T2 p.dim
  | .plane, x => ![![x 0, x 2 / √2], ![x 2 / √2, x 1]]
  | .solid, x => unkel6 x

/-- The matricial form of the rotated tensor. -/
def rotMf (p : PType) (Q : T2 p.dim) (x : Vmf p) : Vmf p := mf p (rotate Q (unmf p x))

/-- A state with rotated strains and stresses; the out-of-plane components of plane strain and all scalars
stay the same. -/
def rotVM (p : PType) (Q : T2 p.dim) (s : VMState p) : VMState p :=
  { s with eStrain := rotMf p Q s.eStrain, strain := rotMf p Q s.strain, stress := rotMf p Q s.stress }

/-- Rotated state variables, with the failure marks unchanged. -/
def rotVMVars (p : PType) (Q : T2 p.dim) : VMVars p → VMVars p
  | .good s => .good (rotVM p Q s)
  | .nan strain => .nan (strain.map (rotMf p Q))

/-- A rotated state of the model with mixed hardening: the back stress is rotated as well. -/
def rotMix (p : PType) (Q : T2 p.dim) (s : MixState p) : MixState p :=
  { rotVM p Q s.toVMState with back := rotMf p Q s.back, b33 := s.b33 }

/-- Rotated state variables of the model with mixed hardening. -/
def rotMixVars (p : PType) (Q : T2 p.dim) : MixVars p → MixVars p
  | .good s => .good (rotMix p Q s)
  | .nan strain => .nan (strain.map (rotMf p Q))

/-- A rotated state of the Drucker-Prager model. -/
def rotDP (p : PType) (Q : T2 p.dim) (s : DPState p) : DPState p :=
  { rotVM p Q s.toVMState with isApex := s.isApex }

/-- Rotated state variables of the Drucker-Prager model. -/
def rotDPVars (p : PType) (Q : T2 p.dim) : DPVars p → DPVars p
  | .good s => .good (rotDP p Q s)
  | .nan strain => .nan (strain.map (rotMf p Q))

/-- A rotated elastic state. -/
def rotElastic (p : PType) (Q : T2 p.dim) (s : ElasticState p) : ElasticState p :=
  { s with eStrain := rotMf p Q s.eStrain, strain := rotMf p Q s.strain, stress := rotMf p Q s.stress }

/-- A tangent matrix and its rotated form: applied to a rotated strain, the second gives the rotated
result of the first. -/
def RotTangent (p : PType) (Q : T2 p.dim) (T T' : Fin p.len → Fin p.len → ℝ) : Prop :=
  ∀ x : Vmf p, (fun i => ∑ j, T' i j * rotMf p Q x j) = rotMf p Q fun i => ∑ j, T i j * x j

end Hooke.Spec
