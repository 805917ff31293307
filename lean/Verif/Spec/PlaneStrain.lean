import Verif.Spec.Objectivity
import Verif.Model.LouVMAP
import Verif.Model.VonMisesMixedVMAP

/-!
# Specification: plane strain states as states in space
-/

noncomputable section

namespace Hooke.Spec

/-- The tensor in space with in-plane part `S` and out-of-plane component `c`; the out-of-plane shear
components are zero. -/
def spatial (S : T2 2) (c : ℝ) : T2 3 := ![![S 0 0, S 0 1, 0], ![S 1 0, S 1 1, 0], ![0, 0, c]]

/-- The state `s` of plane strain, as a state `t` in space: the out-of-plane elastic strain and stress are
stored apart in plane strain, and the total strain has no out-of-plane component. -/
structure SpatialVM (s : VMState .plane) (t : VMState .solid) : Prop where
  stress : unmf .solid t.stress = spatial (unmf .plane s.stress) s.s33
  elastic : unmf .solid t.eStrain = spatial (unmf .plane s.eStrain) s.e33
  strain : unmf .solid t.strain = spatial (unmf .plane s.strain) 0
  acc : t.acc = s.acc
  isPlast : t.isPlast = s.isPlast
  isSuFail : t.isSuFail = s.isSuFail

/-- The strain stored by a failed update. -/
def SpatialStrain (x : Option (Vmf .plane)) (y : Option (Vmf .solid)) : Prop :=
  Option.Rel (fun x y => unmf .solid y = spatial (unmf .plane x) 0) x y

/-- State variables in plane strain and in space: both failed, or both did not. -/
def SpatialVMVars : VMVars .plane → VMVars .solid → Prop
  | .good s, .good t => SpatialVM s t
  | .nan x, .nan y => SpatialStrain x y
  | _, _ => False

/-- The same with mixed hardening, where the back stress has an out-of-plane component as well. -/
structure SpatialMix (s : MixState .plane) (t : MixState .solid) : Prop where
  vm : SpatialVM s.toVMState t.toVMState
  back : unmf .solid t.back = spatial (unmf .plane s.back) s.b33

/-- State variables with mixed hardening in plane strain and in space. -/
def SpatialMixVars : MixVars .plane → MixVars .solid → Prop
  | .good s, .good t => SpatialMix s t
  | .nan x, .nan y => SpatialStrain x y
  | _, _ => False

/-- The same for the Drucker-Prager model: the returns to the apex are the same. -/
structure SpatialDP (s : DPState .plane) (t : DPState .solid) : Prop where
  vm : SpatialVM s.toVMState t.toVMState
  isApex : t.isApex = s.isApex

/-- State variables of the Drucker-Prager model in plane strain and in space. -/
def SpatialDPVars : DPVars .plane → DPVars .solid → Prop
  | .good s, .good t => SpatialDP s t
  | .nan x, .nan y => SpatialStrain x y
  | _, _ => False

/-- The elastic states in plane strain and in space.  An anisotropic material may have out-of-plane shear
stresses, which plane strain does not store: the in-plane and the normal out-of-plane stresses agree. -/
structure SpatialElastic (s : ElasticState .plane) (t : ElasticState .solid) : Prop where
  inPlane : ∀ i j : Fin 2, unmf .solid t.stress i.castSucc j.castSucc = unmf .plane s.stress i j
  normal : unmf .solid t.stress 2 2 = s.s33
  elastic : unmf .solid t.eStrain = spatial (unmf .plane s.eStrain) 0
  normalStrain : s.e33 = 0
  strain : unmf .solid t.strain = spatial (unmf .plane s.strain) 0

/-- The tangent of plane strain gives the in-plane stresses of in-plane strain increments. -/
def SpatialTangent (T : Fin 3 → Fin 3 → ℝ) (T' : Fin 6 → Fin 6 → ℝ) : Prop :=
  ∀ (S : T2 2) (i j : Fin 2), unmf .solid (fun a => ∑ b, T' a b * mf .solid (spatial S 0) b) i.castSucc j.castSucc =
    unmf .plane (fun a => ∑ b, T a b * mf .plane S b) i j

/-- Results of two computations: both raise the same exception, or both succeed with related results. -/
def SpatialResult {α β : Type} (r : α → β → Prop) : Py α → Py β → Prop
  | .ok a, .ok b => r a b
  | .error e, .error e' => e = e'
  | _, _ => False

end Hooke.Spec
