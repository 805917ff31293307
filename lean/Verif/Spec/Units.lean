import Verif.Model.InternalForces
import Verif.Model.ForceEquilibrium
import Verif.Spec.FrameForces

/-!
# Specification: the same data in other units
-/

noncomputable section

namespace Hooke.Spec

/-- A hardening law whose stresses are given in another unit: yield stress and slope times `k`. -/
def unitLaw (k : ℝ) (law : HardLaw) : HardLaw := fun x => (k * (law x).1, k * (law x).2)

/-- A state of the von Mises model with the stresses in another unit. -/
def unitVM (p : PType) (k : ℝ) (s : VMState p) : VMState p :=
  { s with stress := fun i => k * s.stress i, s33 := k * s.s33 }

/-- State variables with the stresses in another unit, with the failure marks unchanged. -/
def unitVMVars (p : PType) (k : ℝ) : VMVars p → VMVars p
  | .good s => .good (unitVM p k s)
  | .nan strain => .nan strain

/-- A state of the model with mixed hardening: the back stress is a stress as well. -/
def unitMix (p : PType) (k : ℝ) (s : MixState p) : MixState p :=
  { unitVM p k s.toVMState with back := fun i => k * s.back i, b33 := k * s.b33 }

/-- State variables of the model with mixed hardening with the stresses in another unit. -/
def unitMixVars (p : PType) (k : ℝ) : MixVars p → MixVars p
  | .good s => .good (unitMix p k s)
  | .nan strain => .nan strain

/-- An elastic state with the stresses in another unit. -/
def unitElastic (p : PType) (k : ℝ) (s : ElasticState p) : ElasticState p :=
  { s with stress := fun i => k * s.stress i, s33 := k * s.s33 }

/-- The number `1e-8` of the code does not separate the yield stresses of the two units: both are at least
twice as large. -/
def WellAbove (k sy : ℝ) : Prop := 2e-8 ≤ sy ∧ 2e-8 ≤ k * sy

/-- Two descriptions of one material whose stresses differ by the factor `k`: `before s s'` and `after s s'`
say that `s'` describes the state `s`, before and after a step. -/
structure SameMaterial {σ σ' : Type} (mat : Material σ) (mat' : Material σ') (n : ℕ) (co : List Comp) (k : ℝ)
    (before after : σ → σ' → Prop) : Prop where
  update : ∀ inc inc' s s' new rest, tens2 n inc' = tens2 n inc → before s s' →
    mat.stateUpdate inc s = .ok (new, rest) →
    ∃ new' rest', mat'.stateUpdate inc' s' = .ok (new', rest') ∧ after new new'
  stress : ∀ s s' t t', after s s' → getTensorFromMf (mat.stressMf s) n co true = .ok t →
    getTensorFromMf (mat'.stressMf s') n co true = .ok t' → ∀ i j, tens2 n t' i j = k * tens2 n t i j
  shape : ∀ s s', after s s' → (mat'.stressMf s').shape = (mat.stressMf s).shape

end Hooke.Spec
