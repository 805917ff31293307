import Verif.Model.Gradients
import Verif.Model.PyUtil

/-!
# Model of `simulators/fetorch/element/integrations/internal_forces.py` and
`simulators/fetorch/material/material_su.py`
-/

noncomputable section

namespace Hooke

/-- `strain_formulation`: `'infinitesimal'`, `'finite'`, or any other string. -/
inductive StrainFormulation
  | infinitesimal
  | finite
  | other
  deriving DecidableEq

/-- A constitutive model seen through its interface: `state_update(inc_strain,
state_variables_old)` returns the new state dictionary and, because a dictionary is
passed by reference, also determines what is left in the passed dictionary.  `σ` is the
type of state dictionaries; `stressMf` is the entry `'stress_mf'`. -/
structure Material (σ : Type) where
  stateUpdate : Tensor → σ → Py (σ × σ)
  stressMf : σ → Tensor
  isFiniteKinext : Bool

/-- `material_state_update`, material_su.py:22-69 (the consistent tangent is not modelled
here: the caller drops it).  Second component: the passed dictionary after the call. -/
def materialStateUpdate {σ : Type} (sf : StrainFormulation) (problemType : ℕ) (mat : Material σ)
    (inc : Tensor) (old : σ) : Py (σ × σ) := do
  let _ ← getProblemTypeParameters problemType
  if sf = .finite ∧ mat.isFiniteKinext then throw .runtimeError
  else mat.stateUpdate inc old

/-- Python dictionary with the Gauss point labels `str(1), str(2), ...` as keys. -/
abbrev GpDict (α : Type) := ℕ → Option α

/-- Variables of the Gauss point loop of `compute_element_internal_forces`:
`internal_forces`, `element_state` and the caller's `element_state_old`. -/
structure IFState (σ : Type) where
  forces : Tensor
  state : GpDict (Option σ)
  old : GpDict σ

/-- `a += b` for vectors of the same length. -/
def Tensor.addVec (a b : Tensor) : Py Tensor :=
  if a.shape ≠ b.shape then .error .runtimeError
  else .ok ⟨a.shape, fun idx => a.val idx + b.val idx⟩

/-- Incremental strain tensor of one Gauss point, internal_forces.py:108-117. -/
def incStrain (sf : StrainFormulation) (n : ℕ) (co : List Comp) (g uinc : Tensor) : Py Tensor :=
  if sf = .infinitesimal then
    computeInfinitesimalStrain g uinc >>= fun v => vgetStrainFromVmf v n co
  else .error .runtimeError

/-- Body of the Gauss point loop, internal_forces.py:95-144, for index `i`.  The material
works on a deep copy of the old state of the point (line 121): what it leaves in that copy
is dropped. -/
def gaussStep {σ : Type} (sf : StrainFormulation) (problemType n : ℕ) (co : List Comp)
    (e : ElementType) (rule : GaussRule e.dim) (mat : Material σ)
    (X : Fin e.nNode → Fin e.dim → ℝ) (uinc : Tensor) (acc : IFState σ) (i : ℕ) :
    Py (IFState σ) := do
  let (c, w) ← orRaise rule[i]? .keyError
  let (d, _, det) ← e.evalShapefunDeriv X c
  let g ← vbuildDiscreteSymGradient d co
  let inc ← incStrain sf n co g uinc
  let copy ← orRaise (acc.old (i + 1)) .keyError
  let (new, _) ← materialStateUpdate sf problemType mat inc copy
  let stress ← vgetTensorFromMf (mat.stressMf new) n co
  let stressVmf ← vgetStressVmf stress n co
  let b ← g.transpose.matVec stressVmf
  let forces ← acc.forces.addVec ⟨b.shape, fun idx => w * b.val idx * det⟩
  return { forces := forces
           state := Function.update acc.state (i + 1) (some (some new))
           old := acc.old }

/-- `compute_element_internal_forces`, internal_forces.py:36-146.  `rule` and `nGauss` are
the element's Gauss points and their number; the result also carries the caller's
`element_state_old` after the call.  Total displacements (`nodes_disps`) are unused by the
code. -/
def computeElementInternalForces {σ : Type} (sf : StrainFormulation) (problemType : ℕ)
    (e : ElementType) (nGauss : ℕ) (rule : GaussRule e.dim) (mat : Material σ)
    (old : GpDict σ) (X : Fin e.nNode → Fin e.dim → ℝ) (uinc : Tensor) :
    Py (IFState σ) := do
  let (n, co, _) ← getProblemTypeParameters problemType
  (List.range nGauss).foldlM (gaussStep sf problemType n co e rule mat X uinc)
    { forces := Tensor.zeros [e.nNode * e.dim]
      state := fun k => (old k).map fun _ => none
      old := old }

end Hooke
