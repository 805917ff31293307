import Verif.Model.PyUtil
import Mathlib.Logic.Function.Basic

/-!
# Model of `simulators/fetorch/structure/structure_state.py`

Python dictionaries and element states have identity: assigning without copying shares the
object.  The model therefore has a heap of state objects (`obj`, the deep value of each) and
a heap of the outer dictionaries (`dict`, element label to reference).
-/

namespace Hooke

/-- The two attributes `_elements_state` and `_elements_state_old` (references to
dictionaries) and the objects they reach, structure_state.py:134-136. -/
structure StateStore (σ : Type) where
  obj : ℕ → Option σ
  next : ℕ
  dict : ℕ → ℕ → Option ℕ
  nextDict : ℕ
  cur : ℕ
  old : ℕ

namespace StateStore

variable {σ : Type}

/-- Constructor: two distinct empty dictionaries, structure_state.py:134-136. -/
def new : StateStore σ := ⟨fun _ => none, 0, fun _ _ => none, 2, 0, 1⟩

/-- A new object with value `v`. -/
def alloc (s : StateStore σ) (v : σ) : StateStore σ × ℕ :=
  ({ s with obj := Function.update s.obj s.next (some v), next := s.next + 1 }, s.next)

/-- `copy.deepcopy` of one state object. -/
def deepcopy (s : StateStore σ) (r : ℕ) : StateStore σ × ℕ :=
  ({ s with obj := Function.update s.obj s.next (s.obj r), next := s.next + 1 }, s.next)

/-- Item assignment in a dictionary. -/
def setItem (s : StateStore σ) (d k r : ℕ) : StateStore σ :=
  { s with dict := Function.update s.dict d (Function.update (s.dict d) k (some r)) }

/-- `copy.deepcopy` of an outer dictionary: every reachable object is copied once (the memo
of `deepcopy` keeps sharing), structure_state.py:530. -/
def deepcopyDict (s : StateStore σ) (d : ℕ) : StateStore σ × ℕ :=
  ({ s with
      obj := fun i => if i < s.next then s.obj i else s.obj (i - s.next)
      next := 2 * s.next
      dict := Function.update s.dict s.nextDict fun k => (s.dict d k).map (· + s.next)
      nextDict := s.nextDict + 1 }, s.nextDict)

/-- The dictionary of a time option, structure_state.py:475-480, 508-513. -/
def dictOf (s : StateStore σ) (time : String) : Py ℕ :=
  if time = "last" then .ok s.old
  else if time = "current" then .ok s.cur
  else .error .runtimeError

/-- Optional copy of the first statement of `update_element_state` (471-473) and the last of
`get_element_state` (515-516). -/
def copyIf (s : StateStore σ) (isCopy : Bool) (r : ℕ) : StateStore σ × ℕ :=
  if isCopy then s.deepcopy r else (s, r)

/-- `update_element_state`, structure_state.py:449-480. -/
def updateElementState (s : StateStore σ) (k r : ℕ) (time : String) (isCopy : Bool) :
    Py (StateStore σ) := do
  let (s, r) := s.copyIf isCopy r
  let d ← s.dictOf time
  return s.setItem d k r

/-- `get_element_state`, structure_state.py:482-517. -/
def getElementState (s : StateStore σ) (k : ℕ) (time : String) (isCopy : Bool) :
    Py (StateStore σ × ℕ) := do
  let d ← s.dictOf time
  let r ← orRaise (s.dict d k) .keyError
  return s.copyIf isCopy r

/-- `update_converged_elements_state`, structure_state.py:519-532. -/
def updateConverged (s : StateStore σ) (isCopy : Bool) : StateStore σ :=
  if isCopy then
    let (s, d) := s.deepcopyDict s.cur
    { s with old := d }
  else { s with old := s.cur }

end StateStore

/-- Outcome of the model-name dispatch of `init_elements_model`, structure_state.py:172-343:
whether the created object is a `torch.nn.Module` and whether it is recurrent.  The
conventional models derive from `ConstitutiveModel(ABC)`, which is not a `torch.nn.Module`
(material/models/interface.py:27).  The constructors of the recurrent models are not modelled
(taken to succeed, with all keyword arguments given).  For a GRU model, line 301 then calls
`constitutive_model.set_fitted_data_scalers`, which is a function of `model_data_scaling.py` and
no method of `GRURNNModel` (gru_model.py:30-425): AttributeError. -/
def dispatchModel (name : String) : Py (Bool × Bool) :=
  if name = "elastic" ∨ name = "von_mises" ∨ name = "von_mises_mixed" ∨ name = "drucker_prager"
  then .ok (false, false)
  else if "rc_".toList.isPrefixOf name.toList then .ok (true, true)
  else if name = "gru_material_model" then .error .attributeError
  else if name = "hybrid_material_model" then .ok (true, true)
  else .error .runtimeError

/-- What `init_elements_model` assigns: number of models, model label of each element,
recurrency flag and the two state dictionaries (`none`: no entry, `some none`: `None`). -/
structure ModelTable (σ : Type) where
  nModel : ℕ
  material : ℕ → Option ℕ
  isRecurrent : ℕ → Option Bool
  state : ℕ → Option (Option σ)
  stateOld : ℕ → Option (Option σ)

/-- Constructor, structure_state.py:125-136: labels `1..n_elem` without model. -/
def ModelTable.new (σ : Type) : ModelTable σ :=
  ⟨0, fun _ => none, fun _ => none, fun _ => none, fun _ => none⟩

/-- Body of the element loop, structure_state.py:364-392.  `init` is the initial state of
one element (a copy of `state_init()` per Gauss point). -/
def ModelTable.assign {σ : Type} (t : ModelTable σ) (modelId : ℕ) (isRecurrent : Bool) (init : σ)
    (k : ℕ) : ModelTable σ :=
  let t := { t with material := Function.update t.material k (some modelId) }
  if isRecurrent then
    { t with
      isRecurrent := Function.update t.isRecurrent k (some true)
      state := Function.update t.state k (some none)
      stateOld := Function.update t.stateOld k (some none) }
  else
    { t with
      state := Function.update t.state k (some (some init))
      stateOld := Function.update t.stateOld k (some (some init))
      isRecurrent := Function.update t.isRecurrent k (some false) }

/-- `init_elements_model`, structure_state.py:142-392; `self._material_models` is always a
`torch.nn.ModuleDict` (line 128). -/
def initElementsModel {σ : Type} (t : ModelTable σ) (name : String) (init : σ)
    (elementIds : List ℕ) : Py (ModelTable σ) := do
  let (isModule, isRecurrent) ← dispatchModel name
  raiseIf (isModule = false) .runtimeError
  let t := { t with nModel := t.nModel + 1 }
  return elementIds.foldl (fun t k => t.assign t.nModel isRecurrent init k) t

end Hooke
