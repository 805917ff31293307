import Verif.Model.LearnableParameters
import Verif.Model.ModelInit

/-!
# Initialization file of a recurrent constitutive model and its dictionary of material parameters

Models the constructor, `init_model_from_file`, `save_model_init_file` and the synchronisation at the
start of `forward` of `model_architectures/rc_base_model/model/recurrent_model.py`.  Dictionaries of
material parameters are objects with an address, because the model, its constitutive model
(`simulators/fetorch/material/models/standard/elastic.py:106`, `.../vmap/von_mises.py:138-139`) and the
caller hold the same object: only pickling copies it.  The nested dictionaries of hardening parameters
belong to the object.  The constitutive model is taken to accept its parameters: nested dictionaries, which
make the conversion of all but the elastic model raise, are the subject of C42.
-/

namespace Hooke

noncomputable section

/-- Dictionaries by address, and the next free address. -/
structure DictHeap where
  dict : ℕ → MatParams
  next : ℕ

/-- `d[...] = ...` on the dictionary at an address. -/
def DictHeap.set (h : DictHeap) (a : ℕ) (d : MatParams) : DictHeap :=
  { h with dict := fun b => if b = a then d else h.dict b }

/-- The arguments of the constructor that are saved, except directory and material parameters
(recurrent_model.py:1658-1675). -/
structure RcSaved where
  nFeaturesIn : ℕ
  nFeaturesOut : ℕ
  learnable : List Learnable
  strainFormulation : String
  problemType : ℕ
  material : String
  name : ArgVal
  stateFeaturesOut : PyDict ℕ
  isNormalized : Bool
  inNormalized : Bool
  outNormalized : Bool
  device : String

/-- The arguments of the constructor (recurrent_model.py:184-191); `addr` is the object
`material_model_parameters`. -/
structure RcArgs where
  saved : RcSaved
  addr : ℕ
  directory : Option String
  autoSync : Bool
  checkFail : Bool

/-- A `RecurrentConstitutiveModel`. -/
structure RcObj (σ : Type) where
  saved : RcSaved
  addr : ℕ
  directory : Option String
  autoSync : Bool
  checkFail : Bool
  isSaveInit : Bool
  learn : LearnState
  scalers : Scalers2 σ

/-- `model_init_file.pkl` (recurrent_model.py:1655-1687); the directory in it is replaced when it is
read. -/
structure RcFile (σ : Type) where
  saved : RcSaved
  params : MatParams
  scalers : Scalers2 σ

/-- Dictionaries in memory, directories, and their initialization files. -/
structure RcWorld (σ : Type) where
  heap : DictHeap
  isDir : String → Bool
  file : String → Option (RcFile σ)

/-- The names of constitutive models (recurrent_model.py:305-352). -/
def rcMaterials : List String :=
  ["elastic", "von_mises", "von_mises_mixed", "drucker_prager", "lou_zhang_yoon", "von_mises_vmap",
   "von_mises_mixed_vmap", "drucker_prager_vmap", "lou_zhang_yoon_vmap"]

/-- `re.search(r'_vmap$', name)` (recurrent_model.py:357). -/
def isVmapName (name : String) : Bool := decide ("_vmap".toList <:+ name.toList)

/-- `save_model_init_file` (recurrent_model.py:1636-1687). -/
def RcObj.save {σ : Type} (m : RcObj σ) (w : RcWorld σ) : Py (RcWorld σ) := do
  let dir ← orRaise m.directory .typeError
  raiseIf (w.isDir dir = false) .runtimeError
  .ok { w with file := fun k => if k = dir then some ⟨m.saved, w.heap.dict m.addr, m.scalers⟩
                                else w.file k }

/-- The checks of the constructor before the constitutive model (recurrent_model.py:273-302, 350). -/
def rcChecks {σ : Type} (cuda : Bool) (a : RcArgs) (w : RcWorld σ) : Py LearnState := do
  let learn ← setModelParameters a.saved.isNormalized a.saved.learnable
  raiseIf (a.saved.problemType ∉ [1, 4]) .runtimeError
  raiseIf (∃ s, a.directory = some s ∧ w.isDir s = false) .runtimeError
  raiseIf (a.saved.name.isStrOrNone = false) .runtimeError
  raiseIf (a.saved.device ≠ "cpu" ∧ a.saved.device ≠ "cuda") .runtimeError
  raiseIf (a.saved.device = "cuda" ∧ cuda = false) .runtimeError
  raiseIf (a.saved.material ∉ rcMaterials) .runtimeError
  pure learn

/-- `RecurrentConstitutiveModel(...)` (recurrent_model.py:184-368). -/
def rcConstruct {σ : Type} (cuda : Bool) (a : RcArgs) (isSave : Bool) (w : RcWorld σ) :
    Py (RcObj σ × RcWorld σ) := do
  let learn ← rcChecks cuda a w
  let m : RcObj σ :=
    { saved := a.saved, addr := a.addr, directory := a.directory, autoSync := a.autoSync,
      checkFail := if isVmapName a.saved.material then false else a.checkFail,
      isSaveInit := isSave, learn := learn, scalers := ⟨none, none⟩ }
  if isSave then (m.save w).map fun w => (m, w) else .ok (m, w)

/-- `init_model_from_file(model_directory=dir)` (recurrent_model.py:371-442): the dictionary of the file
is a new object; the arguments that are not in the file have their default values. -/
def rcFromFile {σ : Type} (cuda : Bool) (dir : String) (w : RcWorld σ) :
    Py (RcObj σ × RcWorld σ) := do
  raiseIf (w.isDir dir = false) .runtimeError
  let f ← orRaise (w.file dir) .runtimeError
  let h : DictHeap := { (w.heap.set w.heap.next f.params) with next := w.heap.next + 1 }
  let r ← rcConstruct cuda ⟨f.saved, w.heap.next, some dir, true, true⟩ false { w with heap := h }
  pure ({ r.1 with scalers := f.scalers }, r.2)

/-- The material parameters with which `forward` computes (recurrent_model.py:960-963). -/
def RcObj.forward {σ : Type} (m : RcObj σ) (w : RcWorld σ) : Py (MatParams × RcWorld σ) :=
  if m.autoSync then do
    let d ← syncParameters m.saved.material m.learn (w.heap.dict m.addr)
    pure (d, { w with heap := w.heap.set m.addr d })
  else .ok (w.heap.dict m.addr, w)

/-- What happens to a model: an optimizer changes the values of its parameters, it computes, its scalers
are set, or its initialization file is saved. -/
inductive RcEvent (σ : Type)
  | step (values : String → ℝ)
  | forward
  | scalers (s : Scalers2 σ)
  | save

/-- The values of the parameters after a step of an optimizer, or after a state has been loaded. -/
def LearnState.withValues (s : LearnState) (values : String → ℝ) : LearnState :=
  { s with params := s.params.map fun p => (p.1, values p.1) }

/-- One event. -/
def rcEvent {σ : Type} : RcEvent σ → RcObj σ × RcWorld σ → Py (RcObj σ × RcWorld σ)
  | .step v, (m, w) => .ok ({ m with learn := m.learn.withValues v }, w)
  | .forward, (m, w) => (m.forward w).map fun r => (m, r.2)
  | .scalers s, (m, w) =>
    if m.isSaveInit then (({ m with scalers := s } : RcObj σ).save w).map fun w =>
      ({ m with scalers := s }, w)
    else .ok ({ m with scalers := s }, w)
  | .save, (m, w) => (m.save w).map fun w => (m, w)

/-- Events in order. -/
def rcEvents {σ : Type} (es : List (RcEvent σ)) (x : RcObj σ × RcWorld σ) :
    Py (RcObj σ × RcWorld σ) := es.foldlM (fun x e => rcEvent e x) x

end

end Hooke
