import Verif.Model.Hybrid
import Verif.Model.ModelInit

/-!
# Initialization file of a hybrid model

Models the constructor, `init_model_from_file` and `save_model_init_file` of
`model_architectures/hybrid_base_model/model/hybrid_model.py`.  Hybridized models are objects with an address,
because the hybrid model and the caller hold the same objects: only pickling copies them.  The dictionary
`hyb_models_dict` is taken to be left alone after the hybrid model has been built.
-/

namespace Hooke

noncomputable section

/-- A hybridized model, with the attributes the hybrid model uses (hybrid_model.py:479, 659-709, 824-849), its
weights and what it computes with them. `device` is `none` if the class has no method `set_device`. -/
structure SubObj (ω : Type) where
  inNorm : Option Bool
  outNorm : Option Bool
  hasTransform : Bool
  scalers : Option (Option HybScaler × Option HybScaler)
  device : Option String
  weights : ω
  call : ω → FeatTensor → Py ModelOut

/-- Hybridized models by address, and the next free address. -/
structure SubHeap (ω : Type) where
  obj : ℕ → SubObj ω
  next : ℕ

/-- An item of `hyb_models_dict` (hybrid_model.py:340-343, 372, 400). -/
structure HybItem where
  name : List Char
  addr : ℕ
  indices : ℤ × ℤ
  residual : Bool

/-- The item with the model at its address. -/
def SubHeap.entry {ω : Type} (h : SubHeap ω) (i : HybItem) : HybEntry where
  name := i.name
  indices := i.indices
  residual := i.residual
  inNorm := (h.obj i.addr).inNorm
  outNorm := (h.obj i.addr).outNorm
  hasTransform := (h.obj i.addr).hasTransform
  scalers := (h.obj i.addr).scalers
  call := (h.obj i.addr).call (h.obj i.addr).weights

/-- The arguments of the constructor that are saved, except directory and hybridized models
(hybrid_model.py:766-777). -/
structure HybSaved where
  nFeaturesIn : ℕ
  nFeaturesOut : ℕ
  name : ArgVal
  type : HybType
  inNormalized : Bool
  outNormalized : Bool
  device : String

/-- A `HybridModel`. -/
structure HybObj where
  saved : HybSaved
  items : List HybItem
  directory : Option String
  isSaveInit : Bool
  scalers : Scalers2 HybScaler

/-- `model_init_file.pkl` (hybrid_model.py:763-789): the items, and the hybridized models as they were when the
file was written. -/
structure HybFile (ω : Type) where
  saved : HybSaved
  items : List HybItem
  heap : SubHeap ω
  scalers : Scalers2 HybScaler

/-- Hybridized models in memory, directories, and their initialization files. -/
structure HybWorld (ω : Type) where
  heap : SubHeap ω
  isDir : String → Bool
  file : String → Option (HybFile ω)

/-- `save_model_init_file` (hybrid_model.py:743-789).  `os.path.isdir(None)` raises `TypeError`. -/
def HybObj.save {ω : Type} (m : HybObj) (w : HybWorld ω) : Py (HybWorld ω) := do
  let dir ← orRaise m.directory .typeError
  raiseIf (w.isDir dir = false) .runtimeError
  .ok { w with file := fun k => if k = dir then some ⟨m.saved, m.items, w.heap, m.scalers⟩ else w.file k }

/-- `set_device` for the hybridized models (hybrid_model.py:473-480). -/
def SubHeap.setDevice {ω : Type} (h : SubHeap ω) (items : List HybItem) (device : String) : SubHeap ω :=
  { h with obj := fun a =>
      if a ∈ (items.map HybItem.addr) then
        { h.obj a with device := (h.obj a).device.map fun _ => device }
      else h.obj a }

/-- The checks of the constructor (hybrid_model.py:174-211, 214; hybridization.py). -/
def hybChecks {ω : Type} (cuda : Bool) (s : HybSaved) (items : List HybItem) (directory : Option String)
    (w : HybWorld ω) : Py Unit := do
  let _ ← hybChannels (items.map w.heap.entry)
  raiseIf (∃ k, directory = some k ∧ w.isDir k = false) .runtimeError
  raiseIf (s.name.isStrOrNone = false) .runtimeError
  raiseIf (s.device ≠ "cpu" ∧ s.device ≠ "cuda") .runtimeError
  raiseIf (s.device = "cuda" ∧ cuda = false) .runtimeError
  let _ ← (sortEntries (items.map w.heap.entry)).mapM checkScalers
  raiseIf (s.type = .unknown) .runtimeError

/-- `HybridModel(...)` (hybrid_model.py:117-222). -/
def hybConstruct {ω : Type} (cuda : Bool) (s : HybSaved) (items : List HybItem) (directory : Option String)
    (isSave : Bool) (w : HybWorld ω) : Py (HybObj × HybWorld ω) := do
  let _ ← hybChecks cuda s items directory w
  let w := { w with heap := w.heap.setDevice items s.device }
  let m : HybObj := ⟨s, items, directory, isSave, ⟨none, none⟩⟩
  if isSave then (m.save w).map fun w => (m, w) else .ok (m, w)

/-- `pickle.load`: new objects for those of the file, the same object where the file has the same one. -/
def SubHeap.unpickle {ω : Type} (h f : SubHeap ω) : SubHeap ω where
  obj := fun a => if a < h.next then h.obj a else f.obj (a - h.next)
  next := h.next + f.next

/-- An item with the new address. -/
def HybItem.moved (i : HybItem) (n : ℕ) : HybItem := { i with addr := n + i.addr }

/-- `init_model_from_file` (hybrid_model.py:275-298) with the file of directory `dir`, and `directory` the value
of `model_directory`. -/
def hybLoad {ω : Type} (cuda : Bool) (dir directory : String) (w : HybWorld ω) : Py (HybObj × HybWorld ω) := do
  let f ← orRaise (w.file dir) .runtimeError
  let w' := { w with heap := w.heap.unpickle f.heap }
  let r ← hybConstruct cuda f.saved (f.items.map (·.moved w.heap.next)) (some directory) false w'
  let m : HybObj := { r.1 with scalers := f.scalers }
  let _ ← (sortEntries (m.items.map r.2.heap.entry)).mapM checkScalers
  pure (m, r.2)

/-- `init_model_from_file(model_directory=dir)` (hybrid_model.py:247-260). -/
def hybFromFile {ω : Type} (cuda : Bool) (dir : String) (w : HybWorld ω) : Py (HybObj × HybWorld ω) := do
  raiseIf (w.isDir dir = false) .runtimeError
  hybLoad cuda dir dir w

/-- `init_model_from_file(model_init_file_path=path)` (hybrid_model.py:261-268), where `dirname` is
`os.path.dirname(path)`: it is empty for a file of the current directory `cwd`. -/
def hybFromPath {ω : Type} (cuda : Bool) (cwd dirname : String) (w : HybWorld ω) : Py (HybObj × HybWorld ω) :=
  hybLoad cuda (if dirname = "" then cwd else dirname) dirname w

/-- The hybrid model as it computes now (hybrid_model.py:580-657). -/
def HybObj.forward {ω : Type} (m : HybObj) (w : HybWorld ω) (x : FeatTensor) : Py FeatTensor := do
  let chs ← hybChannels (m.items.map w.heap.entry)
  hybridForward ⟨chs, m.saved.type, m.saved.outNormalized, m.scalers.featuresOut⟩ x

/-- New weights for the hybridized models of a hybrid model: a step of an optimizer of `model.parameters()`. -/
def HybObj.setWeights {ω : Type} (m : HybObj) (v : ℕ → ω) (w : HybWorld ω) : HybWorld ω :=
  { w with heap := { w.heap with obj := fun a =>
      if a ∈ (m.items.map HybItem.addr) then { w.heap.obj a with weights := v a } else w.heap.obj a } }

/-- `state_dict()`: the weights of the hybridized models, in the order of the items. -/
def HybObj.state {ω : Type} (m : HybObj) (w : HybWorld ω) : List ω :=
  m.items.map fun i => (w.heap.obj i.addr).weights

/-- `load_state_dict(state)`: the weights are copied one after the other. -/
def HybObj.loadState {ω : Type} (m : HybObj) (state : List ω) (w : HybWorld ω) : HybWorld ω :=
  (m.items.zip state).foldl (fun (w : HybWorld ω) p =>
    { w with heap := { w.heap with obj := fun a =>
        if a = p.1.addr then { w.heap.obj a with weights := p.2 } else w.heap.obj a } }) w

/-- What happens to a hybrid model: a step of an optimizer, its scalers are set or fitted, its initialization
file is saved. -/
inductive HybEvent (ω : Type)
  | step (v : ℕ → ω)
  | scalers (s : Scalers2 HybScaler)
  | save

/-- One event (scalers: model_data_scaling.py:52-73, 131-186). -/
def hybEvent {ω : Type} : HybObj × HybWorld ω → HybEvent ω → Py (HybObj × HybWorld ω)
  | (m, w), .step v => .ok (m, m.setWeights v w)
  | (m, w), .scalers s =>
    let m : HybObj := { m with scalers := s }
    if m.isSaveInit then (m.save w).map fun w => (m, w) else .ok (m, w)
  | (m, w), .save => (m.save w).map fun w => (m, w)

/-- Events in order. -/
def hybEvents {ω : Type} (es : List (HybEvent ω)) (x : HybObj × HybWorld ω) : Py (HybObj × HybWorld ω) :=
  es.foldlM hybEvent x

end

end Hooke
