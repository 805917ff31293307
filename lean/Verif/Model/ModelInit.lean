import Verif.Model.PyDict

/-!
# Initialization file of a recurrent model and its data scalers

Models the constructor, `init_model_from_file`, `set_device`, `get_device` and
`save_model_init_file` of `src/hookeai/model_architectures/rnn_base_model/model/gru_model.py`
(lines 96-322 and 385-431), and `init_data_scalers`, `set_data_scalers`,
`set_fitted_data_scalers`, `fit_data_scalers` and `load_model_data_scalers_from_file` of
`src/hookeai/model_architectures/procedures/model_data_scaling.py` (lines 40-186, 275-303).

Weights, the device of the scalers and messages are left out.  A scaler is any value of a type
`σ`.  Directories are strings; the only file is `model_init_file.pkl` of each directory.
-/

namespace Hooke

noncomputable section

/-- Value of an argument of the constructor. -/
inductive ArgVal
  | nat (n : ℕ)
  | real (x : ℝ)
  | str (s : String)
  | bool (b : Bool)
  | none

/-- `model._data_scalers`: the scalers of the input and output features. -/
structure Scalers2 (σ : Type) where
  featuresIn : Option σ
  featuresOut : Option σ

/-- Attributes of a `GRURNNModel` (gru_model.py:146-174, 204). -/
structure GruObj (σ : Type) where
  nFeaturesIn : ArgVal
  nFeaturesOut : ArgVal
  hiddenLayerSize : ArgVal
  nRecurrentLayers : ArgVal
  dropout : ArgVal
  directory : Option String
  name : ArgVal
  inNormalized : ArgVal
  outNormalized : ArgVal
  isSaveInit : Bool
  source : ArgVal
  device : String
  scalers : Scalers2 σ

/-- `model_init_file.pkl`: the arguments and the scalers, or a file whose writing was
interrupted. -/
inductive InitFile (σ : Type)
  | complete (args : PyDict ArgVal) (scalers : Scalers2 σ)
  | truncated

/-- Existing directories and their initialization files. -/
structure InitDisk (σ : Type) where
  isDir : String → Bool
  file : String → Option (InitFile σ)

/-- `open(path, 'wb')` and `pickle.dump`: the two states of the disk, after opening and after
writing. -/
def InitDisk.write {σ : Type} (d : InitDisk σ) (dir : String) (f : InitFile σ) : InitDisk σ :=
  { d with file := fun k => if k = dir then some f else d.file k }

/-- A directory, possibly `None`, as the value of an argument. -/
def dirArg : Option String → ArgVal
  | some s => .str s
  | none => .none

/-- The arguments saved by `save_model_init_file` (gru_model.py:407-419). -/
def GruObj.initArgs {σ : Type} (m : GruObj σ) : PyDict ArgVal :=
  [("n_features_in", m.nFeaturesIn), ("n_features_out", m.nFeaturesOut),
   ("hidden_layer_size", m.hiddenLayerSize), ("n_recurrent_layers", m.nRecurrentLayers),
   ("dropout", m.dropout), ("model_directory", dirArg m.directory), ("model_name", m.name),
   ("is_model_in_normalized", m.inNormalized), ("is_model_out_normalized", m.outNormalized),
   ("gru_model_source", m.source), ("device_type", .str m.device)]

/-- `save_model_init_file` (gru_model.py:385-431).  `os.path.isdir(None)` raises `TypeError`. -/
def GruObj.save {σ : Type} (m : GruObj σ) (d : InitDisk σ) : Py (InitDisk σ) := do
  let dir ← orRaise m.directory .typeError
  raiseIf (d.isDir dir = false) .runtimeError
  .ok (d.write dir (.complete m.initArgs m.scalers))

/-- `set_device` (gru_model.py:283-310): `cuda` tells whether CUDA is available. -/
def GruObj.setDevice {σ : Type} (m : GruObj σ) (cuda : Bool) (device : String) : Py (GruObj σ) := do
  raiseIf (device ≠ "cpu" ∧ device ≠ "cuda") .runtimeError
  raiseIf (device = "cuda" ∧ cuda = false) .runtimeError
  .ok { m with device := device }

/-- `get_device` (gru_model.py:312-322) reads `self.device_type`, an attribute that is never
set. -/
def GruObj.getDevice {σ : Type} (_m : GruObj σ) : Py String := .error .attributeError

/-- Names of the arguments of the constructor (gru_model.py:96-100). -/
def gruArgNames : List String :=
  ["n_features_in", "n_features_out", "hidden_layer_size", "model_directory", "model_name",
   "is_model_in_normalized", "is_model_out_normalized", "n_recurrent_layers", "dropout",
   "gru_model_source", "device_type"]

/-- A string argument. -/
def ArgVal.asStr : ArgVal → Option String
  | .str s => some s
  | _ => Option.none

/-- `is None` or `isinstance(_, str)`. -/
def ArgVal.isStrOrNone : ArgVal → Bool
  | .str _ => true
  | .none => true
  | _ => false

/-- The model directory (gru_model.py:154-159).  Another value than a string or `None` raises
`TypeError` in `os.path.isdir`. -/
def checkDirectory {σ : Type} (d : InitDisk σ) : ArgVal → Py (Option String)
  | .none => .ok Option.none
  | .str s => if d.isDir s then .ok (some s) else .error .runtimeError
  | _ => .error .typeError

/-- `GRURNNModel(**args, is_save_model_init_file=isSave)` (gru_model.py:96-208).  A missing required
argument and an unknown argument raise `TypeError`; the other ones have default values. -/
def gruConstruct {σ : Type} (cuda : Bool) (args : PyDict ArgVal) (isSave : Bool)
    (d : InitDisk σ) : Py (GruObj σ × InitDisk σ) := do
  raiseIf (∃ k ∈ args.keys, k ∉ gruArgNames) .typeError
  let nIn ← orRaise (args.get? "n_features_in") .typeError
  let nOut ← orRaise (args.get? "n_features_out") .typeError
  let hid ← orRaise (args.get? "hidden_layer_size") .typeError
  let dir ← orRaise (args.get? "model_directory") .typeError
  let dir ← checkDirectory d dir
  let name := (args.get? "model_name").getD (.str "gru_material_model")
  raiseIf (name.isStrOrNone = false) .runtimeError
  let dev ← orRaise ((args.get? "device_type").getD (.str "cpu")).asStr .runtimeError
  let m : GruObj σ :=
    { nFeaturesIn := nIn, nFeaturesOut := nOut, hiddenLayerSize := hid,
      nRecurrentLayers := (args.get? "n_recurrent_layers").getD (.nat 1),
      dropout := (args.get? "dropout").getD (.real 0), directory := dir, name := name,
      inNormalized := (args.get? "is_model_in_normalized").getD (.bool false),
      outNormalized := (args.get? "is_model_out_normalized").getD (.bool false),
      isSaveInit := isSave,
      source := (args.get? "gru_model_source").getD (.str "torch"),
      device := "cpu", scalers := ⟨none, none⟩ }
  let m ← m.setDevice cuda dev
  if isSave then (m.save d).map fun d => (m, d) else .ok (m, d)

/-- Reading the file of a directory with `pickle.load` (gru_model.py:261-262,
model_data_scaling.py:293-299): `RuntimeError` without file; an interrupted file raises `EOFError`,
modelled as `osError`. -/
def InitDisk.read {σ : Type} (d : InitDisk σ) (dir : String) :
    Py (PyDict ArgVal × Scalers2 σ) :=
  match d.file dir with
  | none => .error .runtimeError
  | some .truncated => .error .osError
  | some (.complete a s) => .ok (a, s)

/-- `init_model_from_file(model_directory=dir)` (gru_model.py:210-281): the saved arguments with the
directory replaced; the model does not save its initialization file. -/
def initModelFromFile {σ : Type} (cuda : Bool) (d : InitDisk σ) (dir : String) :
    Py (GruObj σ) := do
  raiseIf (d.isDir dir = false) .runtimeError
  let r ← d.read dir
  let m ← gruConstruct cuda (r.1.put "model_directory" (.str dir)) false d
  .ok { m.1 with scalers := r.2 }

/-- `init_model_from_file(model_init_file_path=path)` (gru_model.py:241-281), where `dirname` is
`os.path.dirname(path)`: it is empty for a file of the current directory `cwd`. -/
def initModelFromPath {σ : Type} (cuda : Bool) (d : InitDisk σ) (cwd dirname : String) :
    Py (GruObj σ) := do
  let r ← d.read (if dirname = "" then cwd else dirname)
  let m ← gruConstruct cuda (r.1.put "model_directory" (.str dirname)) false d
  .ok { m.1 with scalers := r.2 }

/-! ### Operations on the scalers of a model -/

/-- Operations on a model: the scalers of `fit` are those returned, or the exceptions raised, by the
fitting of the input and of the output features. -/
inductive ScalerOp (σ : Type)
  | set (i o : Option σ)
  | fit (i o : Py σ)
  | setFitted
  | load

/-- A model and the disk. -/
structure ModelWorld (σ : Type) where
  model : GruObj σ
  disk : InitDisk σ

/-- `if model._is_save_model_init_file: model.save_model_init_file()`. -/
def ModelWorld.saveIf {σ : Type} (w : ModelWorld σ) : ModelWorld σ × Py Unit :=
  if w.model.isSaveInit then
    match w.model.save w.disk with
    | .ok d => ({ w with disk := d }, .ok ())
    | .error e => (w, .error e)
  else (w, .ok ())

/-- The same world with other scalers in memory. -/
def ModelWorld.withScalers {σ : Type} (w : ModelWorld σ) (s : Scalers2 σ) : ModelWorld σ :=
  { w with model := { w.model with scalers := s } }

/-- One operation: the state afterwards, also if an exception is raised.
`set_data_scalers` (model_data_scaling.py:52-73), `fit_data_scalers` (131-186: the scalers in memory
are removed first), `set_fitted_data_scalers` (75-129: it calls `model._init_data_scalers`, which
does not exist) and `load_model_data_scalers_from_file` (275-303). -/
def ScalerOp.apply {σ : Type} (w : ModelWorld σ) : ScalerOp σ → ModelWorld σ × Py Unit
  | .set i o => (w.withScalers ⟨i, o⟩).saveIf
  | .fit i o =>
    match i, o with
    | .ok a, .ok b => (w.withScalers ⟨some a, some b⟩).saveIf
    | .error e, _ => (w.withScalers ⟨none, none⟩, .error e)
    | .ok _, .error e => (w.withScalers ⟨none, none⟩, .error e)
  | .setFitted => (w, .error .attributeError)
  | .load =>
    match w.model.directory with
    | none => (w, .error .typeError)
    | some dir =>
      if w.disk.isDir dir = false then (w, .error .runtimeError)
      else match w.disk.read dir with
        | .ok r => (w.withScalers r.2, .ok ())
        | .error e => (w, .error e)

/-- A history of operations, all of which succeed. -/
def runOps {σ : Type} (w : ModelWorld σ) : List (ScalerOp σ) → Option (ModelWorld σ)
  | [] => some w
  | op :: ops =>
    match op.apply w with
    | (w', .ok _) => runOps w' ops
    | (_, .error _) => none

/-- The disk if the program is interrupted while the initialization file is written: the file has
been opened for writing, and so emptied. -/
def ModelWorld.crashInSave {σ : Type} (w : ModelWorld σ) (dir : String) : InitDisk σ :=
  w.disk.write dir .truncated

end

end Hooke
