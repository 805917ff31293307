import Verif.Model.Hybrid
import Verif.Model.ModelInit

/-!
# Setting up hybridized models

Models `set_hybridized_model` (`model_architectures/hybrid_base_model/model/hybridized_model.py`) and its
uses in `user_scripts/local_model_update/hybrid_material_model/train_model.py`.
-/

namespace Hooke

noncomputable section

/-- What `set_hybridized_model` uses of a class `μ` of models, with data scalers of type `σ` and states of
type `ω`: the constructor (`none`: without the argument `is_save_model_init_file`), and the methods, which may
be missing (hybridized_model.py:61-72, 91, 96, 110). -/
structure ClassOps (μ σ ω : Type) where
  construct : PyDict ArgVal → Option Bool → InitDisk σ → Py (μ × InitDisk σ)
  hasSaveInit : Bool
  fromFile : Option (String → InitDisk σ → Py μ)
  loadState : ω → μ → Py μ
  setScalers : Option (Option σ → Option σ → μ → Py μ)

/-- The argument `data_scalers`. -/
inductive ScalerArg (σ : Type)
  | none
  | dict (d : PyDict (Option σ))
  | other

/-- An element of a tuple: a Python boolean is an `int`. -/
inductive PyAtom
  | int (n : ℤ)
  | bool (b : Bool)
  | other

/-- `isinstance(x, int)`, with the value of `x` as a number. -/
def PyAtom.asInt : PyAtom → Option ℤ
  | .int n => some n
  | .bool b => some (if b then 1 else 0)
  | .other => none

/-- The argument `hyb_indices`. -/
inductive IndexArg
  | tuple (l : List PyAtom)
  | other

/-- The arguments of `set_hybridized_model` but the class (hybridized_model.py:24-26); `none` stands for a
value of another type than the documented one. -/
structure HybSetupArgs (σ : Type) where
  initArgs : Option (PyDict ArgVal)
  initPath : Option String
  statePath : Option String
  scalers : ScalerArg σ
  indices : IndexArg
  residual : Option Bool

/-- The returned dictionary (hybridized_model.py:136-140). -/
structure HybData (μ : Type) where
  model : μ
  indices : ℤ × ℤ
  residual : Bool

/-- The model (hybridized_model.py:60-81). -/
def buildSub {μ σ ω : Type} (c : ClassOps μ σ ω) (a : HybSetupArgs σ) (d : InitDisk σ) :
    Py (μ × InitDisk σ) :=
  match a.initArgs with
  | some args => c.construct args (if c.hasSaveInit then some false else none) d
  | none =>
    match a.initPath with
    | some p =>
      match c.fromFile with
      | some f => (f p d).map fun m => (m, d)
      | none => .error .runtimeError
    | none => .error .runtimeError

/-- The state of the model (hybridized_model.py:83-92); `states` are the state files. -/
def loadSub {μ σ ω : Type} (c : ClassOps μ σ ω) (states : String → Option ω) (p : Option String) (m : μ) :
    Py μ :=
  match p with
  | none => .ok m
  | some p =>
    match states p with
    | none => .error .runtimeError
    | some w => c.loadState w m

/-- The data scalers of the model (hybridized_model.py:94-119). -/
def scaleSub {μ σ ω : Type} (c : ClassOps μ σ ω) (s : ScalerArg σ) (m : μ) : Py μ :=
  match s with
  | .none => .ok m
  | s =>
    match c.setScalers with
    | none => .error .runtimeError
    | some f =>
      match s with
      | .dict k => f ((k.get? "features_in").getD none) ((k.get? "features_out").getD none) m
      | _ => .error .runtimeError

/-- The hybridization indices (hybridized_model.py:121-128). -/
def checkIndices : IndexArg → Py (ℤ × ℤ)
  | .tuple [a, b] =>
    match a.asInt, b.asInt with
    | some i, some j => .ok (i, j)
    | _, _ => .error .runtimeError
  | _ => .error .runtimeError

/-- `set_hybridized_model` (hybridized_model.py:24-142). -/
def setHybridized {μ σ ω : Type} (c : ClassOps μ σ ω) (states : String → Option ω) (a : HybSetupArgs σ)
    (d : InitDisk σ) : Py (HybData μ × InitDisk σ) := do
  let r ← buildSub c a d
  let m ← loadSub c states a.statePath r.1
  let m ← scaleSub c a.scalers m
  let ij ← checkIndices a.indices
  let res ← orRaise a.residual .runtimeError
  pure (⟨m, ij, res⟩, r.2)

/-! ### Classes -/

/-- The class `GRURNNModel` (gru_model.py:96-431), with its weights: `w0` are the initial ones, a state which
does not fit raises `RuntimeError` in `load_state_dict`.  The class has no method `set_data_scalers`. -/
def gruOps {σ ω : Type} (cuda : Bool) (cwd : String) (dirname : String → String) (w0 : ω)
    (fits : ω → ω → Bool) : ClassOps (GruObj σ × ω) σ ω where
  construct args save d := (gruConstruct cuda args (save.getD true) d).map fun r => ((r.1, w0), r.2)
  hasSaveInit := true
  fromFile := some fun p d => (initModelFromPath cuda d cwd (dirname p)).map fun m => (m, w0)
  loadState w m := if fits m.2 w then .ok (m.1, w) else .error .runtimeError
  setScalers := none

/-- A `PolynomialLinearRegressor` (transfer_learning.py:82-136). -/
structure PolyObj (σ ω : Type) where
  args : PyDict ArgVal
  inNormalized : ArgVal
  outNormalized : ArgVal
  scalers : Scalers2 σ
  weights : ω

/-- The class `PolynomialLinearRegressor` (transfer_learning.py:82-136, 258-279): no initialization file. The
values of the number of features and of the degree are taken to be accepted. -/
def polyOps {σ ω : Type} (cuda : Bool) (w0 : ω) (fits : ω → ω → Bool) : ClassOps (PolyObj σ ω) σ ω where
  construct args save d := do
    raiseIf (save ≠ none) .typeError
    raiseIf (∃ k ∈ args.keys, k ∉ ["n_features_in", "poly_degree", "is_bias", "is_model_in_normalized",
      "is_model_out_normalized", "device_type"]) .typeError
    let _ ← orRaise (args.get? "n_features_in") .typeError
    let dev ← orRaise ((args.get? "device_type").getD (.str "cpu")).asStr .runtimeError
    raiseIf (dev ≠ "cpu" ∧ dev ≠ "cuda") .runtimeError
    raiseIf (dev = "cuda" ∧ cuda = false) .runtimeError
    pure (⟨args, (args.get? "is_model_in_normalized").getD (.bool false),
      (args.get? "is_model_out_normalized").getD (.bool false), ⟨none, none⟩, w0⟩, d)
  hasSaveInit := false
  fromFile := none
  loadState w m := if fits m.weights w then .ok { m with weights := w } else .error .runtimeError
  setScalers := some fun i o m => .ok { m with scalers := ⟨i, o⟩ }

/-- `if x` for the value of an argument. -/
def ArgVal.truthy : ArgVal → Prop
  | .nat n => n ≠ 0
  | .real x => x ≠ 0
  | .str s => s ≠ ""
  | .bool b => b = true
  | .none => False

open Classical in
/-- A hybridized GRU model as an item of `hyb_models_dict` (hybrid_model.py:340-401, 659-709, 824-849): `call`
is what it computes. -/
def gruEntry {ω : Type} (name : List Char) (h : HybData (GruObj HybScaler × ω))
    (call : ω → FeatTensor → Py ModelOut) : HybEntry where
  name := name
  indices := h.indices
  residual := h.residual
  inNorm := some (decide h.model.1.inNormalized.truthy)
  outNorm := some (decide h.model.1.outNormalized.truthy)
  hasTransform := false
  scalers := some (h.model.1.scalers.featuresIn, h.model.1.scalers.featuresOut)
  call := call h.model.2

/-! ### The training script -/

/-- The widths of the features options (train_model.py:481-550). -/
def hybridGruWidths (name : String) : Py (ℕ × ℕ) :=
  if name = "strain_to_stress" then .ok (6, 6)
  else if name = "strain_to_pstrain" then .ok (6, 6)
  else if name = "strain_to_stressvd" then .ok (6, 7)
  else if name = "strain_i1_i2_to_stressvd" then .ok (8, 7)
  else .error .runtimeError

/-- `set_hybridized_gru_model` (train_model.py:426-639): `fitIn` and `fitOut` are the scalers fitted to the
features of the data set, or the exceptions raised meanwhile. -/
def setHybridizedGru {σ ω : Type} (c : ClassOps (GruObj σ × ω) σ ω) (i j : ℤ) (name device : String)
    (fitIn fitOut : Py σ) (d : InitDisk σ) : Py (HybData (GruObj σ × ω) × InitDisk σ) := do
  let n ← hybridGruWidths name
  let si ← fitIn
  let so ← fitOut
  setHybridized c (fun _ => none)
    { initArgs := some [("n_features_in", .nat n.1), ("n_features_out", .nat n.2),
        ("hidden_layer_size", .nat 444), ("n_recurrent_layers", .nat 3), ("dropout", .nat 0),
        ("model_directory", .none), ("model_name", .none), ("is_model_in_normalized", .bool true),
        ("is_model_out_normalized", .bool true), ("gru_model_source", .str "custom"),
        ("device_type", .str device)]
      initPath := none, statePath := none
      scalers := .dict [("features_in", some si), ("features_out", some so)]
      indices := .tuple [.int i, .int j], residual := some false } d

/-- The hybridized models of the five schemes of the training script (train_model.py:136-293): `rcm` and
`layer` are the results of `set_hybridized_rcm_model` and `set_hybridized_material_layer`, as dictionary items of
any type `β`; the loading of the data set is part of `fitIn`. -/
def schemeModels {σ ω β : Type} (c : ClassOps (GruObj σ × ω) σ ω) (item : HybData (GruObj σ × ω) → β)
    (rcm layer : Py β) (device : String) (fitIn fitOut : Py σ) (d : InitDisk σ) (scheme : ℕ) :
    Py (List (String × β)) :=
  match scheme with
  | 0 => do
    let g ← setHybridizedGru c 0 0 "strain_to_stress" device fitIn fitOut d
    pure [("gru_strain_to_stress", item g.1)]
  | 1 => do
    let g ← setHybridizedGru c 0 0 "strain_to_pstrain" device fitIn fitOut d
    let l ← layer
    pure [("gru_strain_to_pstrain", item g.1), ("batched_elastic", l)]
  | 2 => do
    let g ← setHybridizedGru c 0 0 "strain_to_stressvd" device fitIn fitOut d
    let l ← layer
    pure [("gru_strain_to_stressvd", item g.1), ("vd_composition", l)]
  | 3 => do
    let g ← setHybridizedGru c 0 0 "strain_i1_i2_to_stressvd" device fitIn fitOut d
    let l ← layer
    pure [("gru_strain_i1_i2_to_stressvd", item g.1), ("vd_composition", l)]
  | 4 => do
    let r ← rcm
    let g ← setHybridizedGru c 1 0 "strain_to_stress" device fitIn fitOut d
    pure [("rcm_strain_to_stress", r), ("gru_strain_to_stress", item g.1)]
  | _ => .error .runtimeError

end

end Hooke
