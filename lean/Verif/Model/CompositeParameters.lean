import Verif.Model.LearnableParameters

/-!
# Parameters of composite material models

The material model finder collects, bounds and constrains the learnable parameters of all the
material models of a specimen (`material_model_finder/model/material_discovery.py:536-797`); a hybrid
model those of its hybridized models
(`model_architectures/hybrid_base_model/model/hybrid_model.py:409-578`).
-/

namespace Hooke

noncomputable section

/-- A model as these functions see it: a model whose attribute `is_explicit_parameters` is true, with
the state of its learnable parameters, or any other model. -/
inductive SubModel
  | explicit (s : LearnState)
  | opaque

/-- `_hyb_models_names` and `_hyb_models` of a hybrid model. -/
structure HybridSubs where
  names : List String
  models : List SubModel

/-- A material model of the specimen: a hybrid model or not. -/
inductive MatModel
  | hybrid (h : HybridSubs)
  | single (m : SubModel)

/-- `_specimen_material_state.get_material_models()`, a dictionary in its order. -/
abbrev MatModels := PyDict MatModel

/-- The items of `get_detached_model_parameters(is_normalized_out)` of one model; a model that is
skipped by `continue` contributes none (`hybrid_model.py:520-532`, `material_discovery.py:567-581`,
`589-601`). -/
def subDetached (isNormalizedOut : Bool) : SubModel → Py (PyDict ℝ)
  | .explicit s => getDetached s isNormalizedOut
  | .opaque => .ok []

/-- The items of `get_model_parameters_bounds()` of one model (`hybrid_model.py:561-572`,
`material_discovery.py:642-655`, `663-674`). -/
def subBounds : SubModel → PyDict (ℝ × ℝ)
  | .explicit s => s.bounds
  | .opaque => []

/-- Stores items under their labels (`hybrid_model.py:532-536`, `material_discovery.py:581-586`,
`601-605`). -/
def putLabelled {β : Type} (pre : String) (items : PyDict β) (d : PyDict β) : PyDict β :=
  items.foldl (fun d p => d.put (pre ++ p.1) p.2) d

/-- `get_hybridized_model(hyb_model_name)` (`hybrid_model.py:409-432`). -/
def hybridizedModel (h : HybridSubs) (name : String) : Py SubModel := do
  raiseIf (name ∉ h.names) .runtimeError
  orRaise h.models[h.names.idxOf name]? .indexError

/-- `get_detached_model_parameters(is_normalized_out)` of a hybrid model
(`hybrid_model.py:496-538`). -/
def hybridDetached (h : HybridSubs) (isNormalizedOut : Bool) : Py (PyDict ℝ) :=
  h.names.foldlM (fun d name => do
    let m ← hybridizedModel h name
    let items ← subDetached isNormalizedOut m
    .ok (putLabelled (name ++ "_") items d)) []

/-- `get_model_parameters_bounds()` of a hybrid model (`hybrid_model.py:540-578`). -/
def hybridBounds (h : HybridSubs) : Py (PyDict (ℝ × ℝ)) :=
  h.names.foldlM (fun d name => do
    let m ← hybridizedModel h name
    .ok (putLabelled (name ++ "_") (subBounds m) d)) []

/-- One material model of `get_detached_model_parameters()` of the material model finder
(`material_discovery.py:556-605`). -/
def matDetached (d : PyDict ℝ) (key : String) : MatModel → Py (PyDict ℝ)
  | .hybrid h => (h.names.zip h.models).foldlM (fun d nm => do
      let items ← subDetached false nm.2
      .ok (putLabelled ("model_" ++ key ++ "_" ++ nm.1 ++ "_") items d)) d
  | .single m => do
      let items ← subDetached false m
      .ok (putLabelled ("model_" ++ key ++ "_") items d)

/-- `get_detached_model_parameters()` of the material model finder
(`material_discovery.py:536-607`). -/
def finderDetached (ms : MatModels) : Py (PyDict ℝ) :=
  ms.foldlM (fun d km => matDetached d km.1 km.2) []

/-- One material model of `get_model_parameters_bounds()` of the material model finder
(`material_discovery.py:631-678`). -/
def matBounds (d : PyDict (ℝ × ℝ)) (key : String) : MatModel → PyDict (ℝ × ℝ)
  | .hybrid h => (h.names.zip h.models).foldl (fun d nm =>
      putLabelled ("model_" ++ key ++ "_" ++ nm.1 ++ "_") (subBounds nm.2) d) d
  | .single m => putLabelled ("model_" ++ key ++ "_") (subBounds m) d

/-- `get_model_parameters_bounds()` of the material model finder
(`material_discovery.py:609-680`). -/
def finderBounds (ms : MatModels) : PyDict (ℝ × ℝ) :=
  ms.foldl (fun d km => matBounds d km.1 km.2) []

/-- Clamping of the parameters of one model (`material_discovery.py:703-728`, `731-754`,
`hybrid_base_model/train/training.py:379-397`). -/
def subEnforce : SubModel → Py SubModel
  | .explicit s => do
      let s' ← enforceBounds s
      .ok (.explicit s')
  | .opaque => .ok .opaque

/-- One material model of `enforce_parameters_bounds()` (`material_discovery.py:695-754`). -/
def matEnforce : MatModel → Py MatModel
  | .hybrid h => do
      let models ← h.models.mapM subEnforce
      .ok (.hybrid { h with models := models })
  | .single m => do
      let m' ← subEnforce m
      .ok (.single m')

/-- `enforce_parameters_bounds()` of the material model finder (`material_discovery.py:682-754`). -/
def finderEnforce (ms : MatModels) : Py MatModels :=
  ms.mapM fun km => do
    let m ← matEnforce km.2
    .ok (km.1, m)

/-- The clamping after a training step of a hybrid model
(`hybrid_base_model/train/training.py:377-397`). -/
def hybridTrainClamp (h : HybridSubs) : Py HybridSubs := do
  let models ← h.models.mapM subEnforce
  .ok { h with models := models }

/-- The constraints of one model (`material_discovery.py:777-786`, `789-797`): `con` is
`enforce_parameters_constraints()` of a model with explicit parameters. -/
def subConstrain (con : LearnState → Py LearnState) : SubModel → Py SubModel
  | .explicit s => do
      let s' ← con s
      .ok (.explicit s')
  | .opaque => .ok .opaque

/-- One material model of `enforce_parameters_constraints()` (`material_discovery.py:769-797`). -/
def matConstrain (con : LearnState → Py LearnState) : MatModel → Py MatModel
  | .hybrid h => do
      let models ← h.models.mapM (subConstrain con)
      .ok (.hybrid { h with models := models })
  | .single m => do
      let m' ← subConstrain con m
      .ok (.single m')

/-- `enforce_parameters_constraints()` of the material model finder
(`material_discovery.py:756-797`). -/
def finderConstrain (con : LearnState → Py LearnState) (ms : MatModels) : Py MatModels :=
  ms.mapM fun km => do
    let m ← matConstrain con km.2
    .ok (km.1, m)

end

end Hooke
