import Verif.Model.ForceEquilibrium
import Verif.Model.Devices
import Verif.Model.PyDict

/-!
# The material model finder as an object: construction, specimen data and loss

`MaterialModelFinder.__init__`, `_set_model_subdirs`, `_set_material_models_dirs`,
`check_force_equilibrium_loss_type`, `set_specimen_data`, `set_fitted_force_data_scalers` and `forward`
(material_model_finder/model/material_discovery.py:282-524, 831-885, 3446-3477).

A call is a function from the object to the object after the call and the exception raised by it, if any.
The internal forces of a specimen with its material models are given (see `FinderForward` for how they are
computed); options that store components, local paths and reactions in `forward` are left out, and so are
autograd and the device of tensors.
-/

noncomputable section

open Classical

namespace Hooke

/-- What `forward` uses of a specimen and its material state: forces, reactions, labels of the boundary
conditions (`none` if they are `None`) and flags of the mesh, at one or more times. -/
structure FinderSpecimen where
  N : ℕ
  n : ℕ
  T : ℕ
  pos : 0 < T
  internal : Fin T → NodeMat N n ℝ
  reaction : Fin T → NodeMat N n ℝ
  bc : Option (Fin T → NodeMat N n ℤ)
  flags : NodeMat N n ℤ

/-- Content of a model directory: the files of each entry of the subdirectory `material_models`, if there
is one, and the names of the other entries. -/
structure FinderDir where
  models : Option (KDict String (List String))
  rest : List String

/-- Arguments of the constructor (material_discovery.py:282-289); `name` is `none` if it is not a string.
Options that `forward` does not read here are left out. -/
structure FinderArgs where
  name : Option String
  lossType : String
  normalization : Bool
  computeSets : Bool
  device : String

/-- The attributes of a finder; `none` for an attribute that does not exist (`factor`, `weights`) or is
`None`.  `scaler` is `_data_scalers`, whose only item is `'forces'`. -/
structure FinderObj where
  name : String
  lossType : LossType
  normalization : Bool
  computeSets : Bool
  device : Device
  specimen : Option FinderSpecimen
  scaler : Option (Option (List ℝ × List ℝ))
  factor : Option (Option ℝ)
  weights : Option (List ℝ)
  dir : FinderDir

/-- `check_force_equilibrium_loss_type` (material_discovery.py:423-449). -/
def lossTypeArg (s : String) : Py LossType :=
  if s = "pointwise" then .ok .pointwise
  else if s = "dirichlet_sets" then .ok .dirichletSets
  else .error .runtimeError

/-- The constructor (material_discovery.py:282-392): the directory after the call, and the finder or the
exception.  `_set_model_subdirs` (394-404) makes `material_models` anew before the loss type and the device
are checked; `dir` is `none` if the directory does not exist. -/
def finderInit (cuda : Bool) (dir : Option FinderDir) (a : FinderArgs) : Option FinderDir × Py FinderObj :=
  match dir with
  | none => (none, .error .runtimeError)
  | some d =>
    match a.name with
    | none => (some d, .error .runtimeError)
    | some name =>
      let d' : FinderDir := { d with models := some [] }
      match lossTypeArg a.lossType with
      | .error e => (some d', .error e)
      | .ok ty =>
        match deviceArg cuda a.device with
        | .error e => (some d', .error e)
        | .ok dev => (some d', .ok
            { name := name, lossType := ty, normalization := a.normalization
              computeSets := if a.computeSets = true ∧ ty ≠ .dirichletSets then false else a.computeSets
              device := dev, specimen := none
              scaler := if a.normalization then some none else none
              factor := none, weights := none, dir := d' })

/-- The argument `loss_time_weights`: `None`, a tensor with its shape, or something else. -/
inductive WeightsArg where
  | none
  | tensor (shape : List ℕ) (vals : List ℝ)
  | other

/-- Arguments of `set_specimen_data` (material_discovery.py:451-453); `keys` are the keys of the material
models of the material state. -/
structure FinderCall where
  specimen : FinderSpecimen
  keys : List String
  forceMin : Option (List ℝ)
  forceMax : Option (List ℝ)
  factor : Option ℝ
  weights : WeightsArg

/-- `check_dirichlet_bc_mesh_hist` (specimen_data.py:318-371) of a specimen. -/
def FinderSpecimen.check (S : FinderSpecimen) (ty : LossType) : Py Unit :=
  match S.bc with
  | none => .ok ()
  | some bc => checkDirichletBc ty bc

/-- `_set_material_models_dirs` (material_discovery.py:406-421): each directory is made anew. -/
def setModelDirs (d : FinderDir) (keys : List String) : FinderDir :=
  { d with models := some (keys.foldl (fun m k => m.put ("model_" ++ k) []) (d.models.getD [])) }

/-- Force scalers of `set_specimen_data` (material_discovery.py:491-499, 3451-3477; data_scalers.py:149-162,
332-382).  The specimen has been set already. -/
def setForceScaler (F : FinderObj) (c : FinderCall) : FinderObj × Option PyErr :=
  if F.normalization then
    match c.forceMin, c.forceMax with
    | some mn, some mx =>
      if mn.length = c.specimen.n ∧ mx.length = c.specimen.n then
        ({ F with scaler := some (some (mn, mx)) }, none)
      else ({ F with scaler := some none }, some .runtimeError)
    | _, _ => (F, some .runtimeError)
  else (F, none)

/-- Weights of `set_specimen_data` (material_discovery.py:504-523). -/
def setLossWeights (F : FinderObj) (c : FinderCall) : FinderObj × Option PyErr :=
  match c.weights with
  | .tensor shape vals =>
    if shape.length ≠ 1 then (F, some .runtimeError)
    else if shape.getD 0 0 ≠ c.specimen.T then (F, some .runtimeError)
    else ({ F with weights := some vals }, none)
  | _ => ({ F with weights := some (List.replicate c.specimen.T 1) }, none)

/-- `set_specimen_data` (material_discovery.py:451-523). -/
def setSpecimen (F : FinderObj) (c : FinderCall) : FinderObj × Option PyErr :=
  match c.specimen.check F.lossType with
  | .error e => (F, some e)
  | .ok _ =>
    let F : FinderObj := { F with specimen := some c.specimen, dir := setModelDirs F.dir c.keys }
    match setForceScaler F c with
    | (F, some e) => (F, some e)
    | (F, none) => setLossWeights { F with factor := some c.factor } c

/-- The scaler used by the losses (model_data_scaling.py:188-216, 218-262; data_scalers.py:384-403). -/
def FinderObj.lossConfig (F : FinderObj) (S : FinderSpecimen) : Py (LossConfig S.n) :=
  if F.normalization then
    match F.scaler with
    | some (some b) =>
      if b.1.length = S.n then
        .ok ⟨F.lossType, some (fun j => b.1.getD j 0, fun j => b.2.getD j 0)⟩
      else .error .runtimeError
    | _ => .error .runtimeError
  else .ok ⟨F.lossType, none⟩

/-- The loss of the sequential modes (material_discovery.py:887-1000, 1002-1178) for the given forces. -/
def FinderObj.sequential (F : FinderObj) : Py ℝ := do
  let S ← orRaise F.specimen .attributeError
  (List.finRange S.T).foldlM (fun (acc : ℝ) (t : Fin S.T) => do
    let w ← orRaise F.weights .attributeError
    let x ← orRaise w[(t : ℕ)]? .indexError
    let cfg ← F.lossConfig S
    pure (acc + x * loopLoss cfg (S.internal t) (fun _ _ => 0) (S.reaction t) S.flags)) 0

/-- Product of two tensors with one dimension, with broadcasting. -/
def broadcastMul (v w : List ℝ) : Py (List ℝ) :=
  if v.length = w.length then .ok (List.zipWith (· * ·) v w)
  else match v, w with
    | [x], w => .ok (w.map (x * ·))
    | v, [y] => .ok (v.map (· * y))
    | _, _ => .error .runtimeError

/-- The loss of the vectorised mode (material_discovery.py:1674-1812, 2634-2684) for the given forces. -/
def FinderObj.vectorised (F : FinderObj) : Py ℝ := do
  let S ← orRaise F.specimen .attributeError
  let bc ← orRaise S.bc .typeError
  let bc0 ← orRaise (List.ofFn bc).head? .indexError
  let w ← orRaise F.weights .attributeError
  let cfg ← F.lossConfig S
  let l ← (List.finRange S.T).mapM fun t => vLoss cfg (S.internal t) (fun _ _ => 0) (S.reaction t) bc0
  let p ← broadcastMul w l
  pure p.sum

/-- `forward` (material_discovery.py:831-885). -/
def FinderObj.forward (F : FinderObj) (mode : String) : Py ℝ := do
  let loss ←
    (if mode = "sequential_time" then
      (if F.device = .cuda then .error .runtimeError else F.sequential)
    else if mode = "sequential_element" then F.sequential
    else if mode = "sequential_element_vmap" then F.vectorised
    else .error .runtimeError : Py ℝ)
  let factor ← orRaise F.factor .attributeError
  pure (scaledLoss factor loss)

end Hooke
