import Mathlib.Data.Real.Basic
import Mathlib.Data.Finset.Sort
import Mathlib.Data.Fintype.Prod
import Mathlib.Algebra.BigOperators.Group.Finset.Basic
import Verif.Model.PyUtil

/-!
# Force equilibrium loss of `material_model_finder/model/material_discovery.py`

Nodal arrays of shape `(n_node_mesh, n_dim)` are functions of a node and a dimension.  Boundary
conditions are integers (the code converts them with `.long()`).  Flattening with `view(-1)` is not
modelled: degrees of freedom stay pairs of a node and a dimension.
-/

noncomputable section

open Classical

namespace Hooke

/-- Array of shape `(n_node_mesh, n_dim)`. -/
abbrev NodeMat (N n : ℕ) (α : Type) := Fin N → Fin n → α

/-- `_force_equilibrium_loss_type` (material_discovery.py:424-449; checked by the constructor). -/
inductive LossType
  | pointwise
  | dirichletSets
  deriving DecidableEq

/-- The attributes of the model read by the losses: the loss type and, with force normalisation, the
minimum and maximum of the force scaler (material_discovery.py:355-356, 377, 451-477, 3451-3477).  The
scaler maps to `[-1, 1]`. -/
structure LossConfig (n : ℕ) where
  lossType : LossType
  scaler : Option ((Fin n → ℝ) × (Fin n → ℝ))

/-- One entry of `TorchMinMaxScaler.transform` (data_scalers.py:247-251) for finite forces and
different bounds. -/
def forceScale (mn mx x : ℝ) : ℝ := -1 + (1 - -1) / (mx - mn) * (x - mn)

/-- `if self._is_force_normalization: ... = data_scaler_transform(...)`
(material_discovery.py:1479-1488, 2718-2727). -/
def normForces {N n : ℕ} (cfg : LossConfig n) (F : NodeMat N n ℝ) : NodeMat N n ℝ :=
  match cfg.scaler with
  | none => F
  | some (mn, mx) => fun i j => forceScale (mn j) (mx j) (F i j)

/-- `force_equilibrium_loss`, material_discovery.py:1447-1511: the two loops. -/
def loopLoss {N n : ℕ} (cfg : LossConfig n) (Fi Fe R : NodeMat N n ℝ) (bc : NodeMat N n ℤ) : ℝ :=
  (List.finRange N).foldl (fun acc i => (List.finRange n).foldl (fun acc j =>
    if bc i j = 1 then acc + (normForces cfg Fi i j - normForces cfg Fe i j - normForces cfg R i j) ^ 2
    else acc + (normForces cfg Fi i j - normForces cfg Fe i j) ^ 2) acc) 0

/-- Pointwise branch of `vforce_equilibrium_loss` and of `force_equilibrium_loss_components_hist`
(material_discovery.py:2730-2736, 2895-2901). -/
def pointwiseLoss {N n : ℕ} (Fi Fe R : NodeMat N n ℝ) (bc : NodeMat N n ℤ) : ℝ :=
  ∑ i, ∑ j, (Fi i j - Fe i j - if bc i j = 1 then R i j else 0) ^ 2

/-- `torch.unique(dirichlet_bc_mesh_flat)`: the labels in increasing order. -/
def uniqueLabels {N n : ℕ} (bc : NodeMat N n ℤ) : List ℤ :=
  (Finset.univ.image fun d : Fin N × Fin n => bc d.1 d.2).sort (· ≤ ·)

/-- `torch.bucketize(value, boundaries)`: the first position whose boundary is at least the value. -/
def bucketize (bounds : List ℤ) (v : ℤ) : ℕ := bounds.findIdx fun b => v ≤ b

/-- `one_hot` (material_discovery.py:2744-2760, 2914-2930, 3236-3250). -/
def oneHot {N n : ℕ} (bc : NodeMat N n ℤ) (i : Fin N) (j : Fin n) (s : ℕ) : ℝ :=
  if bucketize (uniqueLabels bc) (bc i j) = s then 1 else 0

/-- `force_equilibrium` (material_discovery.py:2769-2774, 2939-2945). -/
def setResidual {N n : ℕ} (Fi Fe R : NodeMat N n ℝ) (bc : NodeMat N n ℤ) (i : Fin N) (j : Fin n) : ℝ :=
  Fi i j - Fe i j - R i j * (1 - oneHot bc i j 0)

/-- `force_equilibrium_loss_ndbc` (material_discovery.py:2806-2807). -/
def freeLoss {N n : ℕ} (Fi Fe R : NodeMat N n ℝ) (bc : NodeMat N n ℤ) : ℝ :=
  ∑ i, ∑ j, (setResidual Fi Fe R bc i j * oneHot bc i j 0) ^ 2

/-- `force_equilibrium_loss_dbc` (material_discovery.py:2810-2811): columns from the second on. -/
def setsLoss {N n : ℕ} (Fi Fe R : NodeMat N n ℝ) (bc : NodeMat N n ℤ) : ℝ :=
  ∑ s ∈ Finset.range ((uniqueLabels bc).length - 1),
    (∑ i, ∑ j, setResidual Fi Fe R bc i j * oneHot bc i j (s + 1)) ^ 2

/-- `vforce_equilibrium_loss`, material_discovery.py:2686-2820: `one_hot[:, 0]` raises when there are
no degrees of freedom. -/
def vLoss {N n : ℕ} (cfg : LossConfig n) (Fi Fe R : NodeMat N n ℝ) (bc : NodeMat N n ℤ) : Py ℝ :=
  match cfg.lossType with
  | .pointwise => .ok (pointwiseLoss (normForces cfg Fi) (normForces cfg Fe) (normForces cfg R) bc)
  | .dirichletSets =>
    if uniqueLabels bc = [] then .error .indexError
    else .ok (freeLoss (normForces cfg Fi) (normForces cfg Fe) (normForces cfg R) bc +
      setsLoss (normForces cfg Fi) (normForces cfg Fe) (normForces cfg R) bc)

/-- The histories of a specimen: forces and boundary conditions at each time, weights of the times. -/
structure ForceHist (N n T : ℕ) where
  internal : Fin T → NodeMat N n ℝ
  external : Fin T → NodeMat N n ℝ
  reaction : Fin T → NodeMat N n ℝ
  bc : Fin T → NodeMat N n ℤ
  weights : Fin T → ℝ

/-- `vforce_equilibrium_hist_loss`, material_discovery.py:2634-2684: the boundary conditions of the
first time are used at all times. -/
def vHistLoss {N n T : ℕ} (cfg : LossConfig n) (h : ForceHist N n T) : Py ℝ := do
  let bc0 ← orRaise ((List.ofFn h.bc).head?) .indexError
  let l ← (List.finRange T).mapM fun t => vLoss cfg (h.internal t) (h.external t) (h.reaction t) bc0
  pure ((List.zipWith (· * ·) (List.ofFn h.weights) l).sum)

/-- Loss of the sequential modes, material_discovery.py:925-1000 and 1130-1160, for given forces:
`force_equilibrium_loss` whatever the loss type, with the flags of the mesh. -/
def seqHistLoss {N n T : ℕ} (cfg : LossConfig n) (h : ForceHist N n T) (flags : NodeMat N n ℤ) : ℝ :=
  (List.finRange T).foldl (fun acc t =>
    acc + h.weights t * loopLoss cfg (h.internal t) (h.external t) (h.reaction t) flags) 0

/-- `forward` (material_discovery.py:881-885). -/
def scaledLoss (factor : Option ℝ) (loss : ℝ) : ℝ := match factor with
  | none => loss
  | some f => f * loss

/-- Components stored for one time (material_discovery.py:2884-2991): total, and free and set parts for
the Dirichlet sets loss. -/
def lossComponents {N n : ℕ} (ty : LossType) (Fi Fe R : NodeMat N n ℝ) (bc : NodeMat N n ℤ) : Py (List ℝ) :=
  match ty with
  | .pointwise => .ok [pointwiseLoss Fi Fe R bc]
  | .dirichletSets =>
    if uniqueLabels bc = [] then .error .indexError
    else .ok [freeLoss Fi Fe R bc + setsLoss Fi Fe R bc, freeLoss Fi Fe R bc, setsLoss Fi Fe R bc]

/-- `force_equilibrium_loss_components_hist`, material_discovery.py:2822-3005.  With normalisation the
scaler is applied to the histories of shape `(n_node_mesh, n_dim, n_time)`, which it rejects unless
`n_time` is its number of features; the results are overwritten in the loop (2864-2892), so they do not
enter the components. -/
def componentsHist {N n T : ℕ} (cfg : LossConfig n) (factor : Option ℝ) (h : ForceHist N n T) :
    Py (List (List ℝ)) := do
  raiseIf (cfg.scaler.isSome = true ∧ T ≠ n) .runtimeError
  (List.finRange T).mapM fun t => do
    let c ← lossComponents cfg.lossType (h.internal t) (h.external t) (h.reaction t) (h.bc t)
    pure (c.map fun x => scaledLoss factor (h.weights t * x))

/-- `compute_dirichlet_sets_reaction`, material_discovery.py:3202-3260: one entry for each label. -/
def setsReaction {N n : ℕ} (Fi Fe : NodeMat N n ℝ) (bc : NodeMat N n ℤ) : List ℝ :=
  (List.range (uniqueLabels bc).length).map fun s => ∑ i, ∑ j, (Fi i j - Fe i j) * oneHot bc i j s

/-- `check_dirichlet_bc_mesh_hist`, specimen_data.py:318-371, for the labels of a history. -/
def checkDirichletBc {N n T : ℕ} (ty : LossType) (bc : Fin T → NodeMat N n ℤ) : Py Unit :=
  match ty with
  | .pointwise => raiseIf (¬ ∀ t i j, bc t i j = 0 ∨ bc t i j = 1) .runtimeError
  | .dirichletSets => do
    raiseIf (¬ ∀ t i j, 0 ≤ bc t i j) .runtimeError
    raiseIf (∃ t i j, 0 < bc t i j ∧
      1 < (Finset.univ.filter fun k : Fin n => ∃ t' i', bc t' i' k = bc t i j).card) .runtimeError

end Hooke
