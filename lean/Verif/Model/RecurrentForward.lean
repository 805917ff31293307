import Verif.Model.FinderForward
import Verif.Model.Tensorops

/-!
# Forward propagation of the recurrent constitutive model and generation of response data sets

Models `RecurrentConstitutiveModel.forward` of
`model_architectures/rc_base_model/model/recurrent_model.py` (loops and vectorised) and
`MaterialResponseDatasetGenerator` of `user_scripts/synthetic_data/gen_response_dataset.py`.

Devices, gradients, progress bars, plots, files and the `nan` checks are left out.  The
synchronisation of the learnable parameters is modelled in `Model/LearnableParameters`; here the
constitutive model is given with its parameters set.
-/

noncomputable section

namespace Hooke

/-- A constitutive model with its parameters: `state_init`, `material_state_update`
(`fetorch/material/material_su.py:22-113`, for infinitesimal strains; the consistent tangent is
discarded by the callers) and the entries `stress_mf`, `is_su_fail` and any others of its state.
Entries are of rank zero or one. -/
structure RcModel (n : ℕ) (σ : Type) where
  init : σ
  update : T2 n → σ → Py σ
  stressMf : σ → Tensor
  suFail : σ → Bool
  var : String → σ → Option Tensor

/-- Attributes of a `RecurrentConstitutiveModel` used by `forward`: strain formulation, component
order, `_state_features_out` (insertion order), `_n_features_out` and `_is_check_su_fail`. -/
structure RcNet (n : ℕ) (σ : Type) where
  sf : StrainFormulation
  co : List Comp
  features : List (String × ℕ)
  nOut : ℕ
  check : Bool
  model : RcModel n σ

/-- `'strain_mf' in state_var`. -/
def isStrainVar (name : String) : Bool := decide ("strain_mf".toList <:+: name.toList)

/-- Entries of a tensor of rank zero or one. -/
def Tensor.entries (v : Tensor) : List ℝ := match v.shape with
  | [] => [v.val []]
  | k :: _ => (List.range k).map fun i => v.val [i]

/-- `row[:] = v` for a row of `k` entries: equal length, or broadcasting of one value. -/
def assignRow (e : PyErr) (k : ℕ) (v : List ℝ) : Py (List ℝ) :=
  if v.length = k then .ok v else if v.length = 1 then .ok (List.replicate k (v.getD 0 0))
  else .error e

/-- `strain_tensor - strain_tensor_old`, recurrent_model.py:1106-1116 and 1459-1469. -/
def rcIncrement (n : ℕ) (co : List Comp) (old new : List ℝ) : Py (T2 n) := do
  let a ← vbuildTensorFromComps n co old
  let b ← vbuildTensorFromComps n co new
  return fun i j => b.val [i, j] - a.val [i, j]

section
variable {n : ℕ} {σ : Type}

/-! ### Loops -/

/-- Entries of a state variable in the output at one time, recurrent_model.py:1149-1170 (those of
variables that are not in the state stay zero). -/
def rcFeature (R : RcNet n σ) (s : σ) (f : String × ℕ) : Py (List ℝ) :=
  match R.model.var f.1 s with
  | none => .ok (List.replicate f.2 0)
  | some v =>
    if isStrainVar f.1 then do
      let t ← vgetTensorFromMf v n R.co
      assignRow .runtimeError f.2 (vstoreTensorComps R.co t)
    else assignRow .runtimeError f.2 v.entries

/-- Body of the time loop, recurrent_model.py:1104-1170: the new state, and the row of the response
at this time. -/
def rcStep (R : RcNet n σ) (acc : σ × List (List ℝ)) (ab : List ℝ × List ℝ) :
    Py (σ × List (List ℝ)) := do
  let inc ← rcIncrement n R.co ab.1 ab.2
  let s ← R.model.update inc acc.1
  raiseIf (R.check ∧ R.model.suFail s) .runtimeError
  let stress ← vgetTensorFromMf (R.model.stressMf s) n R.co
  let feats ← R.features.mapM (rcFeature R s)
  return (s, acc.2 ++ [vstoreTensorComps R.co stress ++ feats.flatten])

/-- Number of columns of the response. -/
def RcNet.width (R : RcNet n σ) : ℕ := R.co.length + (R.features.map fun f => f.2).sum

/-- `_compute_stress_path`, recurrent_model.py:1061-1172, with the concatenation of lines 1040-1043:
the rows of the response.  The rows are zeros before the loop; row `t` is written in iteration `t`. -/
def rcPath (R : RcNet n σ) (sp : List (List ℝ)) : Py (List (List ℝ)) := do
  raiseIf (R.sf ≠ .infinitesimal) .runtimeError
  let r ← (sp.zip sp.tail).foldlM (rcStep R)
    (R.model.init, if sp = [] then [] else [List.replicate R.width 0])
  return r.2

/-- Path `i` of a batch of shape (n_time, n_path, n_features). -/
def batchPath (x : Tensor) (i : ℕ) : List (List ℝ) :=
  (List.range (x.shape.getD 0 0)).map fun t =>
    (List.range (x.shape.getD 2 0)).map fun k => x.val [t, i, k]

/-- The rows of a matrix. -/
def matrixRows (x : Tensor) : List (List ℝ) :=
  (List.range (x.shape.getD 0 0)).map fun t =>
    (List.range (x.shape.getD 1 0)).map fun k => x.val [t, k]

/-- Response of one path with the check of the number of features, recurrent_model.py:1021-1050. -/
def rcResponse (R : RcNet n σ) (sp : List (List ℝ)) : Py (List (List ℝ)) := do
  let r ← rcPath R sp
  raiseIf (R.width ≠ R.nOut) .runtimeError
  return r

/-- `forward` for models that are not vectorised: `_recurrent_constitutive_model`,
recurrent_model.py:937-1059. -/
def rcForward (R : RcNet n σ) (x : Tensor) : Py Tensor :=
  match x.shape with
  | [T, P, _] => do
    let r ← (List.range P).mapM fun i => rcResponse R (batchPath x i)
    return ⟨[T, P, R.nOut], fun idx =>
      ((r.getD (idx.getD 1 0) []).getD (idx.getD 0 0) []).getD (idx.getD 2 0) 0⟩
  | [T, _] => do
    let r ← rcResponse R (matrixRows x)
    return ⟨[T, R.nOut], fun idx => (r.getD (idx.getD 0 0) []).getD (idx.getD 1 0) 0⟩
  | _ => .error .runtimeError

/-! ### Vectorised -/

/-- One element of `state_var_features`, recurrent_model.py:1505-1529: nothing if the variable is not
in the state; the flag says that the tensor is of rank one (the strain variables) and not of
rank two. -/
def vrcFeature (R : RcNet n σ) (s : σ) (f : String × ℕ) : Py (Option (Bool × List ℝ)) :=
  match R.model.var f.1 s with
  | none => .ok none
  | some v =>
    if isStrainVar f.1 then do
      let t ← vgetTensorFromMf v n R.co
      return some (true, vstoreTensorComps R.co t)
    else do
      raiseIf (v.entries.length ≠ f.2) .runtimeError
      return some (false, v.entries)

/-- `torch.cat(state_var_features, dim=1)`, recurrent_model.py:1532: raises without tensors and if a
tensor has one dimension only. -/
def vrcCat (l : List (Bool × List ℝ)) : Py (List ℝ) := match l with
  | [] => .error .runtimeError
  | (true, _) :: _ => .error .indexError
  | (false, v) :: rest =>
    if rest.any fun x => x.1 then .error .runtimeError
    else .ok (v ++ (rest.map fun x => x.2).flatten)

/-- `state_comps` at one time, recurrent_model.py:1503-1534. -/
def vrcStates (R : RcNet n σ) (s : σ) : Py (List ℝ) := do
  let l ← R.features.mapM (vrcFeature R s)
  vrcCat (l.filterMap id)

/-- Body of the time loop, recurrent_model.py:1457-1534: state, stress rows, state rows. -/
def vrcStep (R : RcNet n σ) (acc : σ × List (List ℝ) × List (List ℝ))
    (ab : List ℝ × List ℝ) : Py (σ × List (List ℝ) × List (List ℝ)) := do
  let inc ← rcIncrement n R.co ab.1 ab.2
  let s ← R.model.update inc acc.1
  raiseIf (R.check ∧ R.model.suFail s) .runtimeError
  let stress ← vgetTensorFromMf (R.model.stressMf s) n R.co
  let st ← if R.features = [] then .ok acc.2.2 else (vrcStates R s).map fun r => acc.2.2 ++ [r]
  return (s, acc.2.1 ++ [vstoreTensorComps R.co stress], st)

/-- `_vcompute_stress_path`, recurrent_model.py:1394-1543, and the concatenation of lines 1376-1379:
the rows of the response.  `torch.cat` of the state rows (line 1541) needs rows of equal length, that
of stresses and states (line 1379) as many rows of each. -/
def vrcPath (R : RcNet n σ) (sp : List (List ℝ)) : Py (List (List ℝ)) := do
  raiseIf (R.sf ≠ .infinitesimal) .runtimeError
  let k := (R.features.map fun f => f.2).sum
  let r ← (sp.zip sp.tail).foldlM (vrcStep R)
    (R.model.init, [List.replicate R.co.length 0],
      if R.features = [] then [] else [List.replicate k 0])
  let states := if R.features = [] then List.replicate sp.length [] else r.2.2
  raiseIf (∃ row ∈ states, row.length ≠ k) .runtimeError
  raiseIf (states.length ≠ r.2.1.length) .runtimeError
  return List.zipWith (· ++ ·) r.2.1 states

/-- One path of the vectorised forward propagation with the check of lines 1382-1386. -/
def vrcResponse (R : RcNet n σ) (sp : List (List ℝ)) : Py (List (List ℝ)) := do
  let r ← vrcPath R sp
  raiseIf (R.width ≠ R.nOut) .runtimeError
  return r

/-- `forward` for vectorised models: `_vrecurrent_constitutive_model`, recurrent_model.py:1329-1392.
`torch.vmap` over the paths is the same computation for each of at least one path; tensors that are
not of rank two or three are not modelled. -/
def vrcForward (R : RcNet n σ) (x : Tensor) : Py Tensor :=
  match x.shape with
  | [_, P, _] => do
    let r ← (List.range P).mapM fun i => vrcResponse R (batchPath x i)
    return ⟨[(r.getD 0 []).length, P, R.nOut], fun idx =>
      ((r.getD (idx.getD 1 0) []).getD (idx.getD 0 0) []).getD (idx.getD 2 0) 0⟩
  | [_, _] => do
    let r ← vrcResponse R (matrixRows x)
    return ⟨[r.length, R.nOut], fun idx => (r.getD (idx.getD 0 0) []).getD (idx.getD 1 0) 0⟩
  | _ => .error .runtimeError

/-! ### Response data sets -/

/-- `build_tensor_from_comps(..., is_symmetric=True)`, gen_response_dataset.py:512-547. -/
def npBuildTensor (n : ℕ) (co : List Comp) (v : List ℝ) : Py Tensor :=
  co.zipIdx.foldlM (fun t ck => do
      let x ← orRaise v[ck.2]? .indexError
      raiseIf (n ≤ ck.1.i ∨ n ≤ ck.1.j) .indexError
      return if ck.1.i = ck.1.j then t.set [ck.1.i, ck.1.j] x
        else (t.set [ck.1.i, ck.1.j] x).set [ck.1.j, ck.1.i] x)
    (Tensor.zeros [n, n])

/-- Increment of the strain, gen_response_dataset.py:439-455. -/
def genIncrement (n : ℕ) (co : List Comp) (sp : List (List ℝ)) (t : ℕ) : Py (T2 n) := do
  let old ← orRaise sp[t - 1]? .indexError
  let a ← npBuildTensor n co old
  let new ← orRaise sp[t]? .indexError
  let b ← npBuildTensor n co new
  return fun i j => b.val [i, j] - a.val [i, j]

/-- Update of the path of one state variable, gen_response_dataset.py:486-508.  A variable that is not
in the state is removed (`none`). -/
def genFeature (n : ℕ) (co : List Comp) (M : RcModel n σ) (s : σ)
    (f : (String × ℕ) × Option (List (List ℝ))) : Py ((String × ℕ) × Option (List (List ℝ))) :=
  match M.var f.1.1 s, f.2 with
  | none, _ => .ok (f.1, none)
  | some _, none => .error .keyError
  | some v, some rows =>
    if isStrainVar f.1.1 then do
      let t ← getTensorFromMf v n co
      let r ← assignRow .valueError f.1.2 (storeTensorComps co t)
      return (f.1, some (rows ++ [r]))
    else do
      let r ← assignRow .valueError f.1.2 v.entries
      return (f.1, some (rows ++ [r]))

/-- Variables of the time loop of `compute_stress_path`. -/
structure GenAcc (σ : Type) where
  state : σ
  stress : List (List ℝ)
  feats : List ((String × ℕ) × Option (List (List ℝ)))
  fail : Bool

/-- Body of the time loop of `compute_stress_path`, gen_response_dataset.py:434-508; nothing is done
after the `break` of line 468. -/
def genStep (n : ℕ) (co : List Comp) (M : RcModel n σ) (sp : List (List ℝ)) (acc : GenAcc σ)
    (t : ℕ) : Py (GenAcc σ) :=
  if acc.fail then .ok acc else do
    let inc ← genIncrement n co sp t
    let s ← M.update inc acc.state
    if M.suFail s then return { acc with fail := true }
    else do
      let stress ← getTensorFromMf (M.stressMf s) n co
      let feats ← acc.feats.mapM (genFeature n co M s)
      return ⟨s, acc.stress ++ [storeTensorComps co stress], feats, false⟩

/-- Rows not written stay zero. -/
def padRows (T k : ℕ) (rows : List (List ℝ)) : List (List ℝ) :=
  rows ++ List.replicate (T - rows.length) (List.replicate k 0)

/-- A response path: strains, stresses and the paths of the state variables. -/
structure ResponsePath where
  strain : List (List ℝ)
  stress : List (List ℝ)
  states : List (String × List (List ℝ))

/-- `compute_stress_path`, gen_response_dataset.py:372-510, for infinitesimal strains, with
`time_hist` of length `T`: the response and whether a state update failed. -/
def genStressPath (n : ℕ) (co : List Comp) (M : RcModel n σ) (features : List (String × ℕ)) (T : ℕ)
    (sp : List (List ℝ)) : Py (ResponsePath × Bool) := do
  let a ← (List.range' 1 (T - 1)).foldlM (genStep n co M sp)
    ⟨M.init, if T = 0 then [] else [List.replicate co.length 0],
      features.map fun f => (f, some (if T = 0 then [] else [List.replicate f.2 0])), false⟩
  return (⟨sp, padRows T co.length a.stress, a.feats.filterMap fun f =>
    f.2.map fun rows => (f.1.1, padRows T f.1.2 rows)⟩, a.fail)

/-- The `while` loop of one sample, gen_response_dataset.py:271-300: `draws j` is the strain path (as
many times as rows) of call `j` of the strain path generator.  The first argument is the number of
trials that may still fail; in the last trial (number 11) the error is raised whatever the
outcome. -/
def genSample (n : ℕ) (co : List Comp) (M : RcModel n σ) (features : List (String × ℕ))
    (draws : ℕ → List (List ℝ)) : ℕ → ℕ → Py (ResponsePath × ℕ)
  | 0, j => do
    let _ ← genStressPath n co M features (draws j).length (draws j)
    .error .runtimeError
  | k + 1, j => do
    let r ← genStressPath n co M features (draws j).length (draws j)
    if r.2 then genSample n co M features draws k (j + 1) else .ok (r.1, j + 1)

/-- `generate_response_dataset`, gen_response_dataset.py:156-370, for a known model: the samples in
order.  The average time of line 362 divides by the number of paths. -/
def generateResponseDataset (n : ℕ) (co : List Comp) (M : RcModel n σ) (features : List (String × ℕ))
    (draws : ℕ → List (List ℝ)) (nPath : ℕ) : Py (List ResponsePath) := do
  let r ← (List.range nPath).foldlM (fun (acc : List ResponsePath × ℕ) _ => do
      let s ← genSample n co M features draws 10 acc.2
      return (acc.1 ++ [s.1], s.2))
    ([], 0)
  raiseIf (nPath = 0) .zeroDivision
  return r.1

end

end Hooke
