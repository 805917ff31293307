import Verif.Model.PyDict
import Mathlib.Analysis.Real.Sqrt
import Mathlib.Algebra.BigOperators.Group.List.Basic

/-!
# Batches of time series and prediction metrics

`time_series_data/time_dataset.py` (`time_collator`) and `utilities/prediction_metrics.py`.
-/

namespace Hooke

noncomputable section

/-- A value stored in a sample of a time series data set: a tensor or anything else. -/
inductive FeatVal
  | tensor (t : Tensor)
  | other

/-- The feature is batched: `isinstance(v, torch.Tensor) and len(v.shape) == 2`
(`time_series_data/time_dataset.py:84-85`). -/
def FeatVal.isBatchable : FeatVal → Bool
  | .tensor t => t.shape.length = 2
  | .other => false

/-- `x[feature]` as an element of the list given to `torch.stack`, which takes tensors only. -/
def stackItem (x : PyDict FeatVal) (feature : String) : Py Tensor := do
  let v ← orRaise (x.get? feature) .keyError
  match v with
  | .tensor t => .ok t
  | .other => .error .typeError

/-- `torch.stack(ts, 1)` of tensors that must all have the same shape. -/
def stack1 (ts : List Tensor) : Py Tensor :=
  match ts with
  | [] => .error .runtimeError
  | t :: rest =>
    if ∀ u ∈ rest, u.shape = t.shape then
      .ok ⟨t.shape.insertIdx 1 (rest.length + 1), fun idx =>
        ((t :: rest)[idx.getD 1 0]?.getD t).val (idx.eraseIdx 1)⟩
    else .error .runtimeError

/-- `time_collator(batch_data)` (`time_series_data/time_dataset.py:57-91`). -/
def timeCollator (batch : List (PyDict FeatVal)) : Py (PyDict Tensor) := do
  let first ← orRaise batch[0]? .indexError
  first.foldlM (fun out item =>
    if item.2.isBatchable then do
      let ts ← batch.mapM fun x => stackItem x item.1
      let t ← stack1 ts
      .ok (out.put item.1 t)
    else .ok out) []

/-! ### Prediction metrics -/

/-- A tensor of shape `(sequence_length, n_features)`. -/
structure SeqTensor where
  len : ℕ
  nFeat : ℕ
  val : ℕ → ℕ → ℝ

/-- The loaded sample prediction results: `features_out` and `targets` (absent or `None` when the
ground truth is not available).  The checks of `get_sample_n_features`
(`utilities/prediction_metrics.py:123-133`) on the type of the loaded object are not modelled. -/
structure SampleResults where
  featuresOut : SeqTensor
  targets : Option SeqTensor

/-- `t[:, j]`. -/
def SeqTensor.column (t : SeqTensor) (j : ℕ) : Py (List ℝ) := do
  raiseIf (t.nFeat ≤ j) .indexError
  .ok ((List.range t.len).map fun i => t.val i j)

/-- `get_feature_data(sample_results, feature_idx, is_ground_truth=True)`
(`utilities/prediction_metrics.py:142-182`). -/
def getFeatureData (r : SampleResults) (j : ℕ) : Py (List ℝ × List ℝ) := do
  let f ← r.featuresOut.column j
  let t ← orRaise r.targets .runtimeError
  let g ← t.column j
  .ok (f, g)

/-- `torch.mean` of a one-dimensional tensor (not empty). -/
def meanR (l : List ℝ) : ℝ := l.sum / l.length

/-- `feature_out - target` for tensors of the same length; other lengths raise (broadcasting of a
series of length one is not modelled). -/
def subSeries (a b : List ℝ) : Py (List ℝ) := do
  raiseIf (a.length ≠ b.length) .runtimeError
  .ok (List.zipWith (fun x y => x - y) a b)

/-- The value of one metric for one feature (`utilities/prediction_metrics.py:65-100`). -/
def featureMetric (label : String) (r : SampleResults) (j : ℕ) : Py ℝ := do
  let d ← getFeatureData r j
  if label = "mse" then do
    let e ← subSeries d.1 d.2
    .ok (meanR (e.map fun x => x ^ 2))
  else if label = "rmse" then do
    let e ← subSeries d.1 d.2
    .ok (√(meanR (e.map fun x => x ^ 2)))
  else if label = "mav_gt" then .ok (meanR (d.2.map fun x => |x|))
  else .ok (meanR (d.1.map fun x => |x|))

/-- `compute_prediction_metrics(sample_prediction_path, prediction_metrics)`
(`utilities/prediction_metrics.py:29-105`) for the results loaded from the file. -/
def predictionMetrics (r : SampleResults) (labels : List String) : Py (PyDict (List ℝ)) :=
  labels.foldlM (fun out label => do
    raiseIf (label ∉ ["mse", "rmse", "mav", "mav_gt"]) .runtimeError
    let vals ← (List.range r.featuresOut.nFeat).mapM fun j => featureMetric label r j
    .ok (out.put label vals)) []

end

end Hooke
