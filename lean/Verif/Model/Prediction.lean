import Verif.Model.Gru
import Verif.Model.TimeSeriesBatch
import Verif.Model.Float

/-!
# Prediction with a recurrent model

Models `src/hookeai/model_architectures/rnn_base_model/predict/prediction.py`, the data
loader of `src/hookeai/time_series_data/time_dataset.py` (lines 93-122), and
`data_scaler_transform` of
`src/hookeai/model_architectures/procedures/model_data_scaling.py` (lines 188-273, 305-318).

The model is the `GRURNNModel` of `Verif.Model.Gru`, already loaded.  Messages, times,
devices and the directory of the results are left out: the results are the list of the
dictionaries written to `prediction_sample_0.pkl`, `prediction_sample_1.pkl`, ...
-/

namespace Hooke

noncomputable section

/-- A fitted scaler, as far as `data_scaler_transform` uses it: it acts on each feature
separately (see C38). -/
structure FeatScaler where
  nFeatures : ℕ
  fwd : ℕ → ℝ → ℝ
  inv : ℕ → ℝ → ℝ

/-- `model._data_scalers`. -/
structure ScalerPair where
  featuresIn : Option FeatScaler
  featuresOut : Option FeatScaler

/-- `data_scaler_transform(model, tensor, features_type, mode)` for the scaler stored for the
features type (model_data_scaling.py:188-273, 305-318): `RuntimeError` if no scaler is
fitted or the shape is not accepted by the scaler. -/
def dataScalerTransform (s : ScalerPair) (sc : Option FeatScaler) (normalize : Bool) (t : Tensor) :
    Py Tensor := do
  raiseIf (s.featuresIn.isNone ∧ s.featuresOut.isNone) .runtimeError
  let sc ← orRaise sc .runtimeError
  raiseIf (¬ ((t.shape.length = 2 ∨ t.shape.length = 3) ∧ t.shape.getLast? = some sc.nFeatures))
    .runtimeError
  .ok ⟨t.shape, fun idx =>
    (if normalize then sc.fwd else sc.inv) (idx.getLastD 0) (t.val idx)⟩

/-- Names of the arguments of `torch.utils.data.DataLoader`. -/
def dataLoaderArgs : List String :=
  ["dataset", "batch_size", "shuffle", "sampler", "batch_sampler", "num_workers", "collate_fn",
   "pin_memory", "drop_last", "timeout", "worker_init_fn", "multiprocessing_context",
   "generator", "prefetch_factor", "persistent_workers", "pin_memory_device", "in_order"]

/-- `get_time_series_data_loader(dataset, batch_size, **kwargs)` (time_dataset.py:93-122) without
shuffling; `kwargs` are the names of the further arguments.  The samples are served in their
order, `batch_size` at a time, the last batch may be smaller. -/
def timeSeriesLoader {α : Type} (dataset : List α) (batchSize : ℤ) (kwargs : List String) :
    Py (List (List α)) := do
  raiseIf (∃ k ∈ kwargs, k ∉ dataLoaderArgs) .typeError
  raiseIf (batchSize ≤ 0) .valueError
  let n := batchSize.toNat
  .ok ((List.range ((dataset.length + n - 1) / n)).map fun k => (dataset.drop (k * n)).take n)

/-- Arguments of `predict` and the loaded model. -/
structure PredCfg where
  model : GruModel
  scalers : ScalerPair
  inNormalized : Bool
  outNormalized : Bool
  lossNature : String := "features_out"
  /-- the loss of the list of pairs (prediction, target) of a sample -/
  lossFn : List (ℝ × ℝ) → ℝ
  normalizedLoss : Bool := false
  batchSize : ℤ := 1
  seed : Option ℤ := none

/-- `t[:, j, :]`. -/
def sliceSample (t : Tensor) (j : ℕ) : Py Tensor :=
  match t.shape with
  | [n, b, c] => if j < b then .ok ⟨[n, c], fun idx => t.val (idx.insertIdx 1 j)⟩
    else .error .indexError
  | _ => .error .indexError

/-- Transformation or identity. -/
def transformIf (b : Bool) (s : ScalerPair) (sc : Option FeatScaler) (normalize : Bool)
    (t : Tensor) : Py Tensor :=
  if b then dataScalerTransform s sc normalize t else .ok t

/-- Predictions and targets of the samples of one batch (prediction.py:200-250). -/
def predictBatch (c : PredCfg) (batch : PyDict Tensor) : Py (List (Tensor × Tensor)) := do
  let fin ← orRaise (batch.get? "features_in") .keyError
  let x ← transformIf c.inNormalized c.scalers c.scalers.featuresIn true fin
  let targets ← orRaise (batch.get? "features_out") .keyError
  let n ← orRaise fin.shape[1]? .indexError
  raiseIf (c.lossNature ≠ "features_out") .runtimeError
  let out ← c.model.forward x (batch.get? "hidden_features_in")
  let out ← transformIf c.outNormalized c.scalers c.scalers.featuresOut false out.1
  (List.range n).mapM fun j => do
    let o ← sliceSample out j
    let t ← sliceSample targets j
    .ok (o, t)

/-- The pairs of corresponding entries of two tensors of shape `(T, n)`.  Tensors of different
shapes, which PyTorch broadcasts or rejects, are rejected. -/
def entryPairs (a b : Tensor) : Py (List (ℝ × ℝ)) :=
  match a.shape with
  | [n, c] =>
    if b.shape = [n, c] then
      .ok ((List.range n).flatMap fun t => (List.range c).map fun g =>
        (a.val [t, g], b.val [t, g]))
    else .error .runtimeError
  | _ => .error .runtimeError

/-- `compute_sample_prediction_loss` (prediction.py:320-371) with targets. -/
def sampleLoss (c : PredCfg) (out targets : Tensor) : Py ℝ := do
  let o ← transformIf c.normalizedLoss c.scalers c.scalers.featuresOut true out
  let t ← transformIf c.normalizedLoss c.scalers c.scalers.featuresOut true targets
  let l ← entryPairs o t
  .ok (c.lossFn l)

/-- The dictionary saved for a sample: `features_out`, `targets` and the loss. -/
structure SamplePrediction where
  out : Tensor
  targets : Tensor
  loss : ℝ

/-- Body of the loop over the batches (prediction.py:192-274). -/
def predictStep (c : PredCfg) (acc : List SamplePrediction) (samples : List (PyDict FeatVal)) :
    Py (List SamplePrediction) := do
  let batch ← timeCollator samples
  let outs ← predictBatch c batch
  let res ← outs.mapM fun p => (sampleLoss c p.1 p.2).map fun l => SamplePrediction.mk p.1 p.2 l
  .ok (acc ++ res)

/-- `predict` (prediction.py:42-318): the saved results by sample and the average loss.  With a
seed, the data loader is asked for with the argument `kwargs` (lines 170-173). -/
def predict (c : PredCfg) (dataset : List (PyDict FeatVal)) :
    Py (List SamplePrediction × Option Fl) := do
  let batches ← timeSeriesLoader dataset c.batchSize (if c.seed.isSome then ["kwargs"] else [])
  let res ← batches.foldlM (predictStep c) []
  .ok (res, if res.length = dataset.length then some (Fl.mean (res.map fun r => .fin r.loss))
    else none)

/-- The truth value of the average loss, which decides whether it is reported
(`f'{avg_predict_loss:.8e}' if avg_predict_loss else None`,
`src/hookeai/model_architectures/procedures/model_prediction.py:170-171`, and
prediction.py:286). -/
def isLossReported (avg : Option Fl) : Prop :=
  match avg with
  | none => False
  | some v => v ≠ .fin 0

end

end Hooke
