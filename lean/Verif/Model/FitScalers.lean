import Verif.Model.Scalers
import Mathlib.Algebra.BigOperators.Group.List.Basic

/-!
# Fitting data scalers sample by sample (`src/hookeai/utilities/fit_data_scalers.py`)

`sklearn.preprocessing.StandardScaler` and `MinMaxScaler` are third-party; their `partial_fit` is
modelled from its published algorithm (`sklearn.utils.extmath._incremental_mean_and_var`, Chan et
al.; running minimum/maximum).  Data are finite.
-/

namespace Hooke

noncomputable section

/-- One feature of a sample of a time series data set. `time_collator` (time_dataset.py 57-91) only
keeps two-dimensional tensors (`sequence_length` rows of `n` features). -/
inductive SampleVal
  | tensor2d (n : ℕ) (rows : List (Fin n → ℝ))
  | other

/-- A sample: features by label. -/
abbrev FitSample := String → Option SampleVal

/-- What the data loader (batch size one, not shuffled) yields for a feature: the two-dimensional
tensor with a batch dimension of one, dropped again by `features_tensor[:, 0, :]`
(fit_data_scalers.py 135-164, 220-249, time_dataset.py 57-122). -/
def loadedRows (n : ℕ) (ft : String) (s : FitSample) : Py (List (Fin n → ℝ)) :=
  match s ft with
  | none => .error .runtimeError
  | some .other => .error .runtimeError
  | some (.tensor2d k rows) => if h : k = n then .ok (h ▸ rows) else .error .runtimeError

/-- `n_samples_seen_`, `mean_`, `var_` of sklearn's `StandardScaler`. -/
structure SkStandard (n : ℕ) where
  count : ℕ
  mean : Fin n → ℝ
  var : Fin n → ℝ

/-- Sum of feature `j` over rows. -/
def rowSum {n : ℕ} (rows : List (Fin n → ℝ)) (f : ℝ → ℝ) (j : Fin n) : ℝ :=
  (rows.map fun r => f (r j)).sum

/-- `_incremental_mean_and_var` of sklearn, on one feature. -/
def incrementalMeanVar (count : ℕ) (mean var : ℝ) (newCount : ℕ) (xs : List ℝ) : ℝ × ℝ :=
  let lastSum := mean * count
  let newSum := xs.sum
  let updatedCount : ℝ := count + newCount
  let updatedMean := (lastSum + newSum) / updatedCount
  let T := newSum / newCount
  let correction := (xs.map fun x => x - T).sum
  let newUnnorm := (xs.map fun x => (x - T) ^ 2).sum - correction ^ 2 / newCount
  let lastUnnorm := var * count
  let lastOverNew : ℝ := count / newCount
  let updated :=
    if count = 0 then newUnnorm
    else lastUnnorm + newUnnorm + lastOverNew / updatedCount * (lastSum / lastOverNew - newSum) ^ 2
  (updatedMean, updated / updatedCount)

/-- `StandardScaler.partial_fit` of sklearn: no rows raise ValueError. -/
def SkStandard.partialFit {n : ℕ} (s : SkStandard n) (rows : List (Fin n → ℝ)) :
    Py (SkStandard n) := do
  raiseIf (rows.length = 0) .valueError
  pure { count := s.count + rows.length
         mean := fun j => (incrementalMeanVar s.count (s.mean j) (s.var j) rows.length
           (rows.map fun r => r j)).1
         var := fun j => (incrementalMeanVar s.count (s.mean j) (s.var j) rows.length
           (rows.map fun r => r j)).2 }

/-- Body of the loop over the samples, fit_data_scalers.py 138-166. -/
def meanStdStep {n : ℕ} (ft : String) (s : SkStandard n) (sample : FitSample) :
    Py (SkStandard n) := do
  let rows ← loadedRows n ft sample
  s.partialFit rows

/-- `mean_std_batch_fit` (fit_data_scalers.py 100-188): mean and standard deviation. Without any
sample `mean_` does not exist (AttributeError). -/
def meanStdBatchFit (dataset : List FitSample) (ft : String) (n : ℕ) :
    Py ((Fin n → ℝ) × (Fin n → ℝ)) := do
  let s ← dataset.foldlM (meanStdStep ft) (⟨0, fun _ => 0, fun _ => 0⟩ : SkStandard n)
  raiseIf (dataset.length = 0) .attributeError
  pure (s.mean, fun j => √(s.var j))

/-- `data_min_` and `data_max_` of sklearn's `MinMaxScaler` (`none` before the first pass). -/
abbrev SkMinMax (n : ℕ) := Option ((Fin n → ℝ) × (Fin n → ℝ))

/-- Smallest and largest element of a nonempty list. -/
def listMin : List ℝ → ℝ
  | [] => 0
  | a :: l => l.foldl min a
/-- Largest element of a nonempty list. -/
def listMax : List ℝ → ℝ
  | [] => 0
  | a :: l => l.foldl max a

/-- Minimum and maximum of every feature of a batch. -/
def batchRange {n : ℕ} (rows : List (Fin n → ℝ)) : (Fin n → ℝ) × (Fin n → ℝ) :=
  (fun j => listMin (rows.map fun r => r j), fun j => listMax (rows.map fun r => r j))

/-- `MinMaxScaler.partial_fit` of sklearn. -/
def SkMinMax.partialFit {n : ℕ} (s : SkMinMax n) (rows : List (Fin n → ℝ)) : Py (SkMinMax n) := do
  raiseIf (rows.length = 0) .valueError
  match s with
  | none => pure (some (batchRange rows))
  | some (lo, hi) =>
    pure (some (fun j => min (lo j) ((batchRange rows).1 j),
      fun j => max (hi j) ((batchRange rows).2 j)))

/-- Body of the loop over the samples, fit_data_scalers.py 223-251. -/
def minMaxStep {n : ℕ} (ft : String) (s : SkMinMax n) (sample : FitSample) : Py (SkMinMax n) := do
  let rows ← loadedRows n ft sample
  SkMinMax.partialFit s rows

/-- `min_max_batch_fit` (fit_data_scalers.py 190-270): minimum and maximum. -/
def minMaxBatchFit (dataset : List FitSample) (ft : String) (n : ℕ) :
    Py ((Fin n → ℝ) × (Fin n → ℝ)) := do
  let s ← dataset.foldlM (minMaxStep ft) (none : SkMinMax n)
  orRaise s .attributeError

/-- A fitted scaler. -/
inductive AnyScaler (n : ℕ)
  | standard (s : StandardScaler n)
  | minMax (s : MinMaxScaler n)

/-- `fit_data_scaler_from_dataset` (fit_data_scalers.py 31-98) with the default scaling parameters
or a normalisation range for `min-max` (`scaling_parameters`).  The `mean`/`std` or
`minimum`/`maximum` entries of `scaling_parameters` are overwritten by the fit. -/
def fitDataScaler (dataset : List FitSample) (ft : String) (n : ℕ) (scalingType : String)
    (normRange : ℝ × ℝ) : Py (AnyScaler n) := do
  raiseIf (¬ (scalingType = "mean-std" ∨ scalingType = "min-max")) .runtimeError
  raiseIf (n = 0) .runtimeError
  if scalingType = "mean-std" then do
    let (mean, std) ← meanStdBatchFit dataset ft n
    pure (.standard ⟨some fun j => .fin (mean j), some fun j => .fin (std j)⟩)
  else do
    let (lo, hi) ← minMaxBatchFit dataset ft n
    pure (.minMax ⟨some fun j => .fin (lo j), some fun j => .fin (hi j), normRange.1, normRange.2⟩)

end

end Hooke
