import Verif.Model.ConvergenceData

/-!
# Uncertainty quantification: training, prediction and time series of the realizations

Model of `perform_model_uq` and `plot_time_series_uq`
(`user_scripts/local_model_update/rc_material_model/uncertainty_quantification.py`; the scripts of the
recurrent and of the hybrid models have the same functions), and of `kfold_cross_validation`
(`model_architectures/rnn_base_model/train/cross_validation.py`).
-/

namespace Hooke

/-! ## Directories of the realizations -/

/-- The directory of a realization: its `3_model` and its `7_prediction`, the latter with the predictions of
each type of testing; `none` if the directory does not exist. -/
structure UqSample (M P : Type) where
  model : Option M
  preds : Option (KDict Text P)

/-- What `perform_model_uq` works on: the content of `uq_directory` (empty if there is none), of
`model_directory`, and the prediction in `predict_directory`. -/
structure UqState (M P : Type) where
  uq : KDict Text (UqSample M P)
  work : M
  scratch : Option P

/-- The name of the directory of realization `i`, uncertainty_quantification.py:103. -/
def realizationDir (i : ℕ) : Text := "model_".toList ++ strNat i

/-- Training of realization `i`, uncertainty_quantification.py:113-124: `train i m` is the outcome of the
training in `model_directory` when its content is `m`, with the content that it leaves.  The directory is
copied only if the training ends. -/
def uqTrain {M P : Type} (train : ℕ → M → Py Unit × M) (i : ℕ) (s : UqState M P) :
    Py Unit × UqState M P :=
  let uq := s.uq.put (realizationDir i) ⟨none, none⟩
  match train i s.work with
  | (.error e, m) => (.error e, ⟨uq, m, s.scratch⟩)
  | (.ok (), m) => (.ok (), ⟨uq.put (realizationDir i) ⟨some m, none⟩, m, s.scratch⟩)

/-- Prediction with realization `i`, uncertainty_quantification.py:127-154; `testing` is the base name of
`predict_directory`.  Nothing is done without a model. -/
def uqPredict {M P : Type} (predict : M → Py P) (testing : Text) (i : ℕ) (s : UqState M P) :
    Py Unit × UqState M P :=
  match s.uq.get? (realizationDir i) with
  | some ⟨some m, preds⟩ =>
    let preds := preds.getD []
    match predict m with
    | .error e => (.error e, ⟨s.uq.put (realizationDir i) ⟨some m, some preds⟩, s.work, none⟩)
    | .ok p => (.ok (), ⟨s.uq.put (realizationDir i) ⟨some m, some (preds.put testing p)⟩, s.work, some p⟩)
  | _ => (.ok (), s)

/-- One realization, uncertainty_quantification.py:101-154. -/
def uqStep {M P : Type} (train : ℕ → M → Py Unit × M) (predict : M → Py P) (testing : Text)
    (isTraining : Bool) (i : ℕ) (s : UqState M P) : Py Unit × UqState M P :=
  match (if isTraining then uqTrain train i s else (.ok (), s)) with
  | (.error e, s) => (.error e, s)
  | (.ok (), s) => uqPredict predict testing i s

/-- The realizations one after the other, until the first error. -/
def uqLoop {M P : Type} (train : ℕ → M → Py Unit × M) (predict : M → Py P) (testing : Text)
    (isTraining : Bool) : List ℕ → UqState M P → Py Unit × UqState M P
  | [], s => (.ok (), s)
  | i :: is, s =>
    match uqStep train predict testing isTraining i s with
    | (.error e, s) => (.error e, s)
    | (.ok (), s) => uqLoop train predict testing isTraining is s

/-- `perform_model_uq`, uncertainty_quantification.py:59-154. -/
def performUq {M P : Type} (train : ℕ → M → Py Unit × M) (predict : M → Py P) (testing : Text)
    (isTraining : Bool) (n : ℕ) (s : UqState M P) : Py Unit × UqState M P :=
  uqLoop train predict testing isTraining (List.range n)
    (if isTraining then ⟨[], s.work, s.scratch⟩ else s)

/-! ## Time series -/

/-- A row of the data of a path: time, true value, prediction. -/
structure SeriesRow where
  time : ℝ
  truth : ℝ
  pred : ℝ

/-- `np.allclose(a, b)` for numbers, with the default tolerances. -/
def closeTo (a b : ℝ) : Prop := |a - b| ≤ 1 / 10 ^ 8 + 1 / 10 ^ 5 * |b|

/-- The column of a realization, uncertainty_quantification.py:552-563: `times` are those of the first
realization; a single row is broadcast to all times (numpy).  `RuntimeWarning` is raised as an exception,
here `RuntimeError`. -/
noncomputable def realizationColumn (times : List ℝ) (rows : List SeriesRow) : Py (List ℝ) :=
  open Classical in
  if rows.length = times.length then
    if ∀ p ∈ (rows.map SeriesRow.time).zip times, closeTo p.1 p.2 then .ok (rows.map SeriesRow.pred)
    else .error .runtimeError
  else match rows with
    | [r] =>
      if ∀ t ∈ times, closeTo r.time t then .ok (List.replicate times.length r.pred)
      else .error .runtimeError
    | _ =>
      match times with
      | [t] => if ∀ r ∈ rows, closeTo r.time t then .error .valueError else .error .runtimeError
      | _ => .error .valueError

/-- What is plotted for a path, uncertainty_quantification.py:534-563: the true values, the times of the
table of realizations, and a column for each realization. -/
structure UqSeries where
  truth : List (ℝ × ℝ)
  times : List ℝ
  columns : List (List ℝ)

/-- The series of a path, uncertainty_quantification.py:532-563, for one component: `data` are the
predictions read, those of the first realizations; `nDirs` is the number of directories of realizations
found. -/
noncomputable def uqSeries (nDirs : ℕ) (data : List (KDict ℕ (List SeriesRow))) (id : ℕ) : Py UqSeries := do
  let first ← orRaise data.head? .indexError
  let rows ← orRaise (first.get? id) .keyError
  let times := rows.map SeriesRow.time
  let columns ← (List.range nDirs).mapM fun i : ℕ => do
    let d ← orRaise data[i]? .indexError
    let rows ← orRaise (d.get? id) .keyError
    realizationColumn times rows
  .ok ⟨rows.map fun r => (r.time, r.truth), times, columns⟩

/-- The label of the values, uncertainty_quantification.py:566-569: the variable keeps the label of an
earlier type of prediction, and has no value if there is none. -/
def uqLabel (type : String) (earlier : Option Text) : Py Text :=
  if type = "stress_comps" then .ok "Stress (MPa)".toList
  else if type = "acc_p_strain" then .ok "Accumulated plastic strain".toList
  else orRaise earlier .unboundLocal

/-- `plot_time_series_uq` for a single type of prediction, uncertainty_quantification.py:481-581: `sizes` are
the sizes of the testing data sets, `data` the predictions read, for each realization and component; `ids`
are the paths asked for, `none` for `'all'`. -/
noncomputable def plotSeriesUq (nDirs : ℕ) (sizes : List ℕ) (data : List (List (KDict ℕ (List SeriesRow))))
    (type : String) (nComp : ℕ) (ids : Option (List ℕ)) : Py (List (List (Text × UqSeries))) := do
  let size ← orRaise sizes.head? .runtimeError
  raiseIf (∃ n ∈ sizes, n ≠ size) .runtimeError
  (List.range nComp).mapM fun j : ℕ => (ids.getD (List.range size)).mapM fun id : ℕ => do
    let s ← uqSeries nDirs (data.map fun d => d.getD j []) id
    let label ← uqLabel type none
    .ok (label, s)

/-! ## Cross-validation -/

/-- `kfold_cross_validation`, cross_validation.py:127-164, as far as it gets: `isDir` tells whether the
directory exists; the folds need at least two, and no more than the samples (`sklearn`); line 157 reads the
variable `model`, which gets a value only at line 188.  Nothing is written before that line. -/
def crossValidate (isDir : Bool) (nFold : ℤ) (nSamples : ℕ) : Py Unit := do
  raiseIf (isDir = false) .runtimeError
  raiseIf (nFold ≤ 1) .valueError
  raiseIf ((nSamples : ℤ) < nFold) .valueError
  orRaise (none : Option Unit) .unboundLocal

end Hooke
