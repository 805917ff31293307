import Verif.Model.TextFile
import Verif.Model.TimeSeriesBatch
import Verif.Model.SpecimenHistory

/-!
# Stored predictions

`model_architectures/procedures/model_prediction.py` (directories and files of the predictions) and
`model_architectures/materials/process_predictions.py` (arrays with the ground truth and the predictions
of the stored samples, for the plots).
-/

namespace Hooke

/-! ## Directories and files of predictions -/

/-- `os.path.join(dir, name)` for a directory without a final separator. -/
def joinPath (dir name : Text) : Text := dir ++ '/' :: name

/-- The next directory tried (model_prediction.py:62-64). -/
def nextSubdir (dir path : Text) : Py Text := do
  let piece ← orRaise (splitText (· == '_') path).getLast? .indexError
  let k ← intOfText piece
  pure (joinPath dir ("prediction_set_".toList ++ textOfInt (k + 1)))

/-- `while os.path.exists(predict_subdir)` (model_prediction.py:61-64), with a bound on the number of
passes; `C116_subdir` shows that it is not reached. -/
def subdirLoop (dir : Text) (taken : List Text) : ℕ → Text → Py Text
  | 0, _ => .error .osError
  | n + 1, path =>
    if path ∈ taken then do
      let next ← nextSubdir dir path
      subdirLoop dir taken n next
    else .ok path

/-- `make_predictions_subdir` (model_prediction.py:41-68): the path of the new directory, if the paths
that exist are `taken`. -/
def makeSubdir (dir : Text) (taken : List Text) : Py Text :=
  subdirLoop dir taken (taken.length + 1) (joinPath dir "prediction_set_0".toList)

/-- The results stored for a sample: `features_out`, `targets` (`None` without ground truth) and
`stress_comps_order` (`none` if there is no such key; the results stored by `predict` have none). -/
structure StoredResults where
  /-- Predictions. -/
  out : SeqTensor
  /-- Ground truth. -/
  targets : Option SeqTensor
  /-- Order of the stress components. -/
  stressOrder : Option (List String)

/-- A directory entry: the results of a sample or something else. -/
inductive PredEntry where
  | results (r : StoredResults)
  | other

/-- A directory: names and contents, in the order of `os.listdir`. -/
abbrev PredDir := KDict Text PredEntry

/-- `'prediction_sample_' + str(sample_id) + '.pkl'` (model_prediction.py:89-90). -/
def sampleName (i : ℕ) : Text := "prediction_sample_".toList ++ strNat i ++ ".pkl".toList

/-- `save_sample_predictions` (model_prediction.py:70-93). -/
def saveSample (d : PredDir) (i : ℕ) (r : StoredResults) : PredDir := d.put (sampleName i) (.results r)

/-- `load_sample_predictions` (model_prediction.py:95-117).  A file that holds something else is not
modelled (`TypeError`). -/
def loadSample (d : PredDir) (i : ℕ) : Py StoredResults :=
  match d.get? (sampleName i) with
  | none => .error .runtimeError
  | some (.results r) => .ok r
  | some .other => .error .typeError

/-- `re.search(r'^prediction_sample_([0-9]+).pkl$', filename)` (process_predictions.py:86, 325): the
identifier.  The unescaped point stands for any character but a newline, and `$` allows for a final
newline. -/
def sampleIdOf (name : Text) : Option ℕ := do
  let r ← afterPrefix "prediction_sample_".toList name
  let s := if r.getLast? = some '\n' then r.dropLast else r
  if s.length < 5 ∨ s.drop (s.length - 3) ≠ "pkl".toList ∨ s[s.length - 4]? = some '\n' then none
  else parseInt (s.take (s.length - 4))

/-- `prediction_files_ids` (process_predictions.py:76-94, 315-333). -/
def fileIds (d : PredDir) : Py (List ℕ) := do
  raiseIf (d = []) .runtimeError
  raiseIf (d.keys.filterMap sampleIdOf = []) .runtimeError
  pure (d.keys.filterMap sampleIdOf)

/-! ## Arrays with ground truth and predictions -/

/-- Number of arrays (process_predictions.py:101-115, 340-354). -/
def nComponents (type : String) (labels : List String) : Py ℕ :=
  if type = "stress_comps" then .ok labels.length
  else if type = "acc_p_strain" then .ok 1
  else if type = "p_strain_comps" then .ok labels.length
  else .error .runtimeError

/-- `t[:, slice(0, n)][:, i]`. -/
def SeqTensor.sliceColumn (t : SeqTensor) (n i : ℕ) : Py (List ℝ) := do
  raiseIf (min n t.nFeat ≤ i) .indexError
  .ok ((List.range t.len).map fun k => t.val k i)

/-- Ground truth and prediction of a component (process_predictions.py:139-201).  The targets are sliced
before they are compared with `None`. -/
def truthAndPrediction (type : String) (n : ℕ) (r : StoredResults) (i : ℕ) :
    Py (List ℝ × List ℝ) :=
  if type = "acc_p_strain" then do
    let order ← orRaise r.stressOrder .keyError
    let f ← r.out.column order.length
    let t ← orRaise r.targets .typeError
    let g ← t.column order.length
    pure (g, f)
  else do
    let t ← orRaise r.targets .typeError
    let g ← t.sliceColumn n i
    let f ← r.out.sliceColumn n i
    pure (g, f)

/-- `np.concatenate((a, b), axis=1)` of two columns (process_predictions.py:155-157, 177-179,
198-200). -/
def sampleArray (type : String) (n : ℕ) (r : StoredResults) (i : ℕ) : Py (List (ℝ × ℝ)) := do
  let gf ← truthAndPrediction type n r i
  raiseIf (gf.1.length ≠ gf.2.length) .valueError
  pure (gf.1.zip gf.2)

/-- Body of the loop over the samples (process_predictions.py:121-204).  Identifiers are natural
numbers. -/
def arraysStep (d : PredDir) (fids : List ℕ) (type : String) (n : ℕ) (acc : List (List (ℝ × ℝ)))
    (id : ℕ) : Py (List (List (ℝ × ℝ))) := do
  raiseIf (id ∉ fids) .runtimeError
  let r ← loadSample d id
  let new ← (List.range n).mapM fun i => sampleArray type n r i
  pure (List.zipWith (· ++ ·) acc new)

/-- `build_prediction_data_arrays` (process_predictions.py:31-206) for an existing directory; `samples`
is `none` for `'all'`. -/
def predictionArrays (d : PredDir) (type : String) (labels : List String)
    (samples : Option (List ℕ)) : Py (List (List (ℝ × ℝ))) := do
  let fids ← fileIds d
  let n ← nComponents type labels
  (samples.getD fids).foldlM (arraysStep d fids type n) (List.replicate n [])

/-! ## Time series -/

/-- `np.concatenate((data_array, column), axis=1)` (process_predictions.py:432-440). -/
def appendColumn (rows : List (List ℝ)) (c : List ℝ) : Py (List (List ℝ)) := do
  raiseIf (rows.length ≠ c.length) .valueError
  pure (List.zipWith (fun r x => r ++ [x]) rows c)

/-- Body of the loop over the models (process_predictions.py:414-440, 447-471, 475-501). -/
def seriesModel (col : SeqTensor → Py (List ℝ)) (rows : List (List ℝ)) (p : StoredResults × ℕ) :
    Py (List (List ℝ)) := do
  let t ← orRaise p.1.targets .typeError
  let f ← col p.1.out
  let g ← col t
  if p.2 = 0 then do
    let rows' ← appendColumn rows g
    appendColumn rows' f
  else appendColumn rows f

/-- Array of a component of a sample (process_predictions.py:407-501): time, ground truth of the first
model, predictions of the models.  For the accumulated plastic strain the order of the stress components
is that of the last model loaded (444). -/
def seriesArray (type : String) (n : ℕ) (time : List ℝ) (models : List StoredResults) (i : ℕ) :
    Py (List (List ℝ)) :=
  if type = "acc_p_strain" then do
    let last ← orRaise models.getLast? .unboundLocal
    let order ← orRaise last.stressOrder .keyError
    models.zipIdx.foldlM (seriesModel fun t => t.column order.length) (time.map fun x => [x])
  else
    models.zipIdx.foldlM (seriesModel fun t => t.sliceColumn n i) (time.map fun x => [x])

/-- Body of the loop over the samples (process_predictions.py:360-504); `dirs` are the directories of the
models, `times` the time histories of the data set.  The keys `str(sample_id)` are the identifiers. -/
def seriesStep (dirs : List PredDir) (times : List (List ℝ)) (fids : List ℕ) (type : String) (n : ℕ)
    (acc : List (KDict ℕ (List (List ℝ)))) (id : ℕ) : Py (List (KDict ℕ (List (List ℝ)))) := do
  let time ← orRaise times[id]? .indexError
  raiseIf (id ∉ fids) .runtimeError
  let models ← dirs.mapM fun d => loadSample d id
  let new ← (List.range n).mapM fun i => seriesArray type n time models i
  pure (List.zipWith (fun d a => d.put id a) acc new)

/-- `build_time_series_predictions_data` (process_predictions.py:292-506) for the directories of the
models: one, or those of the uncertainty quantification; `samples` is `none` for `'all'`. -/
def predictionSeries (dirs : List PredDir) (times : List (List ℝ)) (type : String)
    (labels : List String) (samples : Option (List ℕ)) : Py (List (KDict ℕ (List (List ℝ)))) := do
  raiseIf (samples = some []) .valueError
  raiseIf (∃ ids, samples = some ids ∧ ∃ id ∈ ids, times.length ≤ id) .runtimeError
  let first ← orRaise dirs.head? .indexError
  let fids ← fileIds first
  let n ← nComponents type labels
  (samples.getD fids).foldlM (seriesStep dirs times fids type n) (List.replicate n [])

/-- `re.search(r'^model_[0-9]+', dirname)` (process_predictions.py:273-274): only the beginning of the
name is looked at. -/
def isModelDir (name : Text) : Bool :=
  match afterPrefix "model_".toList name with
  | some (c :: _) => c.isDigit
  | _ => false

/-- The directories of the models of an uncertainty quantification, sorted by the last number of the name
(process_predictions.py:260-286): `dirs` are the names in the directory and the predictions in each of
them. -/
def uqDirs (dirs : List (Text × PredDir)) : List PredDir :=
  sortByKey ((dirs.filter fun p => isModelDir p.1).map fun p => ((lastNumber p.1).getD 0, p.2))

/-- `build_time_series_predictions_data` with uncertainty quantification. -/
def predictionSeriesUq (dirs : List (Text × PredDir)) (times : List (List ℝ)) (type : String)
    (labels : List String) (samples : Option (List ℕ)) : Py (List (KDict ℕ (List (List ℝ)))) :=
  predictionSeries (uqDirs dirs) times type labels samples

end Hooke
