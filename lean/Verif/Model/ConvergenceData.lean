import Verif.Model.MeanMetrics

/-!
# Data of convergence analyses and uncertainty quantifications

`ioput/iostandard.py` (summary files, search of a file), `model_architectures/procedures/
convergence_plots.py` (data of the convergence plots),
`user_scripts/local_model_update/rc_material_model/uncertainty_quantification.py` (realizations of a
model; the scripts of the other models are the same) and
`user_scripts/synthetic_data/build_local_paths_dataset.py` (analyses of material patches).  A directory is
the list of its entries in the order of `os.listdir`.  What is plotted is modelled, the plots are not.
-/

namespace Hooke

/-! ## Summary files -/

/-- A value of a parameter of a parameter, iostandard.py:133-138; texts are those of `str`. -/
inductive SummaryInner
  | dict (items : List (Text × Text))
  | other (s : Text)

/-- A value of a parameter of a summary, iostandard.py:130-145; texts are those of `str`. -/
inductive SummaryVal
  | dict (items : List (Text × SummaryInner))
  | array (s : Text)
  | str (s : Text)
  | other (s : Text)

/-- `"name"`. -/
def quoted (s : Text) : Text := '"' :: s ++ ['"']

/-- The text of a parameter of a parameter, iostandard.py:133-138. -/
def innerText : Text × SummaryInner → Text
  | (k, .dict items) => "\n  ".toList ++ quoted k ++ ":\n".toList ++
      (items.map fun p => "    ".toList ++ quoted p.1 ++ ": ".toList ++ p.2 ++ "\n".toList).flatten
  | (k, .other s) => "  ".toList ++ quoted k ++ ": ".toList ++ s ++ "\n".toList

/-- The text of a parameter, iostandard.py:128-145. -/
def entryText : Text × SummaryVal → Text
  | (k, .dict items) => "\n".toList ++ quoted k ++ ":\n".toList ++ (items.map innerText).flatten
  | (k, .array s) => "\n".toList ++ quoted k ++ ":\n  ".toList ++ s ++ "\n".toList
  | (k, .str s) =>
    if '\n' ∈ s then "\n".toList ++ quoted k ++ ":\n\n".toList ++ s ++ "\n".toList
    else "\n".toList ++ quoted k ++ ":  ".toList ++ s ++ "\n".toList
  | (k, .other s) => "\n".toList ++ quoted k ++ ":  ".toList ++ s ++ "\n".toList

/-- `write_summary_file` in an existing directory, iostandard.py:100-149: the content of the file. -/
def summaryText (title : Option Text) (entries : List (Text × SummaryVal)) : Text :=
  (match title with
    | some t => t ++ "\n".toList ++ List.replicate t.length '-' ++ "\n".toList
    | none => []) ++ (entries.map entryText).flatten

/-- The parameter with the loss, model_prediction.py:170-171: `f'{loss:.8e}' if loss else None`. -/
noncomputable def lossEntry (loss : Option ℝ) : Text × SummaryVal :=
  ("Avg. prediction loss per sample".toList,
    match loss with
    | none => .other "None".toList
    | some x => if x = 0 then .other "None".toList else .str (sciText 8 x))

/-- `write_prediction_summary_file`, model_prediction.py:119-181: `before` are the parameters written
before the loss (device, seed, model directory and state, loss, data set file and size), `after` the two
times written after it. -/
noncomputable def predictionSummary (before after : List (Text × SummaryVal)) (loss : Option ℝ) : Text :=
  summaryText (some "Summary: Model prediction".toList) (before ++ lossEntry loss :: after)

/-- Reading of the loss, convergence_plots.py:119-135, 599-615, uncertainty_quantification.py:317-333. -/
noncomputable def readSummaryLoss (file : Text) : Py ℝ :=
  match (fileLines file).find? fun l => decide ("Avg. prediction loss per sample".toList <:+: l) with
  | none => .error .runtimeError
  | some line => do
    let w ← orRaise (splitBlank line).getLast? .indexError
    orRaise (numberOfText w) .valueError

/-! ## Search of a file -/

/-- `find_unique_file_with_regex`, iostandard.py:191-223, for valid patterns, each given by the names in
which `re.search` finds it. -/
def findFile : List (Text → Bool) → List Text → Option Text
  | [], _ => none
  | p :: ps, names =>
    match names.find? p with
    | some f => some f
    | none => findFile ps names

/-- A name without the newline that `$` allows for at the end. -/
def beforeEnd (s : Text) : Text := if s.getLast? = some '\n' then s.dropLast else s

/-- `^a.b$`: the unescaped point stands for any character but a newline. -/
def matchesDot (a b name : Text) : Bool :=
  match afterPrefix a name with
  | some (c :: r) => decide (c ≠ '\n' ∧ (r = b ∨ r = b ++ ['\n']))
  | _ => false

/-- `^ss_paths_dataset_n[0-9]+.pkl$`, convergence_plots.py:94. -/
def isDatasetFile (name : Text) : Bool :=
  match afterPrefix "ss_paths_dataset_n".toList name with
  | none => false
  | some r =>
    let s := beforeEnd r
    decide (5 ≤ s.length ∧ s.drop (s.length - 3) = "pkl".toList ∧ s[s.length - 4]? ≠ some '\n' ∧
      (parseInt (s.take (s.length - 4))).isSome)

/-- The file found in a directory (`none`: no such directory), iostandard.py:174-177,
convergence_plots.py:95-101, 111-117. -/
def searchDir {α : Type} (pat : Text → Bool) (dir : Option (KDict Text α)) : Py α := do
  let d ← orRaise dir .runtimeError
  let f ← orRaise (findFile [pat] d.keys) .runtimeError
  orRaise (d.get? f) .runtimeError

/-- Sizes of the training data sets, convergence_plots.py:89-103, 218-232, 527-541: the directories hold
the numbers of samples of the data sets in them. -/
def trainingSizes (train : List (Option (KDict Text ℕ))) : Py (List ℕ) := train.mapM (searchDir isDatasetFile)

/-- Loss of a directory with predictions, convergence_plots.py:110-135: the directory holds the texts of
the files in it. -/
noncomputable def summaryLoss (dir : Option (KDict Text Text)) : Py ℝ := do
  let t ← searchDir (matchesDot "summary".toList "dat".toList) dir
  readSummaryLoss t

/-! ## Convergence of the loss -/

/-- `plot_prediction_loss_convergence`, convergence_plots.py:49-188: the plotted points of `n` models. -/
noncomputable def lossConvergence (n : ℕ) (train : List (Option (KDict Text ℕ)))
    (pred : List (Option (KDict Text Text))) : Py (List (ℕ × ℝ)) := do
  let sizes ← trainingSizes train
  let losses ← pred.mapM summaryLoss
  (List.range n).mapM fun i : ℕ => do
    let s ← orRaise sizes[i]? .indexError
    let l ← orRaise losses[i]? .indexError
    pure (s, l)

/-- The realizations in the directory of an uncertainty quantification, sorted by the last number of their
names, convergence_plots.py:556-574, uncertainty_quantification.py:202-225. -/
def uqSamples {α : Type} (dirs : List (Text × α)) : List α :=
  sortByKey ((dirs.filter fun p => isModelDir p.1).map fun p => ((lastNumber p.1).getD 0, p.2))

/-- Assignment of a list to `n` entries of an array, with broadcasting of a single value. -/
def assignLossRow {α : Type} (n : ℕ) (l : List α) : Py (List α) :=
  if l.length = n then .ok l
  else
    match l with
    | [x] => .ok (List.replicate n x)
    | _ => .error .valueError

/-- A realization: directories with predictions by testing type, and the files in them. -/
abbrev Realization := KDict Text (KDict Text Text)

/-- Losses of the realizations of a model, convergence_plots.py:577-615. -/
noncomputable def uqLosses (type : Text) (dirs : List (Text × Realization)) : Py (List ℝ) :=
  (uqSamples dirs).mapM fun d => summaryLoss (d.get? type)

/-- `plot_prediction_loss_convergence_uq`, convergence_plots.py:481-677: for each model the points of its
realizations.  `types` are the testing types of the directories of the predictions; the number of
realizations (580) is that of the last model. -/
noncomputable def lossConvergenceUq (train : List (Option (KDict Text ℕ))) (types : List Text)
    (models : List (Option (List (Text × Realization)))) : Py (List (List (ℕ × ℝ))) := do
  let sizes ← trainingSizes train
  let losses ← models.zipIdx.mapM fun q => do
    let type ← orRaise types[q.2]? .indexError
    let dirs ← orRaise q.1 .osError
    uqLosses type dirs
  let last ← orRaise losses.getLast? .unboundLocal
  losses.zipIdx.mapM fun q => do
    let s ← orRaise sizes[q.2]? .indexError
    let row ← assignLossRow last.length q.1
    pure (row.map fun x => (s, x))

/-! ## Convergence of the parameters -/

/-- `plot_best_parameters_convergence`, convergence_plots.py:190-292: the plotted points of each
parameter, with the sizes of the training data sets and the best parameters of the models. -/
noncomputable def bestConvergence (sizes : List ℕ) (models : List (KDict Text ℝ)) :
    Py (List (Text × List (ℕ × ℝ))) := do
  let first ← orRaise models.head? .unboundLocal
  first.keys.mapM fun param => do
    let pts ← sizes.zipIdx.mapM fun q => do
      let m ← orRaise models[q.2]? .indexError
      let v ← orRaise (m.get? param) .keyError
      pure (q.1, v)
    pure (param, pts)

/-- `plot_best_parameters_uq`, uncertainty_quantification.py:358-429: the names and the table stored; the
values are stored in the order of the dictionary of each realization. -/
noncomputable def bestParametersUq (samples : List (KDict Text ℝ)) : Py (List Text × List (List ℝ)) := do
  let first ← orRaise samples.head? .indexError
  let rows ← samples.mapM fun s => do
    raiseIf (first.length < s.length) .indexError
    pure (s.map Prod.snd ++ List.replicate (first.length - s.length) (0 : ℝ))
  pure (first.keys, rows)

/-- `plot_best_parameters_convergence_uq`, convergence_plots.py:679-797: for each parameter the values of
the realizations of each model, with the tables stored for the models. -/
noncomputable def bestConvergenceUq (sizes : List ℕ) (models : List (List Text × List (List ℝ))) :
    Py (List (Text × List (ℕ × List ℝ))) := do
  let first ← orRaise models.head? .unboundLocal
  first.1.zipIdx.mapM fun p => do
    let cols ← sizes.zipIdx.mapM fun q => do
      let m ← orRaise models[q.2]? .indexError
      let col ← m.2.mapM fun row : List ℝ => orRaise row[p.2]? .indexError
      let col' ← assignLossRow first.2.length col
      pure (q.1, col')
    pure (p.1, cols)

/-! ## Time series -/

/-- The sets shown in a plot of predictions, convergence_plots.py:409-419, 438-454, 928-945: one of each
model under the label of the size of its training data set. -/
def convergenceSets {α : Type} (n : ℕ) (sizes : List ℕ) (data : List α) (start : KDict Text α) :
    Py (KDict Text α) :=
  (List.range n).foldlM (fun (d : KDict Text α) (i : ℕ) => do
    let x ← orRaise data[i]? .indexError
    let s ← orRaise sizes[i]? .indexError
    pure (d.put ("N = ".toList ++ strNat s) x)) start

/-- `plot_prediction_loss_uq` from `gen_model_uq_plots`, uncertainty_quantification.py:202-260, 302-333:
the losses shown for `n` realizations of an uncertainty quantification. -/
noncomputable def uqPlotLosses (n : ℕ) (type : Text) (dirs : List (Text × Realization)) : Py (List ℝ) := do
  raiseIf (uqSamples dirs = []) .runtimeError
  let preds ← (List.range n).mapM fun i : ℕ => orRaise (uqSamples dirs)[i]? .indexError
  (List.range (uqSamples dirs).length).mapM fun j : ℕ => do
    let d ← orRaise preds[j]? .indexError
    summaryLoss (d.get? type)

/-! ## Analyses of material patches -/

/-- `^name_([0-9]+)$`, build_local_paths_dataset.py:200, for a name without special characters. -/
def isPatchDir (name dir : Text) : Bool :=
  match afterPrefix (name ++ ['_']) dir with
  | none => false
  | some r => (parseInt (beforeEnd r)).isSome

/-- `get_patch_analysis_dirs`, build_local_paths_dataset.py:168-217: the names of the directories
(`none`: no such directory). -/
def patchDirs (root name : Text) (listing : Option (List Text)) : Py (List Text) := do
  let names ← orRaise listing .runtimeError
  raiseIf (names = []) .runtimeError
  raiseIf (names.filter (isPatchDir name) = []) .runtimeError
  sortFiles root (names.filter (isPatchDir name))

/-- `build_local_paths_dataset`, build_local_paths_dataset.py:62-113: the samples of the analyses, with
the data set of each. -/
def patchesDataset {α : Type} (root name : Text) (listing : Option (List Text))
    (paths : Text → Py (List α)) : Py (List α) := do
  let dirs ← patchDirs root name listing
  let parts ← dirs.mapM paths
  pure parts.flatten

end Hooke
