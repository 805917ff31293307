import Verif.Model.Dataset
import Mathlib.Data.String.Defs

/-!
# Pruning of a time series data set

`src/hookeai/miscellaneous/pruning/pruning_dataset.py`, on top of the in-memory data sets and the
random split of `src/hookeai/time_series_data/time_dataset.py`.

A sample is its reference (see `InMemory`).  The training and the prediction of the recurrent models
(`perform_model_standard_training`, `perform_model_prediction`) are arguments of the model: what is
modelled is which samples they are given, through the files written for them, and what is done with
their results.  Files are paths below the directory `pruned_datasets`.  Plots, the text summary,
messages and times are left out.
-/

namespace Hooke

noncomputable section

/-- `pruning_params` (pruning_dataset.py:584-592).  A missing entry of `prun_scheduler_params` is
`none`. -/
structure PruneParams where
  nIterMax : ℤ
  scheduler : String
  nPrunSample : Option ℤ
  prunRatio : Option ℝ
  nDevMin : ℝ
  ratioDevMin : ℝ
  nPrunTestMin : ℝ
  prunTestRatioMax : ℝ
  stepSizes : List (String × ℝ)
  iterSizes : List (String × ℝ)

/-- `set_default_pruning_parameters` (pruning_dataset.py:552-594). -/
def defaultPruneParams : PruneParams where
  nIterMax := 100
  scheduler := "proportional"
  nPrunSample := none
  prunRatio := some (5 / 100)
  nDevMin := 10
  ratioDevMin := 5 / 100
  nPrunTestMin := 10
  prunTestRatioMax := 1 / 2
  stepSizes := [("training", 7 / 10), ("validation", 2 / 10), ("testing", 1 / 10)]
  iterSizes := [("training", 8 / 10), ("validation", 2 / 10)]

/-- `int(x)` for a floating-point number: truncation towards zero. -/
def pyTrunc (x : ℝ) : ℤ := open Classical in if 0 ≤ x then ⌊x⌋ else ⌈x⌉

/-- `get_n_prun_sample` (pruning_dataset.py:596-634). -/
def getNPrunSample (p : PruneParams) (nDev : ℕ) : Py ℤ :=
  if p.scheduler = "constant" then orRaise p.nPrunSample .keyError
  else if p.scheduler = "proportional" then
    (orRaise p.prunRatio .keyError).map fun r => pyTrunc (r * nDev)
  else .error .runtimeError

/-- `l[:n]` of a Python list. -/
def pySliceTo {γ : Type} (l : List γ) (n : ℤ) : List γ :=
  if 0 ≤ n then l.take n.toNat else l.take (l.length - (-n).toNat)

/-- The samples of a data set, by iterating over it. -/
def DS.toList {α : Type} (d : DS α) : Py (List α) :=
  (List.range d.len).mapM fun i : ℕ => d.item (i : ℤ)

/-- What is drawn at random, trained and predicted during a pruning.  The first argument is always
the number of the pruning iteration. -/
structure PruneEnv (M : Type) where
  /-- `torch.randperm(n)` of the split of a pruning step -/
  stepPerm : ℕ → ℕ → List ℕ
  /-- `torch.randperm(n)` of the split of a pruning iteration -/
  iterPerm : ℕ → ℕ → List ℕ
  /-- the model trained in a pruning step on given training and validation samples -/
  trainStep : ℕ → List ℕ → List ℕ → Py M
  /-- the model trained in a pruning iteration on given training and validation samples -/
  trainIter : ℕ → List ℕ → List ℕ → Py M
  /-- the prediction loss of a model for a sample (see C78) -/
  loss : M → ℕ → ℝ
  /-- the order in which `os.listdir` returns the prediction files of `n` samples -/
  listdir : ℕ → ℕ → List ℕ

/-- Content of a path: a pickled data set, or a trained model. -/
inductive PFile (M : Type)
  | dataset (d : DS ℕ)
  | model (m : M)

/-- The files below `pruned_datasets`. -/
abbrev PFs (M : Type) := List String → Option (PFile M)

variable {M : Type}

/-- `shutil.rmtree(p)`, also the effect of `make_directory(p, is_overwrite=True)`. -/
def PFs.rmtree (fs : PFs M) (p : List String) : PFs M := fun q => if p <+: q then none else fs q

/-- File name of a data set of `n` samples (time_dataset.py:153-160, pruning_dataset.py:401, 770). -/
def datasetPath (dir : List String) (n : ℕ) : List String :=
  dir ++ ["ss_paths_dataset_n" ++ toString n ++ ".pkl"]

/-- `save_dataset(dataset, basename, dir, is_append_n_sample=True)` into an existing directory
(time_dataset.py:124-166): an existing file is overwritten.  The returned path is
`datasetPath dir d.len`. -/
def PFs.save (fs : PFs M) (dir : List String) (d : DS ℕ) : PFs M :=
  Function.update fs (datasetPath dir d.len) (some (.dataset d))

/-- `load_dataset(path)` and iteration over the data set (time_dataset.py:168-195). -/
def PFs.load (fs : PFs M) (path : List String) : Py (List ℕ) :=
  match fs path with
  | some (.dataset d) => d.toList
  | _ => .error .runtimeError

/-- The best model stored in a model directory. -/
def PFs.loadModel (fs : PFs M) (dir : List String) : Py M :=
  match fs dir with
  | some (.model m) => .ok m
  | _ => .error .runtimeError

/-- `read_samples_loss_from_dir` (pruning_dataset.py:1007-1087): `files` are the identifiers and the
losses in the files `prediction_sample_<id>.pkl`, in the order of `os.listdir`; a file without loss
data is `none`. -/
def readSamplesLoss (files : List (ℕ × Option ℝ)) : Py (List ℝ) := do
  raiseIf (files = []) .runtimeError
  (files.mergeSort fun a b => decide (a.1 ≤ b.1)).mapM fun f => orRaise f.2 .runtimeError

/-- The prediction files of the samples `l`: file `i` is the result of sample `i`. -/
def predictionFiles (env : PruneEnv M) (k : ℕ) (m : M) (l : List ℕ) : List (ℕ × Option ℝ) :=
  (env.listdir k l.length).map fun i => (i, l[i]?.map (env.loss m))

open Classical in
/-- `sorted(range(len(loss)), key=lambda i: loss[i])` (pruning_dataset.py:745-746). -/
def sortedByLoss (loss : List ℝ) : List ℕ :=
  (List.range loss.length).mergeSort fun i j => decide (loss.getD i 0 ≤ loss.getD j 0)

open Classical in
/-- Admissibility of a pruning step: `none`, or the reason of the termination
(pruning_dataset.py:707-716). -/
def stepStatus (p : PruneParams) (nFull nDev nTest : ℕ) (nPrun : ℤ) : Option String :=
  if (nDev : ℝ) ≤ p.nDevMin then some "Minimum development data set size reached."
  else if (nDev : ℝ) / nFull < p.ratioDevMin then
    some "Minimum pruning testing data set size ratio reached."
  else if (nDev : ℝ) < p.nPrunTestMin then some "Minimum pruning testing data set size reached."
  else if (nPrun : ℝ) / nTest > p.prunTestRatioMax then
    some "Maximum pruned samples testing ratio reached."
  else none

/-- `set_pruning_step_dir` (pruning_dataset.py:769-863).  The testing data set is saved in the
validation data set directory (line 847). -/
def setPruningStepDir (fs : PFs M) (train val test : DS ℕ) : PFs M :=
  (((fs.rmtree ["pruning_step"]).save ["pruning_step", "1_training_dataset"] train).save
    ["pruning_step", "2_validation_dataset"] val).save ["pruning_step", "2_validation_dataset"] test

/-- Result of `perform_pruning_step` and the files. -/
structure StepResult (M : Type) where
  isValid : Bool
  status : String
  dev : InMemory
  unused : InMemory
  fs : PFs M

/-- The pruning of an admissible step (pruning_dataset.py:724-765).  The samples are read from the
data set before they are removed from it. -/
def pruneSamples (env : PruneEnv M) (k : ℕ) (nPrun : ℤ) (fs : PFs M) (dev unused : InMemory)
    (train val test : DS ℕ) : Py (StepResult M) := do
  let fs1 := setPruningStepDir fs train val test
  let trainSamples ← fs1.load (datasetPath ["pruning_step", "1_training_dataset"] train.len)
  let valSamples ← fs1.load (datasetPath ["pruning_step", "2_validation_dataset"] val.len)
  let m ← env.trainStep k trainSamples valSamples
  let testSamples ← fs1.load (datasetPath ["pruning_step", "2_validation_dataset"] test.len)
  let samplesLoss ← readSamplesLoss (predictionFiles env k m testSamples)
  let devIdx ← parentIndices test ((pySliceTo (sortedByLoss samplesLoss) nPrun).map Int.ofNat)
  let samples ← devIdx.mapM fun i : ℕ => dev.getitem (i : ℤ)
  .ok ⟨true, "Pruning step performed successfully.", dev.remove (devIdx.map Int.ofNat),
    unused.add samples, fs1.rmtree ["pruning_step"]⟩

/-- `perform_pruning_step` (pruning_dataset.py:636-767). -/
def performPruningStep (env : PruneEnv M) (p : PruneParams) (nFull k : ℕ) (fs : PFs M)
    (dev unused : InMemory) : Py (StepResult M) := do
  let nPrun ← getNPrunSample p dev.len
  let split ← splitDataset (.base dev.refs) p.stepSizes (env.stepPerm k dev.len)
  let train ← orRaise (split.lookup "training") .keyError
  let val ← orRaise (split.lookup "validation") .keyError
  let test ← orRaise (split.lookup "testing") .keyError
  match stepStatus p nFull dev.len test.len nPrun with
  | some status => .ok ⟨false, status, dev, unused, fs⟩
  | none => pruneSamples env k nPrun fs dev unused train val test

/-! ## Pruning iterations -/

/-- Arguments of `prune_time_series_dataset`; `external` are the samples of the testing data sets
found below `base_datasets`. -/
structure PruneCfg where
  params : PruneParams
  testing : List String
  external : String → Option (List ℕ)
  removeModels : Bool

/-- `iter_data` (pruning_dataset.py:262-269), without the second performance measure. -/
structure IterData where
  nFull : ℕ
  iter : ℕ
  nDev : ℕ
  nTrain : ℕ
  nValid : ℕ
  nUnused : ℕ
  losses : List (String × Option ℝ)

/-- Checks of the testing types (pruning_dataset.py:360-382): unknown type or missing directory. -/
def checkTesting (cfg : PruneCfg) : Py Unit :=
  if ∀ t ∈ cfg.testing, t = "unused_data" ∨
      ((t = "in_distribution" ∨ t = "out_distribution") ∧ (cfg.external t).isSome) then .ok ()
  else .error .runtimeError

/-- Directory of a pruning iteration with `n` training samples (pruning_dataset.py:444-445). -/
def iterDir (n : ℕ) : List String := ["n" ++ toString n]

/-- Directory of a testing data set in an iteration (pruning_dataset.py:363-367, 483-484,
516-517). -/
def testDir (n : ℕ) (t : String) : List String :=
  iterDir n ++ [if t = "in_distribution" then "5_testing_id_dataset"
    else if t = "out_distribution" then "6_testing_od_dataset" else "8_testing_unused_dataset"]

/-- The data set of a testing type (pruning_dataset.py:479-529). -/
def testDataset (cfg : PruneCfg) (unused : InMemory) (t : String) : DS ℕ :=
  if t = "unused_data" then .base unused.refs else .base ((cfg.external t).getD [])

/-- `set_pruning_iter_dir` (pruning_dataset.py:398-550).  A copied testing data set directory keeps
only its data set file, named like a saved data set. -/
def setPruningIterDir (cfg : PruneCfg) (fs : PFs M) (train val : DS ℕ) (unused : InMemory) : PFs M :=
  cfg.testing.foldl (fun fs t => fs.save (testDir train.len t) (testDataset cfg unused t))
    (((fs.rmtree (iterDir train.len)).save (iterDir train.len ++ ["1_training_dataset"]) train).save
      (iterDir train.len ++ ["2_validation_dataset"]) val)

/-- `avg_predict_loss` of `perform_model_prediction`: the mean of the losses of the samples; an
empty data set is rejected by the data loader. -/
def avgLoss (env : PruneEnv M) (m : M) (l : List ℕ) : Py ℝ := do
  raiseIf (l = []) .valueError
  .ok ((l.map (env.loss m)).sum / l.length)

/-- Testing of the model of an iteration for one testing type (pruning_dataset.py:208-253). -/
def testModel (env : PruneEnv M) (cfg : PruneCfg) (fs : PFs M) (n : ℕ) (unused : InMemory)
    (t : String) : Py (String × Option ℝ) :=
  if t = "unused_data" ∧ unused.len = 0 then .ok (t, none)
  else do
    let l ← fs.load (datasetPath (testDir n t) (testDataset cfg unused t).len)
    let m ← fs.loadModel (iterDir n ++ ["3_model"])
    let v ← avgLoss env m l
    .ok (t, some v)

/-- Variables of the pruning loop. -/
structure PruneState (M : Type) where
  iter : ℕ
  dev : InMemory
  unused : InMemory
  fs : PFs M
  data : List IterData

/-- An iteration after the pruning step (pruning_dataset.py:175-274). -/
def evaluateIter (env : PruneEnv M) (cfg : PruneCfg) (nFull : ℕ) (s : PruneState M) :
    Py (PruneState M) := do
  let split ← splitDataset (.base s.dev.refs) cfg.params.iterSizes (env.iterPerm s.iter s.dev.len)
  let train ← orRaise (split.lookup "training") .keyError
  let val ← orRaise (split.lookup "validation") .keyError
  let fs1 := setPruningIterDir cfg s.fs train val s.unused
  let trainSamples ← fs1.load (datasetPath (iterDir train.len ++ ["1_training_dataset"]) train.len)
  let valSamples ← fs1.load (datasetPath (iterDir train.len ++ ["2_validation_dataset"]) val.len)
  let m ← env.trainIter s.iter trainSamples valSamples
  let fs2 : PFs M := Function.update fs1 (iterDir train.len ++ ["3_model"]) (some (.model m))
  let losses ← cfg.testing.mapM (testModel env cfg fs2 train.len s.unused)
  let fs3 := if cfg.removeModels then fs2.rmtree (iterDir train.len ++ ["3_model"]) else fs2
  .ok { s with
    fs := fs3
    data := s.data ++ [⟨nFull, s.iter, s.dev.len, train.len, val.len, s.unused.len, losses⟩] }

/-- The pruning step at the start of an iteration; the initial iteration has none
(pruning_dataset.py:151-165). -/
def iterStep (env : PruneEnv M) (cfg : PruneCfg) (nFull : ℕ) (s : PruneState M) :
    Py (StepResult M) :=
  if s.iter = 0 then .ok ⟨true, "", s.dev, s.unused, s.fs⟩
  else performPruningStep env cfg.params nFull s.iter s.fs s.dev s.unused

/-- The pruning loop (pruning_dataset.py:142-290), for at most `fuel` iterations; `none` if it is
still running. -/
def pruneLoop (env : PruneEnv M) (cfg : PruneCfg) (nFull : ℕ) :
    ℕ → PruneState M → Option (Py (PruneState M × String))
  | 0, _ => none
  | fuel + 1, s =>
    match iterStep env cfg nFull s with
    | .error e => some (.error e)
    | .ok r =>
      if r.isValid = false then
        some (.ok ({ s with dev := r.dev, unused := r.unused, fs := r.fs }, r.status))
      else
        match evaluateIter env cfg nFull { s with dev := r.dev, unused := r.unused, fs := r.fs } with
        | .error e => some (.error e)
        | .ok s' =>
          if (s.iter : ℤ) ≥ cfg.params.nIterMax then
            some (.ok (s', "Maximum number of pruning iterations reached."))
          else pruneLoop env cfg nFull fuel { s' with iter := s.iter + 1 }

/-- `prune_time_series_dataset` (pruning_dataset.py:73-310) for the samples of the full data set:
the final variables and the termination status.  The directory `pruned_datasets` is emptied
first. -/
def pruneTimeSeriesDataset (env : PruneEnv M) (cfg : PruneCfg) (full : List ℕ) (fuel : ℕ) :
    Option (Py (PruneState M × String)) :=
  match checkTesting cfg with
  | .error e => some (.error e)
  | .ok _ =>
    pruneLoop env cfg full.length fuel ⟨0, InMemory.new full, InMemory.new [], fun _ => none, []⟩

/-! ## Preview -/

/-- A line of the preview. -/
structure PreviewLine where
  iter : ℕ
  nDev : ℤ
  nTrain : ℤ
  nValid : ℤ
  nUnused : ℤ

open Classical in
/-- Admissibility of a pruning step in the preview (pruning_dataset.py:1471-1482). -/
def previewStatus (p : PruneParams) (nFull : ℕ) (nDev nTest nPrun : ℤ) : Py (Option String) :=
  if (nDev : ℝ) ≤ p.nDevMin then .ok (some "Minimum development data set size reached.")
  else if (nDev : ℝ) / nFull ≤ p.ratioDevMin then
    .ok (some "Minimum development data set size ratio reached.")
  else if (nTest : ℝ) < p.nPrunTestMin then
    .ok (some "Minimum pruning testing data set size reached.")
  else if nTest = 0 then .error .zeroDivision
  else if (nPrun : ℝ) / nTest > p.prunTestRatioMax then
    .ok (some "Maximum pruned samples testing ratio reached.")
  else .ok none

/-- Size of the testing data set of a pruning step in the preview
(pruning_dataset.py:1455-1462). -/
def previewTest (p : PruneParams) (nDev : ℤ) : Py ℤ := do
  let ft ← orRaise (p.stepSizes.lookup "training") .keyError
  let fv ← orRaise (p.stepSizes.lookup "validation") .keyError
  .ok (nDev - (⌊ft * nDev⌋ + ⌊fv * nDev⌋))

/-- The pruning step of the preview: number of pruned samples, or the reason of the termination
(pruning_dataset.py:1446-1500). -/
def previewStep (p : PruneParams) (nFull : ℕ) (nDev : ℤ) : Py (ℤ ⊕ String) := do
  let nPrun ← getNPrunSample p nDev.toNat
  let nTest ← previewTest p nDev
  let status ← previewStatus p nFull nDev nTest nPrun
  .ok (match status with
    | some s => .inr s
    | none => .inl nPrun)

/-- A line of the preview (pruning_dataset.py:1503-1516). -/
def previewLine (p : PruneParams) (k : ℕ) (nDev nUnused : ℤ) : Py PreviewLine := do
  let ft ← orRaise (p.iterSizes.lookup "training") .keyError
  .ok ⟨k, nDev, ⌊ft * nDev⌋, nDev - ⌊ft * nDev⌋, nUnused⟩

/-- The preview loop (pruning_dataset.py:1437-1526) from the pruning step of iteration `k` on: the
lines printed and the termination status. -/
def previewLoop (p : PruneParams) (nFull : ℕ) :
    ℕ → ℕ → ℤ → ℤ → List PreviewLine → Option (Py (List PreviewLine × String))
  | 0, _, _, _, _ => none
  | fuel + 1, k, nDev, nUnused, lines =>
    match (if k = 0 then .ok (.inl 0) else previewStep p nFull nDev) with
    | .error e => some (.error e)
    | .ok (.inr s) => some (.ok (lines, s))
    | .ok (.inl nPrun) =>
      match previewLine p k (nDev - nPrun) (nUnused + nPrun) with
      | .error e => some (.error e)
      | .ok line =>
        if (k : ℤ) ≥ p.nIterMax then
          some (.ok (lines ++ [line], "Maximum number of pruning iterations reached."))
        else previewLoop p nFull fuel (k + 1) (nDev - nPrun) (nUnused + nPrun) (lines ++ [line])

/-- `preview_pruning_iterations` (pruning_dataset.py:1366-1528) for a full data set of `nFull`
samples; an empty data set divides by zero. -/
def previewPruning (p : PruneParams) (nFull fuel : ℕ) : Option (Py (List PreviewLine × String)) :=
  if nFull = 0 then some (.error .zeroDivision) else previewLoop p nFull fuel 0 nFull 0 []

end

end Hooke
