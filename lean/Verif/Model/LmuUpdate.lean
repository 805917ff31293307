import Verif.Model.UncertaintyRuns
import Verif.Model.StrainPath

/-!
# Model updating of the local model updating pipeline

Model of `perform_material_model_updating`, `find_dataset_file`, `set_lmu_dir` and `set_strain_path_generator`
(user_scripts/complete_pipelines/local_model_update.py:533-662, 731-786, 1057-1086).
-/

namespace Hooke

/-! ## The directory of a model update -/

/-- The directory of a local model update, as far as `perform_material_model_updating` reads or writes it:
the files of the directories with the training, validation and testing data sets, in the order in which they
are listed; the content of `3_model`; the predictions in `7_prediction` by type of testing; the realizations
in `uncertainty_quantification`.  `none` is a directory that does not exist. -/
structure LmuDir (D M P : Type) where
  train : Option (KDict Text D)
  valid : Option (KDict Text D)
  test : Option (KDict Text D)
  model : Option M
  pred : Option (KDict Text (Option P))
  uq : Option (KDict Text (UqSample M P))

/-- A directory that was just made. -/
def LmuDir.empty {D M P : Type} : LmuDir D M P := ⟨none, none, none, none, none, none⟩

/-- `set_lmu_dir`, local_model_update.py:628-662: the content of the directory afterwards; `base` is `none`
if there is no base directory, and `some none` if it has no directory `local_model_update`. -/
def setLmuDir {D M P : Type} (base : Option (Option (LmuDir D M P))) (overwrite : Bool) :
    Py (LmuDir D M P) := do
  let sub ← orRaise base .runtimeError
  match sub with
  | none => .ok .empty
  | some d => .ok (if overwrite then .empty else d)

/-! ## Data sets -/

/-- `ss_paths_dataset_n\d+\.pkl` at the start of a text, local_model_update.py:1074; only ASCII digits. -/
def datasetHead (s : Text) : Bool :=
  match afterPrefix "ss_paths_dataset_n".toList s with
  | none => false
  | some r => decide (r.takeWhile Char.isDigit ≠ []) &&
      (afterPrefix ".pkl".toList (r.dropWhile Char.isDigit)).isSome

/-- `re.search`, iostandard.py:208: the pattern is found anywhere in the name. -/
def datasetAnywhere (name : Text) : Bool := name.tails.any datasetHead

/-- `find_dataset_file`, local_model_update.py:1057-1086, with the data set loaded from the file. -/
def findDataset {D : Type} (dir : Option (KDict Text D)) : Py D := searchDir datasetAnywhere dir

/-- The three data sets, local_model_update.py:584-592. -/
def lmuDatasets {D M P : Type} (s : LmuDir D M P) : Py (D × D × D) := do
  let a ← findDataset s.train
  let b ← findDataset s.valid
  let c ← findDataset s.test
  .ok (a, b, c)

/-! ## Model updating -/

/-- The name of the directory of predictions, local_model_update.py:575. -/
def lmuTesting : Text := "in_distribution".toList

/-- `perform_material_model_updating`, local_model_update.py:533-626: `blank` is the content of an empty
directory; `train a b i m` trains realization `i` with the training data set `a` and the validation data set
`b` in a directory with the content `m`; `predict c m` predicts the testing data set `c`; `plots` is the
outcome of `gen_model_uq_plots`, which reads the realizations. -/
def updateModel {D M P : Type} (blank : M) (train : D → D → ℕ → M → Py Unit × M) (predict : D → M → Py P)
    (plots : KDict Text (UqSample M P) → Py Unit) (n : ℕ) (isTraining isPlots : Bool) (s : LmuDir D M P) :
    Py Unit × LmuDir D M P :=
  match lmuDatasets s with
  | .error e => (.error e, { s with model := some blank, pred := some [(lmuTesting, none)] })
  | .ok (a, b, c) =>
    let uq : KDict Text (UqSample M P) := if isTraining then [] else s.uq.getD []
    match performUq (train a b) (predict c) lmuTesting isTraining n ⟨uq, blank, none⟩ with
    | (.error e, u) =>
      (.error e, { s with model := some u.work, pred := some [(lmuTesting, u.scratch)], uq := some u.uq })
    | (.ok (), u) =>
      match (if isPlots then plots u.uq else .ok ()) with
      | .error e =>
        (.error e, { s with model := some u.work, pred := some [(lmuTesting, u.scratch)], uq := some u.uq })
      | .ok () => (.ok (), { s with model := none, pred := none, uq := some u.uq })

/-! ## Strain paths -/

/-- The arguments of both generators, local_model_update.py:134-148, 754-784: the bounds are given for the
components of the symmetric order, whatever the strain formulation. -/
noncomputable def lmuPathArgs (infinitesimal : Bool) (nDim : ℕ) : PathArgs where
  nDim := nDim
  infinitesimal := infinitesimal
  bounds := (symOrder nDim).map fun c => (c, (-(5 / 100), 5 / 100))
  nTime := 200
  timeInit := 0
  timeEnd := 1
  incNorm := none
  noiseStd := none
  nCycle := 0

/-- A strain path of a given type, local_model_update.py:731-786 and 258-260: `d` and `u` are the numbers
drawn by the random and the proportional generator. -/
noncomputable def lmuPath (type : Text) (infinitesimal : Bool) (nDim : ℕ) (d : RandomDraws) (u : ℕ → ℝ)
    (noise : ℕ → List ℝ) : Py (List SComp × List ℝ × List SState) :=
  if type = "random".toList then
    randomPath (lmuPathArgs infinitesimal nDim) .polynomial (some (4, 7)) d noise
  else if type = "proportional".toList then proportionalPath (lmuPathArgs infinitesimal nDim) u noise
  else .error .runtimeError

end Hooke
