import Verif.Model.LmuParameters
import Verif.Model.NumberFormat
import Verif.Model.PyDict
import Verif.Model.Noise
import Verif.Model.SpecimenHistory

/-!
# Material data of the local model updating pipeline

Model of `generate_material_data`, `assemble_material_datasets`, `preview_material_datasets_sizes`,
`set_dependencies_dir` and `set_dataset_type_dir`
(user_scripts/complete_pipelines/local_model_update.py:84-531, 665-729).

A response is of an arbitrary type; random numbers and the outcomes of the computed stress paths are
arguments.  The strain formulation and the problem type are assumed valid, and plots are not modelled.
-/

noncomputable section

namespace Hooke

variable {α : Type}

/-- One stored sample: generator of its strain path (random or proportional), temperature and
composition of its histories, and its response (components, strain, stress, state and time paths). -/
structure LmuSample (α : Type) where
  random : Bool
  temperature : ℝ
  composition : ℝ
  response : α

/-- A number written with `:.2f`: its sign and the nearest number of hundredths (the text determines
both and is determined by them). -/
def fixed2 (x : ℝ) : Bool × ℕ := (open Classical in decide (x < 0), roundEven (100 * |x|))

/-- Name `T{temperature:.2f}_C{composition:.2f}` of a directory, local_model_update.py:686. -/
abbrev DepName := (Bool × ℕ) × (Bool × ℕ)

/-- Directory name of a temperature and a composition, local_model_update.py:686. -/
def depName (T C : ℝ) : DepName := (fixed2 T, fixed2 C)

/-- Everything random or external of one run.  Uniform numbers of the effective temperature and
composition, and the outcome (response, failure) of each trial, by pair, data set type, sample and
trial.  `baseDir` is the global variable read by line 682: not defined unless the file is run as a
script, and otherwise whether that directory exists. -/
structure LmuEnv (α : Type) where
  uT : ℕ → Text → ℕ → ℝ
  uC : ℕ → Text → ℕ → ℝ
  attempt : Bool → TcParams → ℕ → Text → ℕ → ℕ → Py (α × Bool)
  baseDir : Option Bool

/-- Default ratio of one data set type and the check of its number of samples,
local_model_update.py:151-170. -/
def ratioStep (r : KDict Text ℝ) (c : Text × ℕ) : Py (KDict Text ℝ) := do
  let r' := if r.has c.1 then r else r.put c.1 1
  let nr := truncInt ((c.2 : ℝ) * (r'.get? c.1).getD 1)
  raiseIf (nr < 1) .runtimeError
  raiseIf ((c.2 : ℤ) - nr < 1) .runtimeError
  return r'

/-- Default ratios and the check of the numbers of samples, local_model_update.py:149-170.  The ratios
are written into the dictionary of the caller. -/
def lmuRatios (counts : KDict Text ℕ) (ratio : KDict Text ℝ) : Py (KDict Text ℝ) :=
  counts.foldlM ratioStep ratio

open Classical in
/-- `np.abs(np.array(l) - x).argmin()`: the first closest entry. -/
def closestIdx (l : List ℝ) (x : ℝ) : ℕ := l.findIdx fun y => ∀ z ∈ l, |y - x| ≤ |z - x|

/-- A uniform number between the neighbours of the entry closest to `x`,
local_model_update.py:212-224. -/
def neighbourDraw (l : List ℝ) (x u : ℝ) : ℝ :=
  let i := closestIdx l x
  npUniform (l.getD (i - 1) 0) (l.getD (min (i + 1) (l.length - 1)) 0) u

/-- The loop over trials, local_model_update.py:246-280: `m` further trials may fail. -/
def lmuTrials (att : ℕ → Py (α × Bool)) : ℕ → ℕ → Py α
  | 0, k => do
    let _ ← att k
    .error .runtimeError
  | m + 1, k => do
    let r ← att k
    if r.2 then lmuTrials att m (k + 1) else .ok r.1

/-- Data set types whose samples lie between grid values, local_model_update.py:209. -/
def betweenGrid (ty : Text) : Bool := ty = "validation".toList || ty = "testing_id".toList

/-- One sample, local_model_update.py:204-312. -/
def lmuSample (env : LmuEnv α) (model : String) (temps comps : List ℝ) (nRnd : ℤ) (p : ℕ) (T C : ℝ)
    (ty : Text) (i : ℕ) : Py (LmuSample α) := do
  let eT := if betweenGrid ty then neighbourDraw temps T (env.uT p ty i) else T
  let eC := if betweenGrid ty then neighbourDraw comps C (env.uC p ty i) else C
  let rnd := decide ((i : ℤ) < nRnd)
  let params ← tcParameters model eT eC
  let r ← lmuTrials (env.attempt rnd params p ty i) 10 0
  return ⟨rnd, eT, eC, r⟩

/-- Data sets of one temperature and composition, local_model_update.py:187-317. -/
def lmuPair (env : LmuEnv α) (model : String) (temps comps : List ℝ) (counts : KDict Text ℕ)
    (ratio : KDict Text ℝ) (p : ℕ) (T C : ℝ) : Py (KDict Text (List (LmuSample α))) :=
  counts.mapM fun c => do
    let ss ← (List.range c.2).mapM
      (lmuSample env model temps comps (truncInt ((c.2 : ℝ) * (ratio.get? c.1).getD 1)) p T C c.1)
    return (c.1, ss)

/-- Contents of the directory `0_simulation`: data set types by directory of a pair. -/
abbrev LmuStore (α : Type) := KDict DepName (KDict Text (List (LmuSample α)))

/-- One pass of the loop over temperatures and compositions, local_model_update.py:178-317. -/
def lmuPass (env : LmuEnv α) (model : String) (temps comps : List ℝ) (counts : KDict Text ℕ)
    (ratio : KDict Text ℝ) (q : (ℝ × ℝ) × ℕ) : Py (KDict Text (List (LmuSample α))) := do
  raiseIf (env.baseDir = none) .unboundLocal
  raiseIf (env.baseDir = some false) .runtimeError
  lmuPair env model temps comps counts ratio q.2 q.1.1 q.1.2

/-- `generate_material_data`, local_model_update.py:84-333.  The directory `0_simulation` is emptied
first and the directory of a pair is emptied when the pair is reached. -/
def lmuGenerate (env : LmuEnv α) (model : String) (temps comps : List ℝ) (counts : KDict Text ℕ)
    (ratio : KDict Text ℝ) : Py (LmuStore α) := do
  let r ← lmuRatios counts ratio
  (temps.product comps).zipIdx.foldlM (fun fs (q : (ℝ × ℝ) × ℕ) => do
      let ds ← lmuPass env model temps comps counts r q
      return fs.put (depName q.1.1 q.1.2) ds)
    []

/-- Files of a data set type, local_model_update.py:370-396: `re.match` accepts every directory whose
name begins with `{type}_dataset`.  Types are taken literally and the files of the given basename are
those that were generated; the store is listed in an arbitrary order. -/
def lmuFiles (fs : LmuStore α) (ty : Text) : List (List (LmuSample α)) :=
  (fs.flatMap fun d => d.2.filter fun t =>
      (ty ++ "_dataset".toList).isPrefixOf (t.1 ++ "_dataset".toList)).map Prod.snd

open Classical in
/-- Reduction fraction, local_model_update.py:410-424: `some none` is an entry that is not a `float`. -/
def reducedFraction : Option ℝ → ℝ
  | none => 1
  | some f => if 0 ≤ f ∧ f ≤ 1 then f else 1

/-- Random choices of an assembly: `random.sample(range(n), k)` for each file, and `torch.randperm(n)`. -/
structure LmuPick where
  sample : Text → ℕ → ℕ → ℕ → List ℕ
  perm : Text → ℕ → List ℕ

/-- Entries of a list by index. -/
def pickAll {β : Type} (l : List β) (is : List ℕ) : List β := is.filterMap fun i => l[i]?

/-- One loaded data set with its optional reduction, local_model_update.py:405-434. -/
def reduceFile (pick : LmuPick) (ty : Text) (red : Option (Option ℝ)) (k : ℕ)
    (d : List (LmuSample α)) : List (LmuSample α) :=
  match red with
  | none => d
  | some f => pickAll d (pick.sample ty k d.length (truncInt ((d.length : ℝ) * reducedFraction f)).toNat)

/-- The assembled data set of a type, local_model_update.py:398-446.  `ConcatDataset` rejects an empty
collection with an `AssertionError` (here a `valueError`). -/
def assembleType (pick : LmuPick) (fs : LmuStore α) (red : KDict Text (Option ℝ)) (ty : Text) :
    Py (List (LmuSample α)) := do
  let files := (lmuFiles fs ty).zipIdx.map fun q => reduceFile pick ty (red.get? ty) q.2 q.1
  raiseIf (files = []) .valueError
  let cat := files.flatten
  return pickAll cat (pick.perm ty cat.length)

/-- Directory name of an assembled data set, local_model_update.py:448-454; another type keeps the
value of the variable. -/
def assembledDir (old : Option Text) (ty : Text) : Option Text :=
  if ty = "training".toList then some "1_training_dataset".toList
  else if ty = "validation".toList then some "2_validation_dataset".toList
  else if ty = "testing_id".toList then some "5_testing_id_dataset".toList
  else old

/-- `assemble_material_datasets`, local_model_update.py:335-480: assembled data set by directory (each
directory is emptied before its data set is saved). -/
def lmuAssemble (pick : LmuPick) (fs : LmuStore α) (red : KDict Text (Option ℝ)) (types : List Text) :
    Py (KDict Text (List (LmuSample α))) := do
  let r ← types.foldlM (fun (s : KDict Text (List (LmuSample α)) × Option Text) ty => do
      let d ← assembleType pick fs red ty
      let name := assembledDir s.2 ty
      let n ← orRaise name .unboundLocal
      return (s.1.put n d, name))
    ([], none)
  return r.1

/-- Total size printed by `preview_material_datasets_sizes`, local_model_update.py:506-527. -/
def previewSize (temps comps : List ℝ) (n : ℕ) : ℕ := temps.length * comps.length * n

end Hooke
