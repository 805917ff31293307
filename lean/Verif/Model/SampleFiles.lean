import Verif.Model.LinksOutput

/-!
# Time series data sets with sample files

Model of `time_series_data/time_dataset.py` (`TimeSeriesDataset`, `save_dataset`, `load_dataset`) and of
`miscellaneous/dataset_processing/convert_to_tsdataset.py`.  Paths are POSIX paths without symbolic links:
two paths are of the same file if `os.path.normpath` gives the same text.
-/

namespace Hooke

/-! ## Paths -/

/-- A step of `os.path.normpath`: the components so far, last one first. -/
def normStep (abs : Bool) (acc : List Text) (c : Text) : List Text :=
  if c = [] ∨ c = ['.'] then acc
  else if c ≠ ['.', '.'] ∨ (abs = false ∧ acc = []) ∨ acc.head? = some ['.', '.'] then c :: acc
  else acc.tail

/-- The number of initial slashes that `os.path.normpath` keeps. -/
def initialSlashes (p : Text) : ℕ :=
  if ['/', '/'] <+: p ∧ ¬['/', '/', '/'] <+: p then 2 else if ['/'] <+: p then 1 else 0

/-- The components kept by `os.path.normpath`, last one first. -/
def normStack (p : Text) : List Text :=
  (splitText (· == '/') p).foldl (normStep (decide (0 < initialSlashes p))) []

/-- `os.path.normpath`. -/
def normpath (p : Text) : Text :=
  if List.replicate (initialSlashes p) '/' ++ (['/'] : Text).intercalate (normStack p).reverse = [] then ['.']
  else List.replicate (initialSlashes p) '/' ++ (['/'] : Text).intercalate (normStack p).reverse

/-- `os.path.dirname`. -/
def dirName (p : Text) : Text :=
  let head := (p.reverse.dropWhile (· ≠ '/')).reverse
  if ∀ c ∈ head, c = '/' then head else (head.reverse.dropWhile (· = '/')).reverse

/-- `os.path.join` of two components. -/
def joinPaths (a b : Text) : Text :=
  if b.head? = some '/' then b
  else if a = [] ∨ a.getLast? = some '/' then a ++ b
  else a ++ '/' :: b

/-! ## Data sets -/

/-- `TimeSeriesDataset`, time_dataset.py:613-696. -/
structure SampleFiles where
  /-- `_dataset_directory`. -/
  dir : Text
  /-- `_dataset_sample_files`. -/
  files : List Text
  /-- `_dataset_basename`. -/
  basename : Text

/-- Pickled data sets: in memory, with sample files, or a `torch.utils.data.Subset`. -/
inductive StoredSet (σ : Type)
  | inMemory (samples : List σ)
  | onFiles (d : SampleFiles)
  | subset (parent : StoredSet σ) (indices : List ℕ)

/-- Directories, sample files and data set files; files are given by their normalised paths. -/
structure SampleWorld (σ : Type) where
  isDir : Text → Bool
  sample : Text → Option σ
  stored : Text → Option (StoredSet σ)

variable {σ : Type}

/-- `TimeSeriesDataset(...)`, time_dataset.py:651-696. -/
def openSamples (w : SampleWorld σ) (dir : Text) (files : List Text) (basename : Text) : Py SampleFiles := do
  raiseIf (w.isDir dir = false) .runtimeError
  let _ ← files.mapM fun f => do
    raiseIf (w.sample (normpath f) = none) .runtimeError
    raiseIf (dirName f ≠ normpath dir) .runtimeError
  pure ⟨normpath dir, files, basename⟩

/-- `len(dataset)`, time_dataset.py:518-526, 698-706. -/
def StoredSet.len : StoredSet σ → ℕ
  | .inMemory l => l.length
  | .onFiles d => d.files.length
  | .subset _ idx => idx.length

/-- `dataset[i]`, time_dataset.py:528-546, 708-726. -/
def StoredSet.item (w : SampleWorld σ) : StoredSet σ → ℕ → Py σ
  | .inMemory l, i => orRaise l[i]? .indexError
  | .onFiles d, i => do
    let f ← orRaise d.files[i]? .indexError
    orRaise (w.sample (normpath f)) .osError
  | .subset p idx, i => do
    let j ← orRaise idx[i]? .indexError
    p.item w j

/-- `torch.save(sample, path)`: the directory must exist. -/
def writeSample (w : SampleWorld σ) (path : Text) (x : σ) : Py (SampleWorld σ) := do
  raiseIf (dirName path ≠ [] ∧ w.isDir (dirName path) = false) .runtimeError
  pure { w with sample := fun p => if p = normpath path then some x else w.sample p }

/-- `update_dataset_sample`, time_dataset.py:728-741. -/
def SampleFiles.update (w : SampleWorld σ) (d : SampleFiles) (i : ℕ) (x : σ) : Py (SampleWorld σ) := do
  let f ← orRaise d.files[i]? .indexError
  writeSample w f x

/-- The loop of `_update_dataset_directory`, time_dataset.py:858-868: the outcome and the list of files
afterwards. -/
def moveLoop (w : SampleWorld σ) (dir : Text) : List Text → Py Unit × List Text
  | [] => (.ok (), [])
  | f :: fs =>
    let g := joinPaths (normpath dir) (baseName f)
    if w.sample (normpath g) = none then (.error .runtimeError, f :: fs)
    else
      let r := moveLoop w dir fs
      (r.1, g :: r.2)

/-- `_update_dataset_directory`, time_dataset.py:838-868: the outcome and the data set afterwards. -/
def SampleFiles.move (w : SampleWorld σ) (d : SampleFiles) (dir : Text) : Py Unit × SampleFiles :=
  if w.isDir dir = false then (.error .runtimeError, d)
  else
    let r := moveLoop w dir d.files
    (r.1, { d with dir := dir, files := r.2 })

/-- `save_dataset`, time_dataset.py:124-166: the path and the files afterwards. -/
def saveSet (w : SampleWorld σ) (s : StoredSet σ) (basename dir : Text) (appendSize : Bool) :
    Py (Text × SampleWorld σ) := do
  raiseIf (w.isDir dir = false) .runtimeError
  let name := basename ++ (if appendSize then "_n".toList ++ strNat s.len else [])
  let path := joinPaths dir (name ++ ".pkl".toList)
  pure (path, { w with stored := fun p => if p = normpath path then some s else w.stored p })

/-- `load_dataset`, time_dataset.py:168-195, of files with data sets. -/
def loadSet (w : SampleWorld σ) (path : Text) : Py (StoredSet σ) :=
  orRaise (w.stored (normpath path)) .runtimeError

/-- The data set with the sample files of a loaded data set, time_dataset.py:813-826: a parent of another
class has no `get_dataset_directory`. -/
def StoredSet.withFiles : StoredSet σ → Py SampleFiles
  | .onFiles d => .ok d
  | .subset (.onFiles d) _ => .ok d
  | .subset _ _ => .error .attributeError
  | .inMemory _ => .error .runtimeError

/-- `update_dataset_file_internal_directory`, time_dataset.py:787-836: the outcome and the files
afterwards.  `_update_dataset_directory` is called with an argument that it does not have. -/
def updateFileDirectory (w : SampleWorld σ) (path dir : Text) : Py Unit × SampleWorld σ :=
  if w.isDir dir = false then (.error .runtimeError, w)
  else
    match loadSet w path with
    | .error e => (.error e, w)
    | .ok s =>
      match s.withFiles with
      | .error e => (.error e, w)
      | .ok d => if d.dir ≠ dir then (.error .typeError, w) else (.ok (), w)

/-! ## Conversion of a data set in memory -/

/-- Path of the file of sample `i`, convert_to_tsdataset.py:57-58. -/
def samplePath (dir base : Text) (i : ℕ) : Text :=
  joinPaths dir (base ++ '_' :: (strNat i ++ ".pt".toList))

/-- The loop over the samples, convert_to_tsdataset.py:52-62: the outcome and the files afterwards. -/
def convertLoop (dir base : Text) : ℕ → List σ → SampleWorld σ → Py Unit × SampleWorld σ
  | _, [], w => (.ok (), w)
  | i, x :: xs, w =>
    match writeSample w (samplePath dir base i) x with
    | .error e => (.error e, w)
    | .ok w => convertLoop dir base (i + 1) xs w

/-- convert_to_tsdataset.py:29-71: the outcome and the files afterwards. -/
def convertSet (w : SampleWorld σ) (path base name : Text) : Py Unit × SampleWorld σ :=
  match loadSet w path with
  | .error e => (.error e, w)
  | .ok (.onFiles _) => (.error .runtimeError, w)
  | .ok (.subset _ _) => (.error .runtimeError, w)
  | .ok (.inMemory l) =>
    let dir := dirName path
    let r := convertLoop dir base 0 l w
    match r.1 with
    | .error e => (.error e, r.2)
    | .ok _ =>
      match openSamples r.2 dir ((List.range l.length).map (samplePath dir base)) name with
      | .error e => (.error e, r.2)
      | .ok d =>
        match saveSet r.2 (.onFiles d) name dir true with
        | .error e => (.error e, r.2)
        | .ok q => (.ok (), q.2)

end Hooke
