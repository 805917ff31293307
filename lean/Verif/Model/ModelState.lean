import Verif.Model.PyDict
import Mathlib.Data.Nat.Digits.Defs

/-!
# Model state files (`src/hookeai/model_architectures/procedures/model_state_files.py`)

The model directory is a list of files in the (arbitrary) order of `os.listdir`.  File names are
lists of characters.  The model name is matched literally by the regular expressions of the code,
so it must not contain characters that are special in regular expressions; it contains no `/`.

Every function returns its outcome together with the atomic file operations it performed, so that
crash points can be considered: `torch.save` truncates the file first and then writes it.
-/

namespace Hooke

/-- A file name. -/
abbrev FName := List Char

/-- Contents of a state file: complete, or partially written. -/
inductive Content (σ : Type)
  | partialWrite
  | full (s : σ)

/-- The files of the model directory. -/
abbrev Dir (σ : Type) := KDict FName (Content σ)

/-- Atomic file operations. -/
inductive FsOp (σ : Type)
  | remove (f : FName)
  | truncate (f : FName)
  | finish (f : FName) (s : σ)

/-- Effect of an atomic file operation. -/
def FsOp.apply {σ : Type} (d : Dir σ) : FsOp σ → Dir σ
  | .remove f => d.del f
  | .truncate f => d.put f .partialWrite
  | .finish f s => d.put f (.full s)

/-- Effect of a sequence of file operations. -/
def applyOps {σ : Type} (d : Dir σ) (ops : List (FsOp σ)) : Dir σ := ops.foldl FsOp.apply d

/-- `str(n)` of a nonnegative integer. -/
def strNat (n : ℕ) : List Char :=
  if n = 0 then ['0'] else ((Nat.digits 10 n).map Nat.digitChar).reverse

/-- Value of a decimal digit. -/
def charVal (c : Char) : ℕ := c.toNat - 48

/-- `int(s)`: only nonempty strings of decimal digits are accepted by the model. Python also accepts
signs, surrounding spaces and underscores, which occur in no file name written by the code. -/
def parseInt (s : List Char) : Option ℕ :=
  if s ≠ [] ∧ s.all Char.isDigit then some (Nat.ofDigits 10 (s.reverse.map charVal)) else none

/-- What follows the prefix `p`, if the string begins with it. -/
def afterPrefix : List Char → List Char → Option (List Char)
  | [], f => some f
  | _ :: _, [] => none
  | c :: cs, d :: ds => if c = d then afterPrefix cs ds else none

/-- `os.path.splitext(f)[0]`: cut at the last dot unless only dots precede it. -/
def splitextRoot (f : FName) : FName :=
  match f.reverse.dropWhile (· ≠ '.') with
  | [] => f
  | _ :: r => if r.any (· ≠ '.') then r.reverse else f

/-- `f.split('-')[-1]`. -/
def lastSegment (f : FName) : List Char := (f.reverse.takeWhile (· ≠ '-')).reverse

/-- `f.split('-')[-2]`. -/
def previousSegment (f : FName) : Option (List Char) :=
  match f.reverse.dropWhile (· ≠ '-') with
  | [] => none
  | _ :: r => some (r.takeWhile (· ≠ '-')).reverse

/-- `re.search(r'^' + name + r'-[0-9]+' + r'\.pt', f)` (model_state_files.py:296-297); the pattern is
not anchored at the end. -/
def matchesEpoch (name f : FName) : Bool :=
  match afterPrefix (name ++ ['-']) f with
  | none => false
  | some r => (r.takeWhile Char.isDigit ≠ []) && (afterPrefix ".pt".toList (r.dropWhile Char.isDigit)).isSome

/-- `[0-9]*-best\.pt` at the beginning of a string. -/
def digitsBest (r : List Char) : Bool := (afterPrefix "-best.pt".toList (r.dropWhile Char.isDigit)).isSome

/-- `re.search(r'^' + name + r'-?[0-9]*' + r'-best' + r'\.pt', f)` (model_state_files.py:330-332): with
and without the optional dash. -/
def matchesBest (name f : FName) : Bool :=
  match afterPrefix name f with
  | none => false
  | some r => (match afterPrefix ['-'] r with
    | some r' => digitsBest r'
    | none => false) || digitsBest r

/-- `check_state_file` (model_state_files.py:274-304): the epoch of an epoch state file. -/
def checkStateFile (name f : FName) : Py (Option ℕ) :=
  if matchesEpoch name f then
    (orRaise (parseInt (lastSegment (splitextRoot f))) .valueError).map some
  else .ok none

/-- `check_best_state_file` (model_state_files.py:306-339): the epoch of a best state file. -/
def checkBestFile (name f : FName) : Py (Option ℕ) :=
  if matchesBest name f then do
    let seg ← orRaise (previousSegment (splitextRoot f)) .indexError
    (orRaise (parseInt seg) .valueError).map some
  else .ok none

/-- Loop over a directory listing removing the files selected by `p`; stops at an exception
(model_state_files.py:341-376). -/
def removeLoop {σ : Type} (p : FName → Py Bool) : List FName → Py Unit × List (FsOp σ)
  | [] => (.ok (), [])
  | f :: fs =>
    match p f with
    | .error e => (.error e, [])
    | .ok true => ((removeLoop (σ := σ) p fs).1, .remove f :: (removeLoop p fs).2)
    | .ok false => removeLoop p fs

/-- `remove_posterior_state_files` (model_state_files.py:341-359). -/
def removePosterior {σ : Type} (name : FName) (d : Dir σ) (epoch : ℕ) : Py Unit × List (FsOp σ) :=
  removeLoop (fun f => (checkStateFile name f).map fun
    | some e => decide (e > epoch)
    | none => false) d.keys

/-- `remove_best_state_files` (model_state_files.py:361-376). -/
def removeBest {σ : Type} (name : FName) (d : Dir σ) : Py Unit × List (FsOp σ) :=
  removeLoop (fun f => (checkBestFile name f).map Option.isSome) d.keys

/-- `state_type` of `save_model_state`. -/
inductive StateType
  | default | init | epoch | best
  deriving DecidableEq

/-- `-<epoch>` if the epoch is an integer. -/
def epochPart (epoch : Option ℕ) : List Char :=
  match epoch with
  | some k => '-' :: strNat k
  | none => []

/-- File name of a saved state (model_state_files.py:86-108). -/
def stateFile (name : FName) (t : StateType) (epoch : Option ℕ) : FName :=
  match t with
  | .init => name ++ "-init".toList ++ ".pt".toList
  | .best => name ++ epochPart epoch ++ "-best".toList ++ ".pt".toList
  | _ => name ++ epochPart epoch ++ ".pt".toList

/-- `torch.save(state, path)`. -/
def writeOps {σ : Type} (f : FName) (s : σ) : List (FsOp σ) := [.truncate f, .finish f s]

/-- First part of `save_model_state`: removal of best state files (model_state_files.py:98-104). -/
def saveOps1 {σ : Type} (name : FName) (d : Dir σ) (t : StateType) : Py Unit × List (FsOp σ) :=
  if t = .best then removeBest name d else (.ok (), [])

/-- Last part of `save_model_state`: removal of posterior state files (model_state_files.py:112-114). -/
def saveOps2 {σ : Type} (name : FName) (d : Dir σ) (epoch : Option ℕ) (rm : Bool) :
    Py Unit × List (FsOp σ) :=
  match epoch, rm with
  | some k, true => removePosterior name d k
  | _, _ => (.ok (), [])

/-- `save_model_state` of a model with state `s` (model_state_files.py:35-114): outcome and file
operations. The model is a module and its directory exists. -/
def saveOps {σ : Type} (name : FName) (d : Dir σ) (s : σ) (t : StateType) (epoch : Option ℕ)
    (rm : Bool) : Py Unit × List (FsOp σ) :=
  match saveOps1 name d t with
  | (.error e, ops) => (.error e, ops)
  | (.ok _, ops1) =>
    let ops := ops1 ++ writeOps (stateFile name t epoch) s
    ((saveOps2 name (applyOps d ops) epoch rm).1, ops ++ (saveOps2 name (applyOps d ops) epoch rm).2)

/-- `save_model_state`: outcome and directory afterwards. -/
def saveState {σ : Type} (name : FName) (d : Dir σ) (s : σ) (t : StateType) (epoch : Option ℕ)
    (rm : Bool) : Py Unit × Dir σ :=
  ((saveOps name d s t epoch rm).1, applyOps d (saveOps name d s t epoch rm).2)

/-- `model_load_state` of `load_model_state`. -/
inductive LoadState
  | default | init | int (k : ℕ) | best | last
  deriving DecidableEq

/-- Epochs of the files recognised by `check` (model_state_files.py:195-208, 231-243). -/
def listEpochs (check : FName → Py (Option ℕ)) : List FName → Py (List ℕ)
  | [] => .ok []
  | f :: fs => check f >>= fun o => (listEpochs check fs).map fun es => o.toList ++ es

/-- Reading a state file: a missing file raises, and so does `torch.load` on a partially written one
(model_state_files.py:260-270). -/
def readState {σ : Type} (d : Dir σ) (f : FName) : Py σ :=
  match d.get? f with
  | some (.full s) => .ok s
  | some .partialWrite => .error .runtimeError
  | none => .error .runtimeError

/-- Removal of posterior files followed by reading the file: outcome (epoch and state) and directory
afterwards. -/
def removeThenRead {σ : Type} (name : FName) (d : Dir σ) (f : FName) (epoch : ℕ) (rm : Bool) :
    Py (Option ℕ × σ) × Dir σ :=
  match saveOps2 name d (some epoch) rm with
  | (.error e, ops) => (.error e, applyOps d ops)
  | (.ok _, ops) => ((readState (applyOps d ops) f).map fun s => (some epoch, s), applyOps d ops)

/-- `load_model_state` (model_state_files.py:116-272): outcome (returned epoch and loaded state) and
directory afterwards. -/
def loadState {σ : Type} (name : FName) (d : Dir σ) (req : LoadState) (rm : Bool) :
    Py (Option ℕ × σ) × Dir σ :=
  match req with
  | .init => removeThenRead name d (stateFile name .init none) 0 rm
  | .int k => removeThenRead name d (stateFile name .epoch (some k)) k rm
  | .best =>
    match listEpochs (checkBestFile name) d.keys with
    | .error e => (.error e, d)
    | .ok [k] => removeThenRead name d (stateFile name .best (some k)) k rm
    | .ok _ => (.error .runtimeError, d)
  | .last =>
    match listEpochs (checkStateFile name) d.keys with
    | .error e => (.error e, d)
    | .ok [] => (.error .runtimeError, d)
    | .ok (e :: es) =>
      ((readState d (stateFile name .epoch (some (es.foldl max e)))).map
        fun s => (some (es.foldl max e), s), d)
  | .default => ((readState d (stateFile name .default none)).map fun s => (none, s), d)

end Hooke
