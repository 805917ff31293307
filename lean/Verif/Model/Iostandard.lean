import Verif.Model.ParameterDict
import Mathlib.Data.Finset.Image
import Mathlib.Data.Finset.Union
import Mathlib.Data.Nat.Digits.Defs

/-!
# Directories and file names

`ioput/iostandard.py`.  A path is the list of the components of an absolute, normalised path (the
result of `os.path.abspath`); the root directory is `[]`.  Symbolic links, permissions and changes
made by other processes during a call are outside the model.
-/

namespace Hooke

/-- The components of an absolute path. -/
abbrev APath := List PName

/-- The existing directories and the existing regular files. -/
structure FileSys where
  dirs : Finset APath
  files : Finset APath

/-- `str(n)` for a nonnegative integer. -/
def decimalNat (n : ℕ) : PName :=
  if n = 0 then ['0'] else (Nat.digits 10 n).reverse.map Nat.digitChar

/-- `path + suffix` for a string path: the suffix extends the last component
(`ioput/iostandard.py:61`). -/
def appendPath (p : APath) (suffix : PName) : APath :=
  p.dropLast ++ [p.getLast?.getD [] ++ suffix]

/-- `directory + '_' + str(i)` (`ioput/iostandard.py:61`). -/
def dirCandidate (p : APath) (i : ℕ) : APath := appendPath p ('_' :: decimalNat i)

/-- The loops `while occupied(new): new = candidate(i); i += 1`
(`ioput/iostandard.py:57-62`, `ioput/iostandard.py:91-96`) run for at most `fuel` tests of the
condition; `none` if it is still running. -/
def searchFree (occupied : APath → Bool) (cand : ℕ → APath) : ℕ → ℕ → APath → Option APath
  | 0, _, _ => none
  | fuel + 1, i, cur =>
    if occupied cur then searchFree occupied cand fuel (i + 1) (cand i) else some cur

/-- `shutil.rmtree(directory)`: removes a directory and everything below it. -/
def rmtree (fs : FileSys) (p : APath) : FileSys :=
  { dirs := fs.dirs.filter fun q => ¬ p <+: q
    files := fs.files.filter fun q => ¬ p <+: q }

/-- `os.makedirs(directory)`: creates the directory and its missing ancestors; `FileExistsError` if
the path exists, `NotADirectoryError` if an ancestor is a file. -/
def makedirs (fs : FileSys) (p : APath) : Py FileSys :=
  if p ∈ fs.dirs ∨ ∃ q ∈ p.inits, q ∈ fs.files then .error .osError
  else .ok { fs with dirs := fs.dirs ∪ p.inits.toFinset }

/-- `make_directory(directory, is_overwrite)` (`ioput/iostandard.py:32-70`): the created path and
the new state of the file system; `none` while the loop has not ended after `fuel` tests. -/
def makeDirectory (fuel : ℕ) (fs : FileSys) (p : APath) (isOverwrite : Bool) :
    Option (Py (APath × FileSys)) :=
  if p ∈ fs.dirs then
    if isOverwrite then some ((makedirs (rmtree fs p) p).map fun fs' => (p, fs'))
    else (searchFree (fun q => decide (q ∈ fs.dirs)) (dirCandidate p) fuel 1 p).map fun q =>
      (makedirs fs q).map fun fs' => (q, fs')
  else some ((makedirs fs p).map fun fs' => (p, fs'))

/-- `os.path.splitext` on the last component: the extension starts at the last dot, unless only
dots come before it. -/
def splitExt (name : PName) : PName × PName :=
  match name.reverse.dropWhile (fun c => c ≠ '.') with
  | [] => (name, [])
  | _ :: root =>
    if root.all (fun c => c = '.') then (name, [])
    else (root.reverse, '.' :: (name.reverse.takeWhile (fun c => c ≠ '.')).reverse)

/-- `root + '_' + str(i) + ext` (`ioput/iostandard.py:86`, `ioput/iostandard.py:95`). -/
def fileCandidate (p : APath) (i : ℕ) : APath :=
  let re := splitExt (p.getLast?.getD [])
  p.dropLast ++ [re.1 ++ '_' :: decimalNat i ++ re.2]

/-- `new_file_path_with_int(file_path)` (`ioput/iostandard.py:72-98`); `none` while the loop has not
ended after `fuel` tests.  The path is taken as absolute. -/
def newFilePath (fuel : ℕ) (fs : FileSys) (p : APath) : Option APath :=
  searchFree (fun q => decide (q ∈ fs.files)) (fileCandidate p) fuel 1 p

end Hooke
