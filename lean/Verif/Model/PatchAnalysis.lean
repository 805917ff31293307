import Verif.Model.Iostandard
import Verif.Model.TextFile

/-!
# Directories of the analysis of a material patch

`compute_patch_local_paths`, `set_analysis_dir` and `set_simulation_dir` of
`user_scripts/synthetic_data/build_local_paths_dataset.py:115-155, 259-349`.  Paths are lists of components
(`Model/Iostandard`), and files have contents.  The name of a patch is one component.  A copy of a directory
into itself, symbolic links and other processes are outside the model.
-/

noncomputable section

open Classical

namespace Hooke

/-- The directories, and the contents of the files. -/
structure DataFs where
  isDir : APath → Prop
  file : APath → Option Text

/-- `shutil.rmtree(p)` followed by `os.makedirs(p)` in an existing directory, or only the second for a path
that does not exist: `make_directory(p, is_overwrite=True)` (ioput/iostandard.py:32-70). -/
def DataFs.freshDir (fs : DataFs) (p : APath) : DataFs where
  isDir q := q = p ∨ fs.isDir q ∧ ¬ p <+: q
  file q := if p <+: q then none else fs.file q

/-- `os.makedirs(p)` in an existing directory. -/
def DataFs.mkdir (fs : DataFs) (p : APath) : DataFs where
  isDir q := q = p ∨ fs.isDir q
  file := fs.file

/-- The file at a path has a content. -/
def DataFs.write (fs : DataFs) (p : APath) (t : Text) : DataFs where
  isDir := fs.isDir
  file q := if q = p then some t else fs.file q

/-- `shutil.copytree(src, dst)` for a path `dst` that does not exist. -/
def DataFs.copyTree (fs : DataFs) (src dst : APath) : DataFs where
  isDir q := if dst <+: q then fs.isDir (src ++ q.drop dst.length) else fs.isDir q
  file q := if dst <+: q then fs.file (src ++ q.drop dst.length) else fs.file q

/-- `os.path.basename(p)`. -/
def lastName (p : APath) : PName := p.getLast?.getD []

/-- `os.path.join(analysis_dir, 'material_model_finder')` (build_local_paths_dataset.py:285-291). -/
def finderDir (base : APath) (name : PName) : APath := base ++ [name] ++ ["material_model_finder".toList]

/-- `os.path.join(model_finder_dir, '0_simulation')` (build_local_paths_dataset.py:331-332). -/
def simulationDir (base : APath) (name : PName) : APath := finderDir base name ++ ["0_simulation".toList]

/-- `set_analysis_dir` (build_local_paths_dataset.py:259-301): the new state, or an error.  The two inner
directories are made in a new directory, so that their names are free. -/
def setAnalysisDir (fs : DataFs) (base : APath) (name : PName) : Py DataFs := do
  raiseIf (¬ fs.isDir base) .runtimeError
  raiseIf ((fs.file (base ++ [name])).isSome = true) .osError
  return ((fs.freshDir (base ++ [name])).mkdir (finderDir base name)).mkdir
    (base ++ [name] ++ ["material_model_performance".toList])

/-- `set_simulation_dir` (build_local_paths_dataset.py:303-349): the state after the call, and its value or
error. -/
def setSimulationDir (fs : DataFs) (finder : APath) (inp csv : APath) : DataFs × Py (APath × APath × APath) :=
  if ¬ fs.isDir finder then (fs, .error .runtimeError) else
    let sim := finder ++ ["0_simulation".toList]
    let fs1 := fs.freshDir sim
    match fs1.file inp with
    | none => (fs1, .error .osError)
    | some t =>
      let fs2 := fs1.write (sim ++ [lastName inp]) t
      let dst := sim ++ [lastName csv]
      if ¬ fs2.isDir csv ∨ fs2.isDir dst ∨ (fs2.file dst).isSome = true then (fs2, .error .osError)
      else (fs2.copyTree csv dst, .ok (sim, sim ++ [lastName inp], dst))

/-- The directories of `compute_patch_local_paths` (build_local_paths_dataset.py:143-154). -/
def patchAnalysis (fs : DataFs) (base : APath) (name : PName) (inp csv : APath) :
    DataFs × Py (APath × APath × APath) :=
  match setAnalysisDir fs base name with
  | .error e => (fs, .error e)
  | .ok fs1 => setSimulationDir fs1 (finderDir base name) inp csv

end Hooke
