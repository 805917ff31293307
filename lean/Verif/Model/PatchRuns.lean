import Verif.Model.PatchSolid
import Verif.Model.ConvergenceData
import Verif.Model.Iostandard

/-!
# Model of the generation of random material patches

`user_scripts/synthetic_data/gen_random_specimen.py`: patches are generated (or loaded), saved and
simulated, each in a directory of its own below the base directory.
`user_scripts/synthetic_data/build_local_paths_dataset.py:219-257` looks for the files of such a
simulation.  The files are those the scripts read and write; the figure of the load factors and the
other outputs of the simulation program are left out.
-/

namespace Hooke

/-- The content of a file: a pickled patch, its attributes, a figure, an input data file of a
simulation of a patch (empty if its text could not be formatted), other files of a simulation, and
files the scripts know nothing about. -/
inductive PatchBlob (P : Type) where
  | patch (p : P)
  | attributes (p : P)
  | figure (p : P)
  | input (p : P)
  | emptyInput
  | screen (p : P) (success : Bool)
  | unrelated (n : ℕ)

/-- Directories and files by absolute path. -/
structure PatchDisk (P : Type) where
  dirs : APath → Bool
  file : APath → Option (PatchBlob P)

variable {P : Type}

/-- `os.path.join(directory, name)` followed by `os.path.abspath`, for a name without separators. -/
def joinName (p : APath) (name : PName) : APath :=
  if name = [] ∨ name = ['.'] then p
  else if name = ['.', '.'] then p.dropLast
  else p ++ [name]

/-- `shutil.rmtree`. -/
def PatchDisk.rmtree (d : PatchDisk P) (p : APath) : PatchDisk P :=
  ⟨fun q => d.dirs q && !p.isPrefixOf q, fun q => if p.isPrefixOf q then none else d.file q⟩

/-- `os.makedirs`: the path must not exist, and no ancestor may be a file. -/
def PatchDisk.makedirs (d : PatchDisk P) (p : APath) : PatchDisk P × Py Unit :=
  if d.dirs p || p.inits.any fun q => (d.file q).isSome then (d, .error .osError)
  else (⟨fun q => d.dirs q || q.isPrefixOf p, d.file⟩, .ok ())

/-- `make_directory(directory, is_overwrite=True)` (ioput/iostandard.py:32-70). -/
def PatchDisk.overwriteDir (d : PatchDisk P) (p : APath) : PatchDisk P × Py Unit :=
  (if d.dirs p then d.rmtree p else d).makedirs p

/-- Writes a file in a directory that exists. -/
def PatchDisk.write (d : PatchDisk P) (p : APath) (b : PatchBlob P) : PatchDisk P :=
  ⟨d.dirs, Function.update d.file p (some b)⟩

/-- The next statement, unless there was an exception; the disk stays as it is then. -/
def diskThen {α β : Type} (r : PatchDisk P × Py α) (f : PatchDisk P → α → PatchDisk P × Py β) :
    PatchDisk P × Py β :=
  match r with
  | (d, .ok a) => f d a
  | (d, .error e) => (d, .error e)

/-- The subdirectories of a patch (gen_random_specimen.py:259-272). -/
def patchDataDir (p : APath) : APath := p ++ ["material_patch".toList]
@[inherit_doc patchDataDir]
def patchSimulationsDir (p : APath) : APath := p ++ ["simulations".toList]
@[inherit_doc patchDataDir]
def patchPlotsDir (p : APath) : APath := p ++ ["plots".toList]

/-- `make_directory` if the directory does not exist or the data is overwritten
(gen_random_specimen.py:255-256, 262-263). -/
def PatchDisk.ensureDir (d : PatchDisk P) (p : APath) (overwrite : Bool) : PatchDisk P × Py Unit :=
  if !d.dirs p || overwrite then d.overwriteDir p else (d, .ok ())

/-- `set_material_patch_dir` (gen_random_specimen.py:223-276). -/
def setPatchDir (d : PatchDisk P) (name : PName) (parent : APath) (overwrite : Bool) :
    PatchDisk P × Py APath :=
  if !d.dirs parent then (d, .error .runtimeError)
  else
    let p := joinName parent name
    diskThen (d.ensureDir p overwrite) fun d _ =>
    diskThen (d.ensureDir (patchDataDir p) overwrite) fun d _ =>
    diskThen (d.overwriteDir (patchSimulationsDir p)) fun d _ =>
    diskThen (d.overwriteDir (patchPlotsDir p)) fun d _ => (d, .ok p)

/-- What the scripts call for a patch.  `input`: `generate_input_data_file`, with whether the file has
been opened (and emptied) before an exception; `loads`: `plot_links_tfact_hist`; `figure`:
`plot_deformed_patch`; `bin`: the simulation program, none if it is not found, and what it leaves: no
output directory, a directory without the screen file, or a screen file with or without the message of
success (see Model/LinksRun). -/
structure PatchTools (P : Type) where
  figure : P → Py Unit
  input : P → Bool × Py Unit
  loads : P → Py Unit
  bin : Option (P → Option (Option Bool))

/-- The name of the input data file and of the output directory (gen_random_specimen.py:657). -/
def specimenName : PName := "random_specimen".toList

/-- The path of the input data file (gen_random_specimen.py:656-660, simulators/links/links.py:172). -/
def patchInputFile (p : APath) : APath := patchSimulationsDir p ++ [specimenName ++ ".dat".toList]

/-- The path of the output directory (simulators/links/links.py:269). -/
def patchOutputDir (p : APath) : APath := patchSimulationsDir p ++ [specimenName]

/-- The path of the screen file (simulators/links/links.py:279). -/
def patchScreenFile (p : APath) : APath := patchOutputDir p ++ [specimenName ++ ".screen".toList]

/-- The files of the patch (gen_random_specimen.py:175-183) and its figure (196-200). -/
def patchFile (p : APath) : APath := patchDataDir p ++ ["material_patch.pkl".toList]
@[inherit_doc patchFile]
def patchAttributesFile (p : APath) : APath := patchDataDir p ++ ["material_patch_attributes.pkl".toList]
@[inherit_doc patchFile]
def patchFigureFile (p : APath) : APath :=
  patchPlotsDir p ++ ["specimen_deformed_configuration.pdf".toList]

/-- What the program leaves (simulators/links/links.py:262-296). -/
def PatchDisk.simulated (d : PatchDisk P) (p : APath) (x : P) : Option (Option Bool) → PatchDisk P
  | none => d
  | some none => ⟨fun q => d.dirs q || decide (q = patchOutputDir p), d.file⟩
  | some (some b) => PatchDisk.write ⟨fun q => d.dirs q || decide (q = patchOutputDir p), d.file⟩
      (patchScreenFile p) (.screen x b)

/-- `run_links_simulation` and the check of its result (simulators/links/links.py:241-305,
gen_random_specimen.py:666-671). -/
def runPatch (T : PatchTools P) (d : PatchDisk P) (p : APath) (x : P) : PatchDisk P × Py (APath × APath) :=
  match T.bin with
  | none => (d, .error .osError)
  | some run =>
      (d.simulated p x (run x), match run x with
        | some (some true) => .ok (patchInputFile p, patchOutputDir p)
        | _ => .error .runtimeError)

/-- `perform_links_simulation` (gen_random_specimen.py:569-673) with the configuration `default`. -/
def simulatePatch (T : PatchTools P) (d : PatchDisk P) (p : APath) (x : P) :
    PatchDisk P × Py (APath × APath) :=
  match T.input x with
  | (opened, .error e) => (if opened then d.write (patchInputFile p) .emptyInput else d, .error e)
  | (_, .ok _) =>
      let d := d.write (patchInputFile p) (.input x)
      diskThen (d, T.loads x) fun d _ => runPatch T d p x

/-- The flags of `generate_random_patches`. -/
structure PatchFlags where
  save : Bool
  load : Bool

/-- The patch is loaded or generated (gen_random_specimen.py:121-161).  A file that is not a patch
cannot be unpickled to one. -/
def obtainPatch (F : PatchFlags) (gen : Py P) (d : PatchDisk P) (p : APath) : Py P :=
  if F.load then
    match d.file (patchFile p) with
    | none => .error .runtimeError
    | some (.patch x) => .ok x
    | some _ => .error .valueError
  else gen

/-- The patch and its attributes are saved (gen_random_specimen.py:173-188). -/
def savePatch (F : PatchFlags) (d : PatchDisk P) (p : APath) (x : P) : PatchDisk P :=
  if F.save then (d.write (patchFile p) (.patch x)).write (patchAttributesFile p) (.attributes x) else d

/-- The name of the directory of a patch (gen_random_specimen.py:109-112). -/
def patchDirName (n : ℕ) (name : PName) (i : ℕ) : PName :=
  if n > 1 then name ++ '_' :: strNat i else name

/-- The body of the loop (gen_random_specimen.py:104-211). -/
def onePatch (T : PatchTools P) (F : PatchFlags) (gen : Py P) (d : PatchDisk P) (base : APath)
    (dirName : PName) : PatchDisk P × Py (APath × APath) :=
  diskThen (setPatchDir d dirName base (!F.load)) fun d p =>
  diskThen (d, obtainPatch F gen d p) fun d x =>
  let d := savePatch F d p x
  diskThen (d, T.figure x) fun d _ =>
  simulatePatch T (d.write (patchFigureFile p) (.figure x)) p x

/-- The loop from patch `i` on, with `m` patches left; `out` are the dictionaries of the input files
and the output directories, which have the same keys. -/
def patchesLoop (T : PatchTools P) (F : PatchFlags) (gen : ℕ → Py P) (n : ℕ) (base : APath)
    (name : PName) : ℕ → ℕ → KDict Text (APath × APath) → PatchDisk P →
    PatchDisk P × Py (KDict Text (APath × APath))
  | 0, _, out, d => (d, .ok out)
  | m + 1, i, out, d =>
      diskThen (onePatch T F (gen i) d base (patchDirName n name i)) fun d r =>
        patchesLoop T F gen n base name m (i + 1) (out.put (strNat i) r) d

/-- `generate_random_patches` (gen_random_specimen.py:59-221); `gen i` is the result of
`generate_material_patch` for patch `i`, a RuntimeError if it is not admissible. -/
def generatePatches (T : PatchTools P) (F : PatchFlags) (gen : ℕ → Py P) (n : ℕ) (base : APath)
    (name : PName) (d : PatchDisk P) : PatchDisk P × Py (KDict Text (APath × APath)) :=
  patchesLoop T F gen n base name n 0 [] d

/-- The checks of `gen_patch_formatted_data` (build_local_paths_dataset.py:237-255,
links_dat_to_inp.py:41-43, links_nodedata_to_csv.py:40-42): the paths that are converted. -/
def patchFormattedData (d : PatchDisk P) (p : APath) (name : PName) : Py (APath × APath) := do
  raiseIf (!d.dirs (patchSimulationsDir p)) .runtimeError
  let inp := patchSimulationsDir p ++ [name ++ ".dat".toList]
  let out := patchSimulationsDir p ++ [name]
  raiseIf (!(d.file inp).isSome) .runtimeError
  raiseIf (!(d.dirs out || (d.file out).isSome)) .runtimeError
  pure (inp, out)

/-! ### The parameters in the script -/

/-- `set_patch_geometric_params(3)` (gen_random_specimen.py:395-430) as arguments of
`generate_deformed_patch` (323-330); no displacements are fixed. -/
noncomputable def shippedArgs3 : PatchArgs where
  bc := .none
  ranges := .dict ((List.range 8).map fun i : ℕ =>
    (toString (i + 1), some [some [-0.05, 0.05], some [-0.05, 0.05], some [-0.05, 0.05]]))
  order := .dict ((List.range 24).map fun i : ℕ => (toString (i + 1), some 3))
  edgeRanges := .dict ((List.range 24).map fun i : ℕ => (toString (i + 1), some [-0.05, 0.05]))
  translation := some [("1", (0, 0)), ("2", (0, 0)), ("3", (0, 0))]
  rotation := some [("alpha", (0, 0)), ("beta", (0, 0)), ("gamma", (0, 0))]
  noise := 0

/-- `generate_material_patch` with the parameters of the script in three dimensions
(gen_random_specimen.py:278-337, 397, 462-464); `max_iter` has its default value 10
(patch_generator.py). -/
noncomputable def shippedPatch3 (fl : ℝ → ℝ) (uniq : ℕ → List (ℕ × ℕ)) (u : PatchDraws) :
    Py DeformedPatch3 := do
  let r ← generatePatch3 fl uniq ![1, 1, 1] "SHEXA8" [9, 9, 9] shippedArgs3 10 u
  raiseIf (!r.1) .runtimeError
  orRaise r.2 .attributeError

end Hooke
