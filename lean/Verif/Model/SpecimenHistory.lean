import Verif.Model.SpecimenMesh
import Mathlib.Data.List.Sort
import Mathlib.Data.Real.Archimedean

/-!
# History of a specimen from the node data files of a simulation

The node data files of a Links simulation are collected and written as the history files of a
specimen (simulators/links/utilities/links_data_to_adimu.py), which are collected and read by
user_scripts/global_model_update/material_finder/gen_specimen_data.py;
`LinksSimulator.read_links_simulation_results` (simulators/links/links.py) reads the node data files
too.  A directory is the list of its files in the order of `os.listdir`; a file is the table in it.
Names of simulations and specimens have no characters special in regular expressions.
-/

namespace Hooke

/-- A data frame: number of columns and rows. -/
structure Frame where
  /-- Number of columns. -/
  cols : ℕ
  /-- Rows. -/
  rows : List (List ℝ)

/-- An entry (zero outside the frame, which is never asked for). -/
noncomputable def Frame.at (f : Frame) (i j : ℕ) : ℝ := (f.rows.getD i []).getD j 0

/-- `re.search(r'(\d+)\D*$', x).groups()[-1]` as an integer: the last digits of the text; `none` if
there are none, and then `.groups()` raises an `AttributeError`. -/
def lastNumber (s : Text) : Option ℕ :=
  parseInt ((s.reverse.dropWhile fun c => !c.isDigit).takeWhile Char.isDigit).reverse

/-- `sorted(l, key=...)` of items with their keys. -/
def sortByKey {α : Type} (l : List (ℕ × α)) : List α :=
  (l.insertionSort fun a b => a.1 ≤ b.1).map Prod.snd

/-- The files of the directory `root` sorted by the last number of their path
(gen_specimen_data.py:388-390, links_data_to_adimu.py:435-437). -/
def sortFiles (root : Text) (files : List Text) : Py (List Text) := do
  let keyed ← files.mapM fun f =>
    (orRaise (lastNumber (root ++ '/' :: f)) .attributeError).map fun n : ℕ => (n, f)
  pure (sortByKey keyed)

/-! ## Node data files -/

/-- `re.search(r'^' + name + r'(.*)' + r'\.nodedata$', f)` (links_data_to_adimu.py:426-427). -/
def isNodeDataFile (name f : Text) : Bool :=
  match afterPrefix name f with
  | none => false
  | some r => decide (".nodedata".toList <:+ r)

/-- `collect_node_data_files_from_links_data` (links_data_to_adimu.py:394-439): names of the files in
the directory `root`. -/
def collectNodeData (root name : Text) (files : List Text) : Py (List Text) :=
  sortFiles root (files.filter (isNodeDataFile name))

/-- The node data of `read_links_simulation_results` (links.py:353-409): the tables along the last
axis, or `None`.  A file with a single row raises, being read as a vector; tables of another shape
than the first raise (those with a single row, which are broadcast, are not modelled). -/
noncomputable def readNodeResults (name : Text) (dir : KDict Text Frame) :
    Py (Option (List Frame)) := do
  let keyed ← (dir.filter fun p => isNodeDataFile name p.1).mapM fun p =>
    (intOfText ((splitText (· == '_') (splitextRoot p.1)).getLastD [])).map fun n : ℤ => (n, p.2)
  let frames := (keyed.insertionSort fun a b => a.1 ≤ b.1).map Prod.snd
  match frames with
  | [] => pure none
  | f :: _ => do
    raiseIf (f.rows.length = 1 ∨ f.cols = 1) .indexError
    raiseIf ((frames.all fun g => decide (g.cols = f.cols ∧ g.rows.length = f.rows.length)) = false)
      .valueError
    pure (some frames)

/-! ## Writing -/

/-- `generate_pointwise_sets` (links_data_to_adimu.py:580-616). -/
def pointwiseSets (nNode : ℕ) (bcs : DirichletBcs) : Py (ℕ → ℕ → ℕ) :=
  (bcs.flatMap fun n => n.2.map fun d => (n.1, d.1)).foldlM
    (fun fl (p : ℤ × ℕ) => do
      let i ← orRaise (wrapIndex nNode (p.1 - 1)) .indexError
      let d ← orRaise (wrapIndex 3 ((p.2 : ℤ) - 1)) .indexError
      pure (setFlag fl i d)) fun _ _ => 0

/-- `dirichlet_bcs_mesh` for pointwise losses (links_data_to_adimu.py:539-543). -/
def historyMarks (nNode : ℕ) : Option DirichletBcs → Py (ℕ → ℕ → ℕ)
  | none => .ok fun _ _ => 0
  | some b => pointwiseSets nNode b

/-- The columns kept (links_data_to_adimu.py:569): node, coordinates, displacements, reactions. -/
def historyColumns : List ℕ := [0, 3, 4, 5, 6, 7, 8, 15, 16, 17]

/-- `f'{simulation_name}_tstep_{t}.csv'` (links_data_to_adimu.py:576). -/
def historyFile (name : Text) (t : ℕ) : Text := name ++ "_tstep_".toList ++ strNat t ++ ".csv".toList

/-- The frame of a time step (links_data_to_adimu.py:548-571). -/
noncomputable def historyFrame (nNode : ℕ) (marks : ℕ → ℕ → ℕ) (f : Frame) : Py Frame := do
  raiseIf (f.cols ≠ 18) .runtimeError
  raiseIf (f.rows.length ≠ nNode) .valueError
  pure ⟨13, (List.range nNode).map fun i => historyColumns.map (fun j => f.at i j)
    ++ (List.range 3).map fun d => ((marks i d : ℕ) : ℝ)⟩

/-- `write_adimu_mesh_hist_data_files` (links_data_to_adimu.py:501-578) for pointwise losses: the
files in the directory. -/
noncomputable def writeHistory (name : Text) (frames : List Frame) (bcs : Option DirichletBcs) :
    Py (KDict Text Frame) := do
  let first ← orRaise frames[0]? .indexError
  let marks ← historyMarks first.rows.length bcs
  frames.zipIdx.mapM fun p : Frame × ℕ =>
    (historyFrame first.rows.length marks p.1).map fun f => (historyFile name p.2, f)

/-- The history part of `gen_adimu_data_from_links` (links_data_to_adimu.py:113-137). -/
noncomputable def linksToHistory (root name out : Text) (dir : KDict Text Frame)
    (bcs : Option DirichletBcs) : Py (KDict Text Frame) := do
  let files ← collectNodeData root name dir.keys
  let frames ← files.mapM fun f => orRaise (dir.get? f) .osError
  writeHistory out frames bcs

/-! ## Reading -/

/-- `re.search(r'^' + specimen_name + r'_tstep_[0-9]+' + r'\.csv', f)` (gen_specimen_data.py:372-374);
the pattern is not anchored at the end. -/
def isHistoryFile (name f : Text) : Bool :=
  match afterPrefix (name ++ "_tstep_".toList) f with
  | none => false
  | some r => decide (r.takeWhile Char.isDigit ≠ []) &&
      (afterPrefix ".csv".toList (r.dropWhile Char.isDigit)).isSome

/-- `get_specimen_history_paths` (gen_specimen_data.py:344-392): names of the files in the directory
`root`. -/
def historyPaths (root name : Text) (files : List Text) : Py (List Text) := do
  raiseIf (files.filter (isHistoryFile name) = []) .runtimeError
  sortFiles root (files.filter (isHistoryFile name))

/-- `x.int()`: truncation. -/
noncomputable def truncInt (x : ℝ) : ℤ := if 0 ≤ x then ⌊x⌋ else ⌈x⌉

/-- The numerical data of a specimen (gen_specimen_data.py:449-460); indices are node, direction and
time. -/
structure SpecimenHistory where
  /-- `nodes_disps_mesh_hist`. -/
  disps : ℕ → ℕ → ℕ → ℝ
  /-- `reaction_forces_mesh_hist`. -/
  forces : ℕ → ℕ → ℕ → ℝ
  /-- `dirichlet_bc_mesh_hist`. -/
  marks : ℕ → ℕ → ℕ → ℤ
  /-- `time_hist`. -/
  times : List ℝ

/-- A time step file (gen_specimen_data.py:433-444). -/
def historyTable (nNode : ℕ) (dir : KDict Text Frame) (f : Text) : Py Frame := do
  let fr ← orRaise (dir.get? f) .osError
  raiseIf (fr.rows.length ≠ nNode) .runtimeError
  raiseIf (fr.cols ≠ 13) .runtimeError
  pure fr

/-- `get_specimen_numerical_data` (gen_specimen_data.py:394-460).  `rd` is the rounding of the texts
in the files and of the tensor `node_data`, which has the default precision. -/
noncomputable def specimenNumericalData (rd : ℝ → ℝ) (nNode : ℕ) (dir : KDict Text Frame)
    (files : List Text) : Py SpecimenHistory := do
  let frames ← files.mapM (historyTable nNode dir)
  pure { disps := fun i d t => rd ((frames.getD t ⟨0, []⟩).at i (4 + d))
         forces := fun i d t => rd ((frames.getD t ⟨0, []⟩).at i (7 + d))
         marks := fun i d t => truncInt (rd ((frames.getD t ⟨0, []⟩).at i (10 + d)))
         times := (List.range files.length).map fun t : ℕ => (t : ℝ) }

/-- Collecting and reading the history of a specimen (gen_specimen_data.py:129-131). -/
noncomputable def readHistory (rd : ℝ → ℝ) (root name : Text) (nNode : ℕ) (dir : KDict Text Frame) :
    Py SpecimenHistory := do
  let files ← historyPaths root name dir.keys
  specimenNumericalData rd nNode dir files

/-- The paths returned by `gen_specimen_dataset` (gen_specimen_data.py:138-162): each is assigned only
if the corresponding file is saved. -/
def specimenDatasetPaths (root : Text) (saveData saveState : Bool) : Py (Text × Text) := do
  let p ← orRaise (if saveData then some (root ++ "/specimen_data.pt".toList) else none) .unboundLocal
  let q ← orRaise (if saveState then some (root ++ "/specimen_material_state.pt".toList) else none)
    .unboundLocal
  pure (p, q)

end Hooke
