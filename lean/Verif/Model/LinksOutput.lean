import Verif.Model.SpecimenHistory

/-!
# Conversions of the outputs of Links

Node data files to comma separated files (simulators/links/utilities/links_nodedata_to_csv.py), sets of
nodes with prescribed displacements and their marks in the history files
(simulators/links/utilities/links_data_to_adimu.py), and Gauss point output files to response paths
(simulators/links/utilities/links_out_to_dataset.py).  Tables are read as real numbers; precisions are
not modelled.
-/

namespace Hooke

/-! ## Node data to comma separated files -/

/-- A data frame with named columns: number of rows, and columns in order. -/
structure CsvTable where
  /-- Number of rows. -/
  nRows : ℕ
  /-- Columns. -/
  cols : KDict Text (List ℝ)

/-- The table in a comma separated file, without the names. -/
noncomputable def CsvTable.frame (c : CsvTable) : Frame :=
  ⟨c.cols.length, (List.range c.nRows).map fun i => c.cols.map fun p => p.2.getD i 0⟩

/-- The columns kept and their names (links_nodedata_to_csv.py:97-100). -/
def exportColumns : List (Text × ℕ) :=
  [("NODE".toList, 0), ("X1".toList, 3), ("X2".toList, 4), ("X3".toList, 5), ("U1".toList, 6),
    ("U2".toList, 7), ("U3".toList, 8), ("RF1".toList, 15), ("RF2".toList, 16), ("RF3".toList, 17)]

/-- The table of a time step (links_nodedata_to_csv.py:85-100). -/
noncomputable def exportTable (f : Frame) : Py CsvTable := do
  raiseIf (f.cols ≠ 18) .runtimeError
  pure ⟨f.rows.length, exportColumns.map fun p =>
    (p.1, (List.range f.rows.length).map fun i => f.at i p.2)⟩

/-- The loop over the time steps (links_nodedata_to_csv.py:83-106): the outcome and the files in the
directory. -/
noncomputable def exportLoop (name : Text) :
    ℕ → List Frame → KDict Text CsvTable → Py Unit × KDict Text CsvTable
  | _, [], d => (.ok (), d)
  | t, f :: fs, d =>
    match exportTable f with
    | .error e => (.error e, d)
    | .ok c => exportLoop name (t + 1) fs (d.put (historyFile name t) c)

/-- `os.path.basename`. -/
def baseName (p : Text) : Text := (p.reverse.takeWhile (· ≠ '/')).reverse

/-- `simulation_name` (links_nodedata_to_csv.py:45). -/
def simulationName (path : Text) : Text := splitextRoot (baseName path)

/-- `links_node_output_to_csv` (links_nodedata_to_csv.py:26-108) for the output directory `path`: the
outcome and the files of `specimen_history_data` afterwards, which has the files `old` before.  `dir` has
the files of `NODE_DATA`, or is `none` if the output directory does not exist; the simulation has no
characters special in regular expressions in its name. -/
noncomputable def exportNodeData (path : Text) (dir : Option (KDict Text Frame))
    (old : KDict Text CsvTable) : Py Unit × KDict Text CsvTable :=
  match dir with
  | none => (.error .runtimeError, old)
  | some dir =>
    match collectNodeData (path ++ "/NODE_DATA".toList) (simulationName path) dir.keys with
    | .error e => (.error e, old)
    | .ok files =>
      exportLoop (simulationName path) 0 (files.map fun f => (dir.get? f).getD ⟨0, []⟩) []

/-! ## Sets of nodes with prescribed displacements -/

/-- `set_labels` and the next `set_label` (links_data_to_adimu.py:668-680). -/
def setLabels (next : ℕ) (code : List Bool) : List ℕ × ℕ :=
  code.foldl (fun s c => if c then (s.1 ++ [s.2], s.2 + 1) else (s.1 ++ [0], s.2)) ([], next)

/-- The nodes of the sets in order with their labels (links_data_to_adimu.py:667-688). -/
def labelSets : ℕ → List (List ℕ × List Bool) → List (ℕ × List ℕ)
  | _, [] => []
  | n, s :: r => s.1.map (fun v => (v, (setLabels n s.2).1)) ++ labelSets (setLabels n s.2).2 r

/-- `dirichlet_sets` (links_data_to_adimu.py:664-688). -/
def dirichletSets (sets : List (List ℕ × List Bool)) : Py (KDict ℕ (List ℕ)) :=
  (labelSets 1 sets).foldlM (fun (d : KDict ℕ (List ℕ)) (p : ℕ × List ℕ) => do
    raiseIf (d.has p.1 = true) .runtimeError
    pure (d.put p.1 p.2)) []

/-- `dirichlet_bcs_mesh` of given sets of nodes (links_data_to_adimu.py:690-699); codes have three
values. -/
def setMarks (sets : List (List ℕ × List Bool)) (nNode : ℕ) : Py (ℕ → ℕ → ℕ) := do
  let ds ← dirichletSets sets
  ds.foldlM (fun (fl : ℕ → ℕ → ℕ) (p : ℕ × List ℕ) => do
    let i ← orRaise (wrapIndex nNode ((p.1 : ℤ) - 1)) .indexError
    pure fun a d => if a = i then p.2.getD d 0 else fl a d) fun _ _ => 0

/-- `range(a, b)` as a list. -/
def labelRange (a b : ℕ) : List ℕ := (List.range (b - a)).map (a + ·)

/-- `node_sets` (links_data_to_adimu.py:640-659): the sets are those of one specimen, written in the
code. -/
def nodeSetsInCode : List (List ℕ × List Bool) :=
  [(labelRange 21 25 ++ labelRange 317 345 ++ labelRange 1673 1713, [true, true, true]),
   ([2, 3, 5, 6] ++ labelRange 41 45 ++ labelRange 81 85 ++ labelRange 125 145 ++ labelRange 577 617,
    [true, true, true])]

/-- `generate_dirichlet_sets` (links_data_to_adimu.py:618-699). -/
def generateDirichletSets (nNode : ℕ) : Py (ℕ → ℕ → ℕ) := setMarks nodeSetsInCode nNode

/-! ## Marks in history files -/

/-- `df[['DBC1', 'DBC2', 'DBC3']] = dirichlet_bcs_mesh` and the checks around it
(links_data_to_adimu.py:724-740); `nMarks` is the number of rows of the array of marks. -/
noncomputable def markTable (nNode nMarks : ℕ) (marks : ℕ → ℕ → ℕ) (c : CsvTable) : Py CsvTable := do
  raiseIf (c.nRows ≠ nNode) .runtimeError
  raiseIf (c.nRows ≠ nMarks) .valueError
  let col := fun d : ℕ => (List.range c.nRows).map fun i : ℕ => ((marks i d : ℕ) : ℝ)
  let cols := ((c.cols.put "DBC1".toList (col 0)).put "DBC2".toList (col 1)).put "DBC3".toList (col 2)
  raiseIf (cols.length ≠ 13) .runtimeError
  pure ⟨c.nRows, cols⟩

/-- The loop over the files (links_data_to_adimu.py:722-743): the outcome and the files afterwards. -/
noncomputable def updateLoop (nNode nMarks : ℕ) (marks : ℕ → ℕ → ℕ) :
    List Text → KDict Text CsvTable → Py Unit × KDict Text CsvTable
  | [], d => (.ok (), d)
  | f :: fs, d =>
    match d.get? f with
    | none => (.error .osError, d)
    | some c =>
      match markTable nNode nMarks marks c with
      | .error e => (.error e, d)
      | .ok c' => updateLoop nNode nMarks marks fs (d.put f c')

/-- `update_adimu_mesh_hist_data_files_dirichlet` (links_data_to_adimu.py:701-743).  The number of rows
of the first file is counted with another separator, which finds the same rows. -/
noncomputable def updateMarks (paths : List Text) (nMarks : ℕ) (marks : ℕ → ℕ → ℕ)
    (d : KDict Text CsvTable) : Py Unit × KDict Text CsvTable :=
  match paths with
  | [] => (.error .indexError, d)
  | p :: _ =>
    match d.get? p with
    | none => (.error .osError, d)
    | some c => updateLoop c.nRows nMarks marks paths d

/-! ## Gauss points -/

/-- A response path of a Gauss point (links_out_to_dataset.py:145-155). -/
structure GaussPath where
  /-- `strain_comps_order` and `stress_comps_order`, which are equal. -/
  order : List (ℕ × ℕ)
  /-- `time_hist`. -/
  times : List ℝ
  /-- `strain_path`. -/
  strain : List (List ℝ)
  /-- `stress_path`. -/
  stress : List (List ℝ)

/-- `strain_comps_order` and `stress_comps_order` in three dimensions
(links_out_to_dataset.py:103, 109). -/
def gaussComps : List (ℕ × ℕ) := [(1, 1), (2, 2), (3, 3), (1, 2), (2, 3), (1, 3)]

/-- `extract_sample_path` (links_out_to_dataset.py:74-157); the file is the table after its two header
lines.  In two dimensions the components are `None`, which has no length. -/
noncomputable def gaussPath (nDim : ℕ) (file : Option Frame) : Py GaussPath := do
  let f ← orRaise file .runtimeError
  raiseIf (nDim = 2) .typeError
  raiseIf (f.cols < 53 + 6) .indexError
  let rows := List.range f.rows.length
  pure {
    order := gaussComps
    times := rows.map fun t => f.at t 0
    strain := rows.map fun t => gaussComps.zipIdx.map fun p =>
      (if p.1.1 ≠ p.1.2 then 1 / 2 else 1) * f.at t (53 + p.2)
    stress := rows.map fun t => gaussComps.zipIdx.map fun p => f.at t (11 + p.2) }

/-- `build_dataset` (links_out_to_dataset.py:42-72): the samples of the dataset. -/
noncomputable def gaussDataset (nDim : ℕ) (files : List (Option Frame)) : Py (List GaussPath) :=
  files.mapM (gaussPath nDim)

end Hooke
