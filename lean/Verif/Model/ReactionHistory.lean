import Verif.Model.ForceEquilibrium
import Verif.Model.SpecimenHistory

/-!
# Histories of the reactions of Dirichlet sets

`material_model_finder/model/material_discovery.py:3151-3311` and
`user_scripts/global_model_update/utilities/process_specimen_data.py:226-319`, `386-440`.  Figures are
left out; files of the second part are given by their contents.
-/

noncomputable section

open Classical

namespace Hooke

/-- `compute_dirichlet_sets_reaction_hist`, material_discovery.py:3151-3200: a row for each label of
the first time, with an entry for each time. -/
def setsReactionHist {N n T : ℕ} (h : ForceHist N n T) : Py (List (List ℝ)) := do
  let bc0 ← orRaise ((List.ofFn h.bc).head?) .indexError
  .ok ((List.range (uniqueLabels bc0).length).map fun s => (List.finRange T).map fun t =>
    (setsReaction (h.internal t) (h.external t) bc0).getD s 0)

/-- The table written by `store_dirichlet_sets_reaction_hist` for rows of a length `nTime`, its
columns and then its rows (material_discovery.py:3297-3311). -/
def reactionTable (nTime : ℕ) (hist : List (List ℝ)) : List String × List (List ℝ) :=
  ((List.range hist.length).map fun i => "SET " ++ toString i,
   (List.range nTime).map fun t => hist.map fun row => row.getD t 0)

/-- `torch.unique(dirichlet_bc_mesh_init[:, i])` (process_specimen_data.py:291). -/
def columnLabels {N n : ℕ} (bc : NodeMat N n ℤ) (j : Fin n) : List ℤ :=
  (Finset.univ.image fun i : Fin N => bc i j).sort (· ≤ ·)

/-- `torch.where(dirichlet_bc_mesh_init[:, i] == label)[0]` (process_specimen_data.py:295). -/
def labelNodes {N n : ℕ} (bc : NodeMat N n ℤ) (j : Fin n) (l : ℤ) : List (Fin N) :=
  (List.finRange N).filter fun i => bc i j = l

/-- A set of `build_dirichlet_sets_reaction_history`: its text, its reactions and its nodes. -/
structure ScriptSet where
  text : String
  reaction : List ℝ
  nodes : List ℕ

/-- `build_dirichlet_sets_reaction_history` for the data of a specimen
(process_specimen_data.py:267-319): the sets in order of their row. -/
def scriptSets {N n T : ℕ} (bc : Fin T → NodeMat N n ℤ) (R : Fin T → NodeMat N n ℝ) :
    Py (List ScriptSet) := do
  let bc0 ← orRaise ((List.ofFn bc).head?) .indexError
  .ok ((List.finRange n).flatMap fun j => (columnLabels bc0 j).map fun l =>
    ⟨"dim_" ++ toString (j.val + 1) ++ "_label_" ++ toString l,
     (List.finRange T).map fun t => ((labelNodes bc0 j l).map fun i => R t i j).sum,
     (labelNodes bc0 j l).map fun i => i.val + 1⟩)

/-! ### Copying of labels -/

/-- A history file read with `pandas.read_csv`: its number of rows and its columns; an entry is `none`
if it is missing (NaN). -/
structure LabelTable where
  n : ℕ
  cols : PyDict (List (Option ℝ))

/-- `['DBC1', 'DBC2', 'DBC3']` (process_specimen_data.py:430, 436). -/
def dbcNames : List String := ["DBC1", "DBC2", "DBC3"]

/-- One pass of the loop (process_specimen_data.py:422-440): the assignment aligns the rows by their
number. -/
def copyTable (src target : LabelTable) : Py LabelTable := do
  raiseIf (¬ ∀ c ∈ dbcNames, src.cols.has c = true) .runtimeError
  .ok { target with cols := dbcNames.foldl (fun d c => d.put c
    ((List.range target.n).map fun i => (((src.cols.get? c).getD [])[i]?).getD none)) target.cols }

/-- The loop (process_specimen_data.py:422-440), over files in the order of their times: the target
files afterwards and the error, if any. -/
def copyTables : List (LabelTable × LabelTable) → List LabelTable × Option PyErr
  | [] => ([], none)
  | (src, target) :: rest => match copyTable src target with
    | .error e => (target :: rest.map Prod.snd, some e)
    | .ok t => let r := copyTables rest; (t :: r.1, r.2)

/-- `copy_dbc_labels` for the contents of the history files (process_specimen_data.py:386-440). -/
def copyLabels (srcs targets : List LabelTable) : List LabelTable × Option PyErr :=
  if srcs.length ≠ targets.length then (targets, some .runtimeError)
  else copyTables (srcs.zip targets)

/-! ### Flattening of slices -/

/-- A two-dimensional tensor of shape `(n0, n1)` with its strides, in elements. -/
structure Strided where
  n0 : ℕ
  n1 : ℕ
  s0 : ℕ
  s1 : ℕ

/-- The slice `x[:, start:start + n, t]` of a contiguous array of shape `(N, width, T)` with
`start + n ≤ width`; also `x[:, start:start + n, :][:, :, t]`. -/
def columnSlice (N width T n : ℕ) : Strided := ⟨N, n, width * T, T⟩

/-- `x.view(-1)`: allowed if the elements are those of one arithmetic progression, that is if a
dimension has length one, or there is no element, or the strides merge. -/
def viewFlat (x : Strided) : Py ℕ := do
  raiseIf (¬ (x.n0 = 0 ∨ x.n1 = 0 ∨ x.n0 = 1 ∨ x.n1 = 1 ∨ x.s0 = x.n1 * x.s1)) .runtimeError
  .ok (x.n0 * x.n1)

/-- The reactions and the labels of one time as they come from `get_specimen_numerical_data`
(gen_specimen_data.py:429-454), which `set_specimen_data` and `.to(...)` on the same device keep: the
reactions are columns of the data of the files; the conversion to integers makes the labels a new
contiguous array. -/
def reactionSlice (N T n : ℕ) : Strided := columnSlice N 13 T n

/-- Labels of one time, see `reactionSlice`. -/
def labelSlice (N T n : ℕ) : Strided := columnSlice N n T n

/-- The flattening in `force_equilibrium_loss_components_hist` with Dirichlet sets, for data read from
files on the device of the model (material_discovery.py:2909-2914). -/
def flattenTime (N T n : ℕ) : Py (ℕ × ℕ) := do
  let a ← viewFlat (reactionSlice N T n)
  let b ← viewFlat (labelSlice N T n)
  .ok (a, b)

end Hooke
