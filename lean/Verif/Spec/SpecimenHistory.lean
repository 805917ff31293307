import Verif.Model.SpecimenHistory
import Verif.Spec.SpecimenMesh

/-!
# Specification of the transfer of histories
-/

namespace Hooke.Spec

/-- `<name>_<step>.nodedata`. -/
def nodeFile (name step : Text) : Text := name ++ '_' :: (step ++ ".nodedata".toList)

/-- The node data files of a simulation, in the order of the time steps: step number, its text in the
file name (possibly with leading zeros), and table.  The directory has these files, listed in any
order, and other files of other types. -/
structure NodeDataDir (name : Text) (dir : KDict Text Frame) (steps : List (ℕ × Text × Frame)) :
    Prop where
  numbers : ∀ s ∈ steps, parseInt s.2.1 = some s.1
  increasing : (steps.map Prod.fst).Pairwise (· < ·)
  nodup : (dir.map Prod.fst).Nodup
  files : ∀ s ∈ steps, (nodeFile name s.2.1, s.2.2) ∈ dir
  others : ∀ p ∈ dir, (∃ s ∈ steps, p = (nodeFile name s.2.1, s.2.2)) ∨
    ¬ ".nodedata".toList <:+ p.1

/-- The tables of a simulation: eighteen columns and a row per node. -/
def NodeTables (nNode : ℕ) (steps : List (ℕ × Text × Frame)) : Prop :=
  ∀ s ∈ steps, s.2.2.cols = 18 ∧ s.2.2.rows.length = nNode ∧ ∀ r ∈ s.2.2.rows, r.length = 18

/-- Prescribed displacements of nodes of the mesh in the three directions. -/
def BcsWithin (nNode : ℕ) (bcs : Option DirichletBcs) : Prop :=
  ∀ b n ds, bcs = some b → (n, ds) ∈ b → 1 ≤ n ∧ n ≤ (nNode : ℤ) ∧
    ∀ d u, (d, u) ∈ ds → 1 ≤ d ∧ d ≤ 3

/-- The history of the specimen is that of the simulation whose tables of nodal results are given:
columns 6 to 8 of a table are the displacements of a node and columns 15 to 17 its reactions.  The
time of a step is its position in the history. -/
structure HistoryOf (rd : ℝ → ℝ) (nNode : ℕ) (tables : List Frame) (bcs : Option DirichletBcs)
    (h : SpecimenHistory) : Prop where
  times : h.times = (List.range tables.length).map fun t : ℕ => (t : ℝ)
  values : ∀ i d t f, i < nNode → d < 3 → tables[t]? = some f →
    h.disps i d t = rd (f.at i (6 + d)) ∧ h.forces i d t = rd (f.at i (15 + d)) ∧
      (Prescribed bcs ((i : ℤ) + 1) (d + 1) → h.marks i d t = 1) ∧
      (¬ Prescribed bcs ((i : ℤ) + 1) (d + 1) → h.marks i d t = 0)

end Hooke.Spec
