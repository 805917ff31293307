import Verif.Model.LinksFile
import Verif.Model.NumberFormat

/-!
# Boundary conditions of specimens

`simulators/links/utilities/links_specimen_dirichlet.py`: the nodes of a Links input data file are
read, the nodes on the symmetry planes, on the base and on the top of a specimen are found, and
their prescribed displacements are written to a file.
-/

namespace Hooke

/-- `np.abs(x) < small` (links_specimen_dirichlet.py:116, 139-175). -/
noncomputable def nearZero (x : ℝ) : Bool := decide (|x| < 1e-8)

/-- `coords[i]`. -/
def coordAt (coords : List ℝ) (i : ℕ) : Py ℝ := orRaise coords[i]? .indexError

/-- `np.abs(coords[i] - v) < small`. -/
noncomputable def isNear (coords : List ℝ) (i : ℕ) (v : ℝ) : Py Bool := do
  let x ← coordAt coords i
  pure (nearZero (x - v))

/-- `np.all(np.abs(coords[idx]) < small)` for a list of indices. -/
noncomputable def allNear (coords : List ℝ) (idx : List ℕ) : Py Bool := do
  let xs ← idx.mapM (coordAt coords)
  pure (xs.all nearZero)

/-- `a and b`. -/
def andThen (a b : Py Bool) : Py Bool := do
  let x ← a
  if x then b else pure false

/-- `if ... elif ... elif ...`: the value of the first condition that holds. -/
def firstCase {α : Type} (default : α) : List (Py Bool × α) → Py α
  | [] => pure default
  | (c, a) :: cs => do
    let b ← c
    if b then pure a else firstCase default cs

/-- `build_node_disps` (links_specimen_dirichlet.py:181-203). -/
def nodeDisps (value : Option ℝ) (dim : ℕ) : List ℝ :=
  match value with
  | none => [0, 0, 0]
  | some v => [0, 0, 0].set dim v

/-- `available_specimens` (links_specimen_dirichlet.py:119-120). -/
def specimenNames : List String := ["3d_tensile_double_notched", "3d_tensile_dogbone"]

/-- `get_specimen_node_dbc` (links_specimen_dirichlet.py:89-179): code and displacements of a node.
The coordinates are a one-dimensional array. -/
noncomputable def specimenNode (name : String) (top disp : ℝ) (coords : List ℝ) :
    Py (List ℤ × List ℝ) := do
  raiseIf (name ∉ specimenNames) .runtimeError
  firstCase ([0, 0, 0], nodeDisps none 1)
    [(pure (coords.all nearZero), ([1, 1, 1], nodeDisps none 1)),
     (andThen (isNear coords 0 0) (andThen (isNear coords 1 top) (isNear coords 2 0)),
      ([1, 1, 1], nodeDisps (some disp) 1)),
     (allNear coords [0, 1], ([1, 1, 0], nodeDisps none 1)),
     (allNear coords [1, 2], ([0, 1, 1], nodeDisps none 1)),
     (allNear coords [0, 2], ([1, 0, 1], nodeDisps none 1)),
     (andThen (isNear coords 0 0) (isNear coords 1 top), ([1, 1, 0], nodeDisps (some disp) 1)),
     (andThen (isNear coords 1 top) (isNear coords 2 0), ([0, 1, 1], nodeDisps (some disp) 1)),
     (isNear coords 1 0, ([0, 1, 0], nodeDisps none 1)),
     (isNear coords 0 0, ([1, 0, 0], nodeDisps none 1)),
     (isNear coords 2 0, ([0, 0, 1], nodeDisps none 1)),
     (isNear coords 1 top, ([0, 1, 0], nodeDisps (some disp) 1))]

/-- A row of the array of boundary conditions (links_specimen_dirichlet.py:81-82).  In the array the label
and the code are floating point numbers, converted back by `int` where they are used. -/
structure DbcRow where
  /-- Label of the node. -/
  label : ℕ
  /-- Code of the prescribed directions. -/
  code : List ℤ
  /-- Displacements. -/
  disps : List ℝ

/-- Body of the loop of `build_specimen_dbc` (links_specimen_dirichlet.py:67-82). -/
noncomputable def dbcStep (name : String) (top disp : ℝ) (rows : List DbcRow) (p : List ℝ × ℕ) :
    Py (List DbcRow) := do
  let cd ← specimenNode name top disp p.1
  if cd.1.all (fun c => decide (c = 0)) then pure rows
  else pure (rows ++ [⟨p.2 + 1, cd.1, cd.2⟩])

/-- `build_specimen_dbc` (links_specimen_dirichlet.py:33-87). -/
noncomputable def buildDbc (name : String) (top disp : ℝ) (coords : List (List ℝ)) :
    Py (List DbcRow) :=
  coords.zipIdx.foldlM (dbcStep name top disp) []

/-- Line of a node (links_specimen_dirichlet.py:236-245). -/
noncomputable def dbcLine (r : DbcRow) : Text :=
  "  ".toList ++ padLeft 4 (strNat r.label) ++ " ".toList ++ (r.code.map textOfInt).flatten
    ++ " ".toList ++ (r.disps.map (sciField 11 4)).flatten ++ "\n".toList

/-- `reaction_nodes` (links_specimen_dirichlet.py:251-259). -/
noncomputable def reactionNodes (rows : List DbcRow) : List ℕ :=
  (rows.filter fun r => r.disps.any fun u => decide ((1e-8 : ℝ) < u)).map DbcRow.label

/-- `write_links_dirichlet_bc_file` (links_specimen_dirichlet.py:205-276): the text of the file.  The check
of the directory and the value returned (the closed file) are not modelled. -/
noncomputable def dbcFile (rows : List DbcRow) (reactionGroup : Bool) : Text :=
  (("NODES_WITH_PRESCRIBED_DISPLACEMENTS ".toList ++ strNat rows.length ++ "\n".toList)
    :: rows.map dbcLine
    ++ (if reactionGroup then
        ["\nNODE_GROUPS 1\n".toList, "1 ".toList ++ strNat (reactionNodes rows).length ++ "\n".toList]
          ++ (reactionNodes rows).map (fun n => strNat n ++ "\n".toList)
      else [])).flatten

/-- Body of the loop reading the nodes (links_specimen_dirichlet.py:305-319). -/
def nodeEvent {α : Type} (row : Text → Py α) (s : Option (List α)) : ScanEvent → Py (Option (List α))
  | .key _ => pure (some [])
  | .data l => do
    let r ← row l
    let rows ← orRaise s .unboundLocal
    pure (some (rows ++ [r]))

/-- `read_links_nodes_coords_mesh` (links_specimen_dirichlet.py:278-324).  The check of the path is not
modelled; `np.array` raises for rows of different lengths. -/
def readNodesMesh (F : NumberText) (file : Text) : Py (List (List ℝ)) := do
  let s ← (scanLines (searchWord "NODE_COORDINATES".toList) true false (fileLines file)).foldlM
    (nodeEvent fun l => ((splitBlank l).drop 1).mapM F.float) none
  let rows ← orRaise s .unboundLocal
  raiseIf (sameLength rows = false) .valueError
  pure rows

/-- The script (links_specimen_dirichlet.py:326-366): nodes of a file, conditions, file of the
conditions with the group of the loaded nodes. -/
noncomputable def specimenDbcFile (F : NumberText) (name : String) (top disp : ℝ) (file : Text) :
    Py Text := do
  let coords ← readNodesMesh F file
  let rows ← buildDbc name top disp coords
  pure (dbcFile rows true)

end Hooke
