import Verif.Model.TextFile
import Verif.Model.PyDict

/-!
# Specimen mesh files

`get_specimen_mesh_from_inp_file` (user_scripts/global_model_update/material_finder/
gen_specimen_data.py) reads the mesh of a specimen from a file in the format of ABAQUS;
`write_adimu_mesh_data_file` (simulators/links/utilities/links_data_to_adimu.py) writes such a file.
The files are the texts they contain.
-/

namespace Hooke

/-- A finite element of FETorch: class and number of Gauss points. -/
structure FEKind where
  /-- Name of the class. -/
  cls : String
  /-- Number of Gauss points. -/
  nGauss : ℕ
  deriving DecidableEq

/-- `elem_type_abaqus_to_fetorch` (gen_specimen_data.py:312-342). -/
def elemTypeAbaqusToFetorch (t : Text) : Py FEKind :=
  if t = "CPE3".toList then .ok ⟨"FETri3", 1⟩
  else if t = "CPE4".toList then .ok ⟨"FEQuad4", 4⟩
  else if t = "C3D4".toList then .ok ⟨"FETetra4", 4⟩
  else if t = "C3D8".toList then .ok ⟨"FEHexa8", 8⟩
  else if t = "C3D8R".toList then .ok ⟨"FEHexa8", 1⟩
  else if t = "C3D20R".toList then .ok ⟨"FEHexa20", 8⟩
  else .error .runtimeError

/-- Coordinates in a line of the node section (gen_specimen_data.py:215-216). -/
def nodeCoords (F : NumberText) (nDim : ℕ) (line : Text) : Py (List ℝ) :=
  (((splitComma line).drop 1).take nDim).mapM F.float

/-- `torch.tensor(rows)` raises for rows of different lengths (gen_specimen_data.py:223). -/
def sameLength {α : Type} (rows : List (List α)) : Bool :=
  rows.all fun r => decide (r.length = (rows.headD []).length)

/-- Reading of the nodes (gen_specimen_data.py:198-226). -/
def readNodes (F : NumberText) (nDim : ℕ) (ls : List Text) : Py (List (List ℝ)) := do
  let rows ← (dataLines (scanLines (searchWord "*node".toList) true false ls)).mapM
    (nodeCoords F nDim)
  raiseIf (rows = []) .runtimeError
  raiseIf (sameLength rows = false) .valueError
  pure rows

/-- `re.search(r'type=([A-Z0-9]+)', line, re.IGNORECASE).groups()[0]` (gen_specimen_data.py:246-247);
`none` if nothing matches, and then `.groups()` raises an `AttributeError`. -/
def typeParameter : Text → Option Text
  | [] => none
  | c :: cs =>
    match afterPrefixCI "type=".toList (c :: cs) with
    | some r =>
      if r.takeWhile Char.isAlphanum ≠ [] then some (r.takeWhile Char.isAlphanum)
      else typeParameter cs
    | none => typeParameter cs

/-- Variables of the loop reading the elements (gen_specimen_data.py:229-238).  The keys
`str(elem_id)` are the integers. -/
structure ElemState where
  /-- `elem_type`; `none` before it is assigned. -/
  kind : Option FEKind
  /-- `elements_type`. -/
  types : KDict ℤ FEKind
  /-- `connectivities`. -/
  conns : KDict ℤ (List ℤ)
  /-- `connect_nodes`. -/
  used : List ℤ

/-- A line with the element keyword (gen_specimen_data.py:242-254). -/
def elemKeyLine (s : ElemState) (line : Text) : Py ElemState := do
  let t ← orRaise (typeParameter line) .attributeError
  let k ← elemTypeAbaqusToFetorch t
  pure { s with kind := some k }

/-- A line of an element section (gen_specimen_data.py:259-275). -/
def elemDataLine (nNode : ℕ) (s : ElemState) (line : Text) : Py ElemState := do
  let id ← intOfText ((splitComma line).headD [])
  let nodes ← ((splitComma line).drop 1).mapM intOfText
  let k ← orRaise s.kind .unboundLocal
  raiseIf (nodes.any (fun v => decide (v < 1 ∨ (nNode : ℤ) < v)) = true) .runtimeError
  pure { s with types := s.types.put id k, conns := s.conns.put id nodes, used := s.used ++ nodes }

/-- Body of the loop reading the elements (gen_specimen_data.py:240-275). -/
def elemEvent (nNode : ℕ) (s : ElemState) : ScanEvent → Py ElemState
  | .key l => elemKeyLine s l
  | .data l => elemDataLine nNode s l

/-- Reading of the elements (gen_specimen_data.py:229-282). -/
def readElements (nNode : ℕ) (ls : List Text) : Py ElemState := do
  let s ← (scanLines (searchWord "*element, type".toList) false false ls).foldlM
    (elemEvent nNode) ⟨none, [], [], []⟩
  raiseIf ((List.range nNode).all (fun v => decide (((v + 1 : ℕ) : ℤ) ∈ s.used)) = false)
    .runtimeError
  pure s

/-- Position of the item `i` of a sequence of `n` items; negative indices count from the end. -/
def wrapIndex (n : ℕ) (i : ℤ) : Option ℕ :=
  if 0 ≤ i ∧ i < n then some i.toNat
  else if i < 0 ∧ -(n : ℤ) ≤ i then some (i + n).toNat
  else none

/-- `flags[i, d] = 1`. -/
def setFlag (flags : ℕ → ℕ → ℕ) (i d : ℕ) : ℕ → ℕ → ℕ :=
  fun a b => if a = i ∧ b = d then 1 else flags a b

/-- The directions `dim in range(first - 1, last)` with `dim in range(n_dim)`
(gen_specimen_data.py:305-306). -/
def dofRange (nDim : ℕ) (first last : ℤ) : List ℕ :=
  (List.range nDim).filter fun (d : ℕ) => decide (first - 1 ≤ (d : ℤ) ∧ (d : ℤ) < last)

/-- A line of a boundary section (gen_specimen_data.py:302-307).  The node is only looked up if
there is a direction to set. -/
def boundaryLine (nNode nDim : ℕ) (flags : ℕ → ℕ → ℕ) (line : Text) : Py (ℕ → ℕ → ℕ) := do
  let id ← intOfText ((splitComma line).headD [])
  let dofs ← (((splitComma line).drop 1).take 2).mapM intOfText
  let first ← orRaise dofs[0]? .indexError
  let last ← orRaise dofs[1]? .indexError
  (dofRange nDim first last).foldlM
    (fun fl d => (orRaise (wrapIndex nNode (id - 1)) .indexError).map fun i => setFlag fl i d) flags

/-- Reading of the boundary conditions (gen_specimen_data.py:284-307). -/
def readBoundary (nNode nDim : ℕ) (ls : List Text) : Py (ℕ → ℕ → ℕ) :=
  (dataLines (scanLines (searchWord "*boundary".toList) false false ls)).foldlM
    (boundaryLine nNode nDim) fun _ _ => 0

/-- The mesh returned by `get_specimen_mesh_from_inp_file`. -/
structure SpecimenMesh where
  /-- `nodes_coords_mesh_init`: the rows. -/
  coords : List (List ℝ)
  /-- `elements_type`. -/
  types : KDict ℤ FEKind
  /-- `connectivities`. -/
  conns : KDict ℤ (List ℤ)
  /-- `dirichlet_bool_mesh`: entry of node index and direction. -/
  flags : ℕ → ℕ → ℕ

/-- `get_specimen_mesh_from_inp_file` (gen_specimen_data.py:164-310). -/
def readSpecimenMesh (F : NumberText) (nDim : ℕ) (file : Text) : Py SpecimenMesh := do
  let coords ← readNodes F nDim (fileLines file)
  let s ← readElements coords.length (fileLines file)
  let flags ← readBoundary coords.length nDim (fileLines file)
  pure ⟨coords, s.types, s.conns, flags⟩

/-- Prescribed displacements: node label, degree of freedom (from 1), value.  The keys `str(i)` of
the dictionaries are the integers. -/
abbrev DirichletBcs := KDict ℤ (KDict ℕ ℝ)

/-- Lines of the nodes (links_data_to_adimu.py:476-480). -/
def writeNodeLines (F : NumberText) (coords : List (List ℝ)) : List Text :=
  (coords.zipIdx 1).map fun p =>
    padLeft 3 (textOfInt p.2) ++ ", ".toList ++ joinText ", ".toList (p.1.map F.fmt) ++ ['\n']

/-- Lines of the elements (links_data_to_adimu.py:483-487). -/
def writeElementLines (conns : List (List ℤ)) : List Text :=
  (conns.zipIdx 1).map fun p =>
    padLeft 3 (textOfInt p.2) ++ ", ".toList ++ joinText ", ".toList (p.1.map textOfInt) ++ ['\n']

/-- Lines of the prescribed displacements (links_data_to_adimu.py:492-494). -/
def writeBoundaryLines (F : NumberText) (bcs : DirichletBcs) : List Text :=
  bcs.flatMap fun n => n.2.map fun d =>
    padLeft 3 (textOfInt n.1) ++ ", ".toList ++ textOfInt d.1 ++ ", ".toList ++ textOfInt d.1
      ++ ", ".toList ++ F.str d.2 ++ ['\n']

/-- `write_adimu_mesh_data_file` (links_data_to_adimu.py:441-499): the text of the file. -/
def writeMeshFile (F : NumberText) (coords : List (List ℝ)) (conns : List (List ℤ))
    (elemType : Text) (bcs : Option DirichletBcs) : Text :=
  (["ADiMU mesh data file (generated from Links data)\n".toList, "\n*Node\n".toList]
    ++ writeNodeLines F coords
    ++ ["\n*Element, type=".toList ++ elemType ++ ['\n']]
    ++ writeElementLines conns
    ++ (match bcs with
        | none => []
        | some b => ["\n*Boundary\n".toList] ++ writeBoundaryLines F b)).flatten

end Hooke
