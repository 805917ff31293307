import Verif.Model.LinksFile

/-!
# Conversion between Links and ABAQUS input data files

`simulators/links/utilities/links_dat_to_inp.py`: `links_dat_to_abaqus_inp` reads a Links input data file
and writes its mesh and prescribed displacements in the format of ABAQUS; `abaqus_inp_to_links_dat` reads
a file in the format of ABAQUS and writes the corresponding sections of a Links input data file.
The files are the texts they contain; the paths are not modelled.
-/

namespace Hooke

/-! ## From Links to ABAQUS -/

/-- The text written by `links_dat_to_abaqus_inp` (links_dat_to_inp.py:187-214). -/
def abaqusFile (F : NumberText) (coords : List (List ℝ)) (conns : List (List ℤ)) (elemType : Text)
    (bcs : DirichletBcs) : Text :=
  (["Automatically generated ABAQUS format input file\n".toList, "\n*Node\n".toList]
    ++ writeNodeLines F coords
    ++ ["\n*Element, type=".toList ++ elemType ++ ['\n']]
    ++ writeElementLines conns
    ++ (["\n*Boundary\n".toList] ++ writeBoundaryLines F bcs)).flatten

/-- `links_dat_to_abaqus_inp` (links_dat_to_inp.py:27-216).  The loops that read the sections (58-81,
101-126, 129-154, 157-185) and the table of the element types (89-98) are those of
`links_data_to_adimu.py`. -/
def datToInp (F : NumberText) (file : Text) : Py Text := do
  let tg ← extractElemType file
  let t ← linksToAbaqus tg.1 tg.2
  let coords ← extractCoords F file
  let conns ← extractConns file
  let bcs ← extractBcs F file
  pure (abaqusFile F coords conns t bcs)

/-! ## From ABAQUS to Links -/

/-- Reading of the nodes (links_dat_to_inp.py:241-270): unlike in a tensor, the rows may have different
lengths. -/
def inpNodes (F : NumberText) (nDim : ℕ) (ls : List Text) : Py (List (List ℝ)) := do
  let rows ← (dataLines (scanLines (searchWord "*node".toList) true false ls)).mapM
    (nodeCoords F nDim)
  raiseIf (rows = []) .runtimeError
  pure rows

/-- Variables of the loop reading the elements (links_dat_to_inp.py:272-276). -/
structure InpState where
  /-- `connectivities`. -/
  conns : KDict ℤ (List ℤ)
  /-- `connect_nodes`. -/
  used : List ℤ

/-- Body of the loop reading the elements (links_dat_to_inp.py:282-314); the element type is looked
for, and not used. -/
def inpElemEvent (nNode : ℕ) (s : InpState) : ScanEvent → Py InpState
  | .key l => do
    let _ ← orRaise (typeParameter l) .attributeError
    pure s
  | .data l => do
    let id ← intOfText ((splitComma l).headD [])
    let nodes ← ((splitComma l).drop 1).mapM intOfText
    raiseIf (nodes.any (fun v => decide (v < 1 ∨ (nNode : ℤ) < v)) = true) .runtimeError
    pure ⟨s.conns.put id nodes, s.used ++ nodes⟩

/-- Reading of the elements (links_dat_to_inp.py:272-323). -/
def inpElements (nNode : ℕ) (ls : List Text) : Py (KDict ℤ (List ℤ)) := do
  let s ← (scanLines (searchWord "*element, type".toList) false false ls).foldlM
    (inpElemEvent nNode) ⟨[], []⟩
  raiseIf ((List.range nNode).all (fun v => decide (((v + 1 : ℕ) : ℤ) ∈ s.used)) = false)
    .runtimeError
  pure s.conns

/-- Prescribed displacements: node label, direction (from 0), value. -/
abbrev InpBcs := KDict ℤ (KDict ℤ ℝ)

/-- `range(first - 1, last)` (links_dat_to_inp.py:354). -/
def inpDims (first last : ℤ) : List ℤ :=
  (List.range (last - (first - 1)).toNat).map fun k : ℕ => first - 1 + (k : ℤ)

/-- A line of a boundary section (links_dat_to_inp.py:342-355). -/
def inpBoundaryLine (F : NumberText) (bcs : InpBcs) (line : Text) : Py InpBcs := do
  let id ← intOfText ((splitComma line).headD [])
  let dofs ← (((splitComma line).drop 1).take 2).mapM intOfText
  let w ← orRaise (splitComma line)[3]? .indexError
  let u ← F.float w
  let first ← orRaise dofs[0]? .indexError
  let last ← orRaise dofs[1]? .indexError
  pure (bcs.put id ((inpDims first last).foldl (fun b d => b.put d u) ((bcs.get? id).getD [])))

/-- Reading of the boundary conditions (links_dat_to_inp.py:325-355). -/
def inpBoundary (F : NumberText) (ls : List Text) : Py InpBcs :=
  (dataLines (scanLines (searchWord "*boundary".toList) false false ls)).foldlM
    (inpBoundaryLine F) []

/-- Lines of the elements, all of the group 1 (links_dat_to_inp.py:367-373). -/
def datElementLines (conns : KDict ℤ (List ℤ)) : Py (List Text) :=
  (List.range conns.length).mapM fun i => do
    let e ← orRaise (conns.get? ((i + 1 : ℕ) : ℤ)) .keyError
    pure (padLeft 3 (textOfInt ((i + 1 : ℕ) : ℤ)) ++ padCenter 5 (textOfInt 1)
      ++ joinText " ".toList (e.map textOfInt) ++ ['\n'])

/-- Lines of the nodes (links_dat_to_inp.py:375-380). -/
def datNodeLines (F : NumberText) (coords : List (List ℝ)) : List Text :=
  (coords.zipIdx 1).map fun p =>
    padLeft 3 (textOfInt (p.2 : ℤ)) ++ " ".toList ++ joinText " ".toList (p.1.map F.fmt) ++ ['\n']

/-- `dirichlet_code` (links_dat_to_inp.py:389-390). -/
def datCode (b : KDict ℤ ℝ) : List ℤ :=
  (List.range 3).map fun d : ℕ => if (b.get? (d : ℤ)).isSome then 1 else 0

/-- `dirichlet_disps` (links_dat_to_inp.py:392-397). -/
noncomputable def datDisps (nDim : ℕ) (b : KDict ℤ ℝ) : List ℝ :=
  ((List.range 3).map fun d : ℕ => (b.get? (d : ℤ)).getD 0) ++ (if nDim = 2 then [0] else [])

/-- Line of a node with prescribed displacements (links_dat_to_inp.py:386-403). -/
noncomputable def datDispLine (F : NumberText) (nDim : ℕ) (bcs : InpBcs) (n : ℤ) : Text :=
  " ".toList ++ padLeft 3 (textOfInt n) ++ " ".toList
    ++ ((datCode ((bcs.get? n).getD [])).map textOfInt).flatten
    ++ joinText " ".toList ((datDisps nDim ((bcs.get? n).getD [])).map F.fmt) ++ ['\n']

/-- `nodes_id_sorted` (links_dat_to_inp.py:384). -/
def datLabels (bcs : InpBcs) : List ℤ := bcs.keys.insertionSort (· ≤ ·)

/-- `abaqus_inp_to_links_dat` (links_dat_to_inp.py:218-408): the text of the file. -/
noncomputable def inpToDat (F : NumberText) (nDim : ℕ) (file : Text) : Py Text := do
  let coords ← inpNodes F nDim (fileLines file)
  let conns ← inpElements coords.length (fileLines file)
  let bcs ← inpBoundary F (fileLines file)
  let els ← datElementLines conns
  pure (["\nELEMENTS ".toList ++ strNat conns.length ++ ['\n']] ++ els
    ++ ["\nNODE_COORDINATES ".toList ++ strNat coords.length ++ " CARTESIAN\n".toList]
    ++ datNodeLines F coords
    ++ ["\nNODES_WITH_PRESCRIBED_DISPLACEMENTS ".toList ++ strNat bcs.length ++ ['\n']]
    ++ (datLabels bcs).map (datDispLine F nDim bcs)).flatten

end Hooke
