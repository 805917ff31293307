import Verif.Model.SpecimenMesh
import Mathlib.Data.List.Sort

/-!
# Links input data files

`LinksSimulator._write_links_input_data_file` (simulators/links/links.py) writes the input data file
of a simulation; the functions `extract_*_from_links_data`
(simulators/links/utilities/links_data_to_adimu.py) read the mesh from it, and
`gen_adimu_data_from_links` writes it as a specimen mesh file.
-/

namespace Hooke

/-! ## Reading -/

/-- `bool(re.search(r'\b' + pat + r'\b', s, re.IGNORECASE))` for a literal pattern of word characters;
`prev` tells whether a word character precedes `s`. -/
def searchWhole (pat : Text) : Bool → Text → Bool
  | prev, [] => !prev && matchWord pat []
  | prev, c :: cs => (!prev && matchWord pat (c :: cs)) || searchWhole pat (isWordChar c) cs

/-- `line.split()[i]`. -/
def fieldOf (line : Text) (i : ℕ) : Py Text := orRaise (splitBlank line)[i]? .indexError

/-- `elem_type` and `n_gauss` (links_data_to_adimu.py:169-188); `none` before they are assigned. -/
structure TypeState where
  /-- `elem_type`. -/
  elemType : Option Text
  /-- `n_gauss`. -/
  nGauss : Option ℤ

/-- Body of the loop reading the element type (links_data_to_adimu.py:170-188). -/
def typeEvent (s : TypeState) : ScanEvent → Py TypeState
  | .key l => do
    let f ← fieldOf l 1
    let n ← intOfText f
    raiseIf (1 < n) .runtimeError
    pure s
  | .data l =>
    if searchWhole "GP".toList false l then do
      let f ← fieldOf l 0
      let n ← intOfText f
      pure { s with nGauss := some n }
    else do
      let f ← fieldOf l 1
      pure { s with elemType := some (f.map Char.toUpper) }

/-- `extract_element_type_from_links_data` (links_data_to_adimu.py:141-193). -/
def extractElemType (file : Text) : Py (Text × ℤ) := do
  let s ← (scanLines (searchWord "ELEMENT_TYPES".toList) true false (fileLines file)).foldlM
    typeEvent ⟨none, none⟩
  let t ← orRaise s.elemType .unboundLocal
  let g ← orRaise s.nGauss .unboundLocal
  pure (t, g)

/-- The element types of Links and ABAQUS (links_data_to_adimu.py:212-216). -/
def linksAbaqusTypes : KDict String String :=
  [("TRI_3_1", "CPE3"), ("TRI3_1", "CPE3"), ("QUAD_4_4", "CPE4"), ("QUAD4_4", "CPE4"),
    ("TETRA_4_4", "C3D4"), ("TETRA4_4", "C3D4"), ("HEXA_8_8", "C3D8"), ("HEXA8_8", "C3D8"),
    ("HEXA_20_8", "C3D20R"), ("HEXA20_8", "C3D20R")]

/-- `links_to_abaqus_elem_type` (links_data_to_adimu.py:195-225). -/
def linksToAbaqus (t : Text) (g : ℤ) : Py Text :=
  (orRaise (linksAbaqusTypes.get? (String.ofList (t ++ ['_'] ++ textOfInt g))) .runtimeError).map
    String.toList

/-- Body of a loop collecting rows: the keyword restarts the list (links_data_to_adimu.py:255-270,
308-323). -/
def rowEvent {α : Type} (row : Text → Py α) (s : Option (List α)) : ScanEvent → Py (Option (List α))
  | .key l => do
    let f ← fieldOf l 1
    let _ ← intOfText f
    pure (some [])
  | .data l => do
    let r ← row l
    let rows ← orRaise s .unboundLocal
    pure (some (rows ++ [r]))

/-- The rows of the sections of a keyword as an array: `np.array` raises for rows of different
lengths. -/
def extractRows {α : Type} (kw : Text) (row : Text → Py (List α)) (file : Text) :
    Py (List (List α)) := do
  let s ← (scanLines (searchWord kw) true false (fileLines file)).foldlM (rowEvent row) none
  let rows ← orRaise s .unboundLocal
  raiseIf (sameLength rows = false) .valueError
  pure rows

/-- `extract_mesh_coordinates_from_links_data` (links_data_to_adimu.py:227-278). -/
def extractCoords (F : NumberText) (file : Text) : Py (List (List ℝ)) :=
  extractRows "NODE_COORDINATES".toList (fun l => ((splitBlank l).drop 1).mapM F.float) file

/-- `extract_mesh_connectivities_from_links_data` (links_data_to_adimu.py:280-331). -/
def extractConns (file : Text) : Py (List (List ℤ)) :=
  extractRows "ELEMENTS".toList (fun l => ((splitBlank l).drop 2).mapM intOfText) file

/-- The prescribed degrees of freedom of a node (links_data_to_adimu.py:383-387). -/
def nodeBcs (code : List ℤ) (vals : List ℝ) : Py (KDict ℕ ℝ) :=
  (List.range 3).foldlM (fun d i => do
    let c ← orRaise code[i]? .indexError
    if c = 1 then do
      let v ← orRaise vals[i]? .indexError
      pure (d.put (i + 1) v)
    else pure d) []

/-- A line of the prescribed displacements (links_data_to_adimu.py:376-387). -/
def dispLine (F : NumberText) (l : Text) : Py (ℤ × KDict ℕ ℝ) := do
  let f ← fieldOf l 0
  let n ← intOfText f
  let c ← fieldOf l 1
  let code ← c.mapM fun x => intOfText [x]
  let vals ← (((splitBlank l).drop 2).take 3).mapM F.float
  let d ← nodeBcs code vals
  pure (n, d)

/-- Body of the loop reading the prescribed displacements (links_data_to_adimu.py:363-387). -/
def dispEvent (F : NumberText) (s : Option DirichletBcs) : ScanEvent → Py (Option DirichletBcs)
  | .key _ => pure (some [])
  | .data l => do
    let p ← dispLine F l
    let d ← orRaise s .unboundLocal
    pure (some (d.put p.1 p.2))

/-- `extract_mesh_dirichlet_from_links_data` (links_data_to_adimu.py:333-392). -/
def extractBcs (F : NumberText) (file : Text) : Py DirichletBcs := do
  let s ← (scanLines (searchWord "NODES_WITH_PRESCRIBED_DISPLACEMENTS".toList) true false
    (fileLines file)).foldlM (dispEvent F) none
  orRaise s .unboundLocal

/-- The mesh part of `gen_adimu_data_from_links` (links_data_to_adimu.py:96-121): the text of the
specimen mesh file. -/
def linksToMeshFile (F : NumberText) (file : Text) : Py Text := do
  let tg ← extractElemType file
  let t ← linksToAbaqus tg.1 tg.2
  let coords ← extractCoords F file
  let conns ← extractConns file
  let bcs ← extractBcs F file
  pure (writeMeshFile F coords conns t (some bcs))

/-! ## Writing -/

/-- `'{:^w}'.format(s)`. -/
def padCenter (w : ℕ) (s : Text) : Text :=
  List.replicate ((w - s.length) / 2) ' ' ++ s
    ++ List.replicate (w - s.length - (w - s.length) / 2) ' '

/-- `_get_links_elem_type_data` (links.py:826-868): element type and number of Gauss points. -/
def linksElemTypeData (nDim : ℕ) (t : String) : Py (Text × ℕ) :=
  if nDim = 2 then
    if t = "SQUAD4" then .ok ("QUAD4".toList, 4)
    else if t = "SQUAD8" then .ok ("QUAD8".toList, 4)
    else .error .runtimeError
  else
    if t = "SHEXA8" then .ok ("HEXA8".toList, 8)
    else if t = "SHEXA20" then .ok ("HEXA20".toList, 8)
    else .error .runtimeError

/-- `input_params` (links.py:632-690). -/
structure LinksParams where
  /-- `title`. -/
  title : Text
  /-- `analysis_type`. -/
  analysisType : Text
  /-- `large_strain_formulation`. -/
  largeStrain : Text
  /-- `solution_algorithm`. -/
  solutionAlgorithm : Text
  /-- `solver`. -/
  solver : Text
  /-- `str(parallel_solver)`. -/
  parallelSolver : Text
  /-- `vtk_output`. -/
  vtkOutput : Text
  /-- `Node_Data_Output`. -/
  nodeData : Text
  /-- `Global_Data_Output`. -/
  globalData : Text

/-- What precedes the element types (links.py:534-566).  `increm` are the lines of the loading
incrementation and `phases` the material phases in the order of the set. -/
def linksHeader (ip : LinksParams) (increm : List Text) (phases : List ℕ) : List Text :=
  ["\nTITLE \n".toList ++ ip.title ++ ['\n'],
    "\nANALYSIS_TYPE ".toList ++ ip.analysisType ++ ['\n'],
    "\nLARGE_STRAIN_FORMULATION ".toList ++ ip.largeStrain ++ ['\n'],
    "\nSOLUTION_ALGORITHM ".toList ++ ip.solutionAlgorithm ++ ['\n']]
  ++ increm
  ++ ["\n\nSOLVER ".toList ++ ip.solver ++ ['\n'],
    "\nPARALLEL_SOLVER ".toList ++ ip.parallelSolver ++ ['\n'],
    "\nVTK_OUTPUT ".toList ++ ip.vtkOutput ++ ['\n'],
    ['\n'] ++ ip.nodeData ++ ['\n'],
    ['\n'] ++ ip.globalData ++ ['\n'],
    "\nVTK_OUTPUT ".toList ++ ip.vtkOutput ++ ['\n'],
    "\nELEMENT_GROUPS ".toList ++ strNat phases.length ++ ['\n']]
  ++ phases.map fun m => strNat m ++ " 1 ".toList ++ strNat m ++ ['\n']

/-- Lines of the elements (links.py:594-599). -/
def linksElementLines (elements : KDict ℕ (List ℤ)) (phase : KDict ℕ ℕ) : Py (List Text) :=
  (List.range elements.length).mapM fun i => do
    let m ← orRaise (phase.get? (i + 1)) .keyError
    let e ← orRaise (elements.get? (i + 1)) .keyError
    pure (padLeft 3 (textOfInt ((i + 1 : ℕ) : ℤ)) ++ padCenter 5 (textOfInt (m : ℤ))
      ++ joinText " ".toList (e.map textOfInt) ++ ['\n'])

/-- Lines of the nodes (links.py:601-606). -/
def linksNodeLines (F : NumberText) (coords : KDict ℕ (List ℝ)) : Py (List Text) :=
  (List.range coords.length).mapM fun i => do
    let r ← orRaise (coords.get? (i + 1)) .keyError
    pure (padLeft 3 (textOfInt ((i + 1 : ℕ) : ℤ)) ++ " ".toList
      ++ joinText " ".toList (r.map F.fmt) ++ ['\n'])

/-- `1 if x != None else 0` (links.py:620). -/
def dispCode (x : Option ℝ) : Char := if x.isSome then '1' else '0'

/-- Line of the prescribed displacements of a node (links.py:613-625).  Formatting `None` raises a
`TypeError`. -/
def linksDispLine (F : NumberText) (nDim : ℕ) (disps : KDict ℕ (List (Option ℝ))) (n : ℕ) :
    Py Text := do
  let u ← orRaise (disps.get? n) .keyError
  let u := if nDim = 2 then u ++ [some 0] else u
  let vals ← u.mapM fun x => orRaise x .typeError
  pure (" ".toList ++ padLeft 3 (textOfInt (n : ℤ)) ++ " ".toList ++ u.map dispCode
    ++ joinText " ".toList (vals.map F.fmt) ++ ['\n'])

/-- The labels in increasing order (links.py:611-612). -/
def sortedLabels (disps : KDict ℕ (List (Option ℝ))) : List ℕ :=
  disps.keys.insertionSort (· ≤ ·)

/-- `_write_links_input_data_file` (links.py:473-630): the text of the file.  `materials` are the
lines written by the constitutive models (`_format_material_descriptors`); `increm` are those
of the loading incrementation (`Model/LoadIncrements`). -/
def writeLinksFile (F : NumberText) (nDim : ℕ) (ip : LinksParams) (increm : List Text)
    (phases : List ℕ) (elemType : Text) (nGauss : ℕ) (materials : List Text)
    (coords : KDict ℕ (List ℝ)) (elements : KDict ℕ (List ℤ)) (phase : KDict ℕ ℕ)
    (disps : KDict ℕ (List (Option ℝ))) : Py Text := do
  let els ← linksElementLines elements phase
  let nds ← linksNodeLines F coords
  let bcs ← (sortedLabels disps).mapM (linksDispLine F nDim disps)
  pure (linksHeader ip increm phases
    ++ ["\nELEMENT_TYPES 1\n".toList, "1 ".toList ++ elemType ++ ['\n'],
      "  ".toList ++ strNat nGauss ++ " GP\n".toList,
      "\nMATERIALS ".toList ++ strNat phases.length ++ ['\n']]
    ++ materials
    ++ ["\nELEMENTS ".toList ++ strNat elements.length ++ ['\n']] ++ els
    ++ ["\nNODE_COORDINATES ".toList ++ strNat coords.length ++ " CARTESIAN\n".toList] ++ nds
    ++ ["\nNODES_WITH_PRESCRIBED_DISPLACEMENTS ".toList ++ strNat disps.length ++ ['\n']]
    ++ bcs).flatten

end Hooke
