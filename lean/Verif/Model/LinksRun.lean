import Verif.Model.LinksFile
import Verif.Model.NumberFormat
import Verif.Model.Iostandard

/-!
# Materials, generation and runs of Links simulations

`simulators/links/models/links_elastic.py`, `links_von_mises.py`, `links_drucker_prager.py` and
`links_lou.py`, and `LinksSimulator.generate_input_data_file` and `LinksSimulator.run_links_simulation`
(`simulators/links/links.py:117-305`).
-/

noncomputable section

open Classical

namespace Hooke

/-! ### Materials -/

/-- Values of the descriptors of a material.  A hardening law is taken with its parameters: its yield
stress for an accumulated plastic strain. -/
inductive DescVal
  | text (t : Text)
  | num (x : ℝ)
  | count (n : ℤ)
  | law (f : ℝ → Py ℝ)
  | params

/-- The descriptors of a material. -/
abbrev Descr := KDict String DescVal

/-- `'{:<w}'` of a text. -/
def padRight (w : ℕ) (s : Text) : Text := s ++ List.replicate (w - s.length) ' '

/-- `'{:<16.8e}'.format(x)`. -/
def leftField (x : ℝ) : Text := padRight 16 (sciText 8 x)

/-- `'{:<16.8e}'.format(descriptors[key])`. -/
def descNumber (d : Descr) (key : String) : Py Text :=
  match d.get? key with
  | some (.num x) => .ok (leftField x)
  | some (.count n) => .ok (leftField n)
  | some (.text _) => .error .valueError
  | some _ => .error .typeError
  | none => .error .keyError

/-- `str(mat_phase) + ' ' + name`. -/
def descName (d : Descr) : Py Text :=
  match d.get? "name" with
  | some (.text t) => .ok t
  | some _ => .error .typeError
  | none => .error .keyError

/-- `if not set(required_descriptors).issubset(set(descriptors.keys()))` (links_elastic.py:78-81,
links_von_mises.py:82-85, links_drucker_prager.py:83-86, links_lou.py:86-89). -/
def checkDescr (required : List String) (d : Descr) : Py Unit :=
  raiseIf ((required.all fun k => d.has k) = false) .runtimeError

/-- `spacing` (links_elastic.py:90, links_von_mises.py:97, links_drucker_prager.py:100,
links_lou.py:109). -/
def descSpacing (phase : ℕ) : Text := List.replicate ((strNat phase).length + 1) ' '

/-- A line of numbers. -/
def numberLine (phase : ℕ) (d : Descr) (keys : List String) : Py Text := do
  let xs ← keys.mapM (descNumber d)
  .ok (descSpacing phase ++ xs.flatten ++ ['\n'])

/-- The first line (links_elastic.py:93, links_von_mises.py:100, links_drucker_prager.py:103,
links_lou.py:112). -/
def nameLine (phase : ℕ) (d : Descr) : Py Text := do
  let name ← descName d
  .ok (strNat phase ++ ' ' :: name ++ ['\n'])

/-- `torch.linspace(0.0, 2.0, steps=n)`. -/
def plasticStrains (n : ℕ) : List ℝ := (List.range n).map fun i : ℕ => 2 * (i : ℝ) / ((n : ℝ) - 1)

/-- A point of the hardening curve (links_von_mises.py:114-119, links_drucker_prager.py:120-125,
links_lou.py:134-139). -/
def pointLine (phase : ℕ) (law : ℝ → Py ℝ) (eps : ℝ) : Py Text := do
  let s ← law eps
  .ok (descSpacing phase ++ leftField eps ++ leftField s ++ ['\n'])

/-- The hardening curve (links_von_mises.py:107-119, links_drucker_prager.py:113-125,
links_lou.py:127-139). -/
def hardeningLines (phase : ℕ) (d : Descr) : Py (List Text) :=
  match d.get? "n_hard_point", d.get? "hardening_law" with
  | some (.count n), some (.law f) => do
      raiseIf (n < 0) .runtimeError
      let points ← (plasticStrains n.toNat).mapM (pointLine phase f)
      .ok ((descSpacing phase ++ padRight 4 (textOfInt n) ++ ['\n']) :: points)
  | some (.count _), some _ => .error .typeError
  | some (.num _), _ => .error .valueError
  | some (.text _), _ => .error .valueError
  | some _, _ => .error .typeError
  | _, _ => .error .keyError

/-- `LinksElastic._format_material_descriptors` (links_elastic.py:48-98). -/
def formatElastic (phase : ℕ) (d : Descr) : Py (List Text) := do
  checkDescr ["name", "density", "young", "poisson"] d
  let l1 ← nameLine phase d
  let l2 ← numberLine phase d ["density"]
  let l3 ← numberLine phase d ["young", "poisson"]
  .ok [l1, l2, l3]

/-- `LinksVonMises._format_material_descriptors` (links_von_mises.py:50-121). -/
def formatVonMises (phase : ℕ) (d : Descr) : Py (List Text) := do
  checkDescr ["name", "density", "young", "poisson", "n_hard_point", "hardening_law",
    "hardening_parameters"] d
  let l1 ← nameLine phase d
  let l2 ← numberLine phase d ["density"]
  let l3 ← numberLine phase d ["young", "poisson"]
  let curve ← hardeningLines phase d
  .ok ([l1, l2, l3] ++ curve)

/-- `LinksDruckerPrager._format_material_descriptors` (links_drucker_prager.py:50-127). -/
def formatDruckerPrager (phase : ℕ) (d : Descr) : Py (List Text) := do
  checkDescr ["name", "density", "young", "poisson", "friction_angle_deg", "dilatancy_angle_deg",
    "n_hard_point", "hardening_law", "hardening_parameters"] d
  let l1 ← nameLine phase d
  let l2 ← numberLine phase d ["density"]
  let xs ← ["young", "poisson", "friction_angle_deg", "dilatancy_angle_deg"].mapM (descNumber d)
  let curve ← hardeningLines phase d
  .ok ([l1, l2, descSpacing phase ++ xs.flatten ++ ['3', '\n']] ++ curve)

/-- `LinksLou._format_material_descriptors` (links_lou.py:50-141). -/
def formatLou (phase : ℕ) (d : Descr) : Py (List Text) := do
  checkDescr ["name", "density", "young", "poisson", "yield_a_init", "a_hard_slope", "yield_b_init",
    "b_hard_slope", "yield_c_init", "c_hard_slope", "yield_d_init", "d_hard_slope", "n_hard_point",
    "hardening_law", "hardening_parameters"] d
  let l1 ← nameLine phase d
  let l2 ← numberLine phase d ["density"]
  let l3 ← numberLine phase d ["young", "poisson"]
  let la ← numberLine phase d ["yield_a_init", "a_hard_slope"]
  let lb ← numberLine phase d ["yield_b_init", "b_hard_slope"]
  let lc ← numberLine phase d ["yield_c_init", "c_hard_slope"]
  let ld ← numberLine phase d ["yield_d_init", "d_hard_slope"]
  let curve ← hardeningLines phase d
  .ok ([l1, l2, l3, la, lb, lc, ld] ++ curve)

/-- The lines of a material phase (links.py:575-591); the keys of the descriptors are the labels of the
phases as texts. -/
def materialLines (descs : KDict Text Descr) (phase : ℕ) : Py (List Text) :=
  match descs.get? (strNat phase) with
  | none => .error .keyError
  | some d =>
      match d.get? "name" with
      | none => .error .keyError
      | some (.text name) =>
          if name = "ELASTIC".toList then formatElastic phase d
          else if name = "VON_MISES".toList then formatVonMises phase d
          else if name = "DRUCKER_PRAGER".toList then formatDruckerPrager phase d
          else if name = "LOU".toList then formatLou phase d
          else .error .runtimeError
      | some _ => .error .runtimeError

/-! ### Generation of the input data file -/

/-- `_get_links_default_input_params` (links.py:632-690). -/
def defaultLinksParams (strainFormulation analysisType : String) : Py (KDict String Text) := do
  let a ← orRaise (KDict.get? [("plane_stress", "1"), ("plane_strain", "2"), ("axisymmetric", "3"),
    ("tridimensional", "6")] analysisType) .unboundLocal
  .ok [("title", "Links input data file generated automatically.".toList),
    ("large_strain_formulation", if strainFormulation = "infinitesimal" then "OFF".toList
      else "ON".toList),
    ("analysis_type", a.toList), ("solution_algorithm", "2".toList), ("solver", "PARDISO".toList),
    ("parallel_solver", "1".toList), ("vtk_output", "None".toList),
    ("Node_Data_Output", "Node_Data_Output".toList), ("Global_Data_Output", "Global_Data_Output".toList)]

/-- The parameters given by the user replace those of the same name (links.py:183-186); the values are
texts. -/
def overrideParams (ps : KDict String Text) (user : Option (KDict String Text)) : KDict String Text :=
  match user with
  | none => ps
  | some u => u.foldl (fun ps kv => if ps.has kv.1 then ps.put kv.1 kv.2 else ps) ps

/-- The parameters in the file (links.py:534-564). -/
def linksParams (ps : KDict String Text) : LinksParams :=
  let get := fun k => (ps.get? k).getD []
  ⟨get "title", get "analysis_type", get "large_strain_formulation", get "solution_algorithm",
    get "solver", get "parallel_solver", get "vtk_output", get "Node_Data_Output",
    get "Global_Data_Output"⟩

/-- What the patch gives (links.py:192-215): the mesh without the removed elements, the prescribed
displacements and the element type. -/
structure PatchInput where
  coords : KDict ℕ (List ℝ)
  elements : KDict ℕ (List ℤ)
  phase : KDict ℕ ℕ
  disps : KDict ℕ (List (Option ℝ))
  elemType : Text
  nGauss : ℕ

/-- The arguments of `generate_input_data_file`, and what is computed from the patch. -/
structure LinksInput where
  /-- `strain_formulation` and `analysis_type` of the simulator. -/
  strainFormulation : String
  analysisType : String
  nDim : ℕ
  /-- `links_input_params`. -/
  user : Option (KDict String Text)
  mesh : Py PatchInput
  /-- The material phases of the patch, in the order of the set. -/
  phases : List ℕ
  /-- `mat_phases_descriptors`. -/
  descs : KDict Text Descr
  /-- Lines of the loading incrementation. -/
  increm : List Text
  isSaveIncrem : Bool

/-- `filename + '.dat'`, or the first name with a number that is free (links.py:172-175); `none` while
the search has not ended. -/
def inputName (fuel : ℕ) (dir : KDict Text Text) (filename : Text) (overwrite : Bool) : Option Text :=
  let name := filename ++ ".dat".toList
  if dir.has name && !overwrite then
    (newFilePath fuel ⟨∅, (dir.keys.map fun n => [n]).toFinset⟩ [name]).map fun p => p.headD []
  else some name

/-- `if not set(mesh_elem_material.flatten()).issubset(...)` (links.py:218-224). -/
def checkPhases (phases : List ℕ) (descs : KDict Text Descr) : Py Unit := do
  let ids ← descs.keys.mapM intOfText
  raiseIf ((phases.all fun m => decide ((m : ℤ) ∈ ids)) = false) .runtimeError

/-- The material lines and the text of the file (links.py:558-625). -/
def inputText (F : NumberText) (I : LinksInput) (ps : KDict String Text) (m : PatchInput) : Py Text := do
  let mats ← I.phases.mapM (materialLines I.descs)
  writeLinksFile F I.nDim (linksParams ps) I.increm I.phases m.elemType m.nGauss mats.flatten m.coords
    m.elements m.phase m.disps

/-- `_write_links_input_data_file` (links.py:516-630): the file is opened, and emptied, first; the
loading incrementation is saved before the materials are formatted. -/
def writeInput (F : NumberText) (I : LinksInput) (ps : KDict String Text) (m : PatchInput)
    (dir : KDict Text Text) (name : Text) : KDict Text Text × Py Unit :=
  let dir1 := dir.put name []
  let dir2 := if I.isSaveIncrem then dir1.put "loading_incrementation.dat".toList I.increm.flatten
    else dir1
  match inputText F I ps m with
  | .error e => (dir2, .error e)
  | .ok text => (dir2.put name text, .ok ())

/-- What is done before the file is opened (links.py:176-224): the parameters and the mesh. -/
def prepareInput (I : LinksInput) : Py (KDict String Text × PatchInput) := do
  let ps ← defaultLinksParams I.strainFormulation I.analysisType
  let m ← I.mesh
  checkPhases I.phases I.descs
  pure (overrideParams ps I.user, m)

/-- `generate_input_data_file` (links.py:117-239) for a directory that exists: the directory afterwards
and the name of the file. -/
def generateInput (F : NumberText) (fuel : ℕ) (I : LinksInput) (dir : KDict Text Text) (filename : Text)
    (overwrite : Bool) : Option (KDict Text Text × Py Text) :=
  (inputName fuel dir filename overwrite).map fun name =>
    match prepareInput I with
    | .error e => (dir, .error e)
    | .ok (ps, m) =>
        match writeInput F I ps m dir name with
        | (dir', .error e) => (dir', .error e)
        | (dir', .ok _) => (dir', .ok name)

/-! ### Runs -/

/-- The output directory of a simulation: none, or a directory with or without the screen file. -/
abbrev LinksOutput := Option (Option Text)

/-- The message of a successful run (links.py:294). -/
def successMessage : Text := "Program L I N K S successfully completed.".toList

/-- `run_links_simulation` (links.py:241-305).  `bin` is the effect of the program on the output
directory, and none if the program is not found.  Its exit code is not used. -/
def runLinks (bin : Option (LinksOutput → LinksOutput)) (out : LinksOutput) : LinksOutput × Py Bool :=
  match bin with
  | none => (out, .error .osError)
  | some run =>
      match run out with
      | none => (run out, .error .runtimeError)
      | some none => (run out, .error .runtimeError)
      | some (some screen) =>
          (run out, .ok ((fileLines screen).any fun l => decide (successMessage <:+: l)))

end Hooke
