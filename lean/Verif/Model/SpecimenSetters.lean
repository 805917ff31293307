import Verif.Model.PyUtil
import Verif.Model.PyDict
import Mathlib.Data.Finset.Dedup

/-!
# Setting the mesh and the data of a specimen

`SpecimenNumericalData` of material_model_finder/data/specimen_data.py and the checks of the constructor
of `StructureMesh` (simulators/fetorch/structure/structure_mesh.py).  The contents of a tensor are of an
arbitrary type `τ`.  Labels are strings, as in the code; other types of labels are not modelled.
-/

namespace Hooke

/-- An argument that should be a tensor: a tensor with its shape and content, or another object. -/
inductive TensorArg (τ : Type)
  | tensor (shape : List ℕ) (x : τ)
  | other

/-- The loop over the connectivities, structure_mesh.py:637-647. -/
def checkElementNodes (types : PyDict (Option ℕ)) : List (String × List ℕ) → Py Unit
  | [] => .ok ()
  | (k, nodes) :: rest => do
    let ty ← orRaise (types.get? k) .keyError
    let n ← orRaise ty .attributeError
    raiseIf (nodes.length ≠ n) .runtimeError
    checkElementNodes types rest

/-- `_check_mesh_initialization`, structure_mesh.py:592-647.  A type of element is given by its number of
nodes, `none` being an object of another class. -/
def checkMeshInitialization {τ : Type} (coords : TensorArg τ) (types : PyDict (Option ℕ))
    (conn : PyDict (List ℕ)) : Py Unit :=
  match coords with
  | .other => .error .runtimeError
  | .tensor shape _ => do
    raiseIf (shape.length ≠ 2) .runtimeError
    let labels : List String := (List.range types.keys.length).map fun i => toString (i + 1)
    raiseIf (types.keys.toFinset ≠ labels.toFinset) .runtimeError
    raiseIf (∃ e ∈ types, e.2 = none) .runtimeError
    raiseIf (conn.keys.toFinset ≠ labels.toFinset) .runtimeError
    checkElementNodes types conn

/-- A mesh after its construction, structure_mesh.py:134-147: number of nodes, number of dimensions and
the objects that are stored. -/
structure SpecimenMeshObj (τ : Type) where
  nNode : ℕ
  nDim : ℕ
  coords : τ
  types : PyDict (Option ℕ)
  conn : PyDict (List ℕ)
  dirichlet : TensorArg τ

/-- The constructor of a mesh, structure_mesh.py:106-154. -/
def newSpecimenMesh {τ : Type} (coords : TensorArg τ) (types : PyDict (Option ℕ))
    (conn : PyDict (List ℕ)) (dirichlet : TensorArg τ) : Py (SpecimenMeshObj τ) := do
  checkMeshInitialization coords types conn
  match coords with
  | .tensor [n, d] x => .ok ⟨n, d, x, types, conn, dirichlet⟩
  | _ => .error .indexError

/-- The histories of a specimen: their shapes and contents. -/
structure SpecimenHists (τ : Type) where
  disps : List ℕ × τ
  reactions : List ℕ × τ
  bcs : List ℕ × τ
  time : List ℕ × τ

/-- `SpecimenNumericalData`, specimen_data.py:69-77: the four histories are set together. -/
structure SpecimenObj (τ : Type) where
  mesh : Option (SpecimenMeshObj τ)
  hists : Option (SpecimenHists τ)

/-- `__init__`, specimen_data.py:69-77. -/
def SpecimenObj.new (τ : Type) : SpecimenObj τ := ⟨none, none⟩

/-- `set_specimen_mesh`, specimen_data.py:79-106. -/
def SpecimenObj.setMesh {τ : Type} (s : SpecimenObj τ) (coords : TensorArg τ)
    (types : PyDict (Option ℕ)) (conn : PyDict (List ℕ)) (dirichlet : TensorArg τ) :
    Py (SpecimenObj τ) := do
  let m ← newSpecimenMesh coords types conn dirichlet
  return { s with mesh := some m }

/-- The checks of one history, specimen_data.py:150-164: its shape and content. -/
def checkHist {τ : Type} (m : SpecimenMeshObj τ) : TensorArg τ → Py (List ℕ × τ)
  | .other => .error .runtimeError
  | .tensor shape x => do
    raiseIf (shape.length ≠ 3) .runtimeError
    raiseIf (shape.getD 0 0 ≠ m.nNode) .runtimeError
    raiseIf (shape.getD 1 0 ≠ m.nDim) .runtimeError
    return (shape, x)

/-- `set_specimen_data`, specimen_data.py:108-184. -/
def SpecimenObj.setData {τ : Type} (s : SpecimenObj τ) (disps reactions bcs time : TensorArg τ) :
    Py (SpecimenObj τ) := do
  let m ← orRaise s.mesh .runtimeError
  let u ← checkHist m disps
  let r ← checkHist m reactions
  let b ← checkHist m bcs
  match time with
  | .other => .error .runtimeError
  | .tensor shape x => do
    let T ← orRaise shape.head? .indexError
    raiseIf (u.1.getD 2 0 ≠ T ∨ r.1.getD 2 0 ≠ T ∨ b.1.getD 2 0 ≠ T) .runtimeError
    return { s with hists := some ⟨u, r, b, (shape, x)⟩ }

/-- A call of one of the two methods. -/
inductive SpecimenCall (τ : Type)
  | mesh (coords : TensorArg τ) (types : PyDict (Option ℕ)) (conn : PyDict (List ℕ))
      (dirichlet : TensorArg τ)
  | data (disps reactions bcs time : TensorArg τ)

/-- The object after a call, and whether it raised: both methods assign only after all checks. -/
def SpecimenCall.run {τ : Type} (s : SpecimenObj τ) (c : SpecimenCall τ) : SpecimenObj τ × Py Unit :=
  let r := match c with
    | .mesh coords types conn dirichlet => s.setMesh coords types conn dirichlet
    | .data u r b t => s.setData u r b t
  match r with
  | .ok s' => (s', .ok ())
  | .error e => (s, .error e)

/-- A history of calls, the errors being caught by the caller. -/
def runSpecimenCalls {τ : Type} (s : SpecimenObj τ) (l : List (SpecimenCall τ)) : SpecimenObj τ :=
  l.foldl (fun s c => (c.run s).1) s

end Hooke
