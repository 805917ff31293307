import Verif.Model.PyUtil
import Mathlib.Algebra.BigOperators.Group.Finset.Basic
import Mathlib.Data.Real.Basic

/-!
# Model of `simulators/fetorch/structure/structure_mesh.py`

One-dimensional arrays are a length and a function.  Element labels `'1', '2', ...` are
natural numbers; the constructor guarantees that they are `1..n_elem`
(`_check_mesh_initialization`, 618-635), so `connectivities` is the list of the elements'
node lists and element `k` is entry `k - 1`.
-/

noncomputable section

namespace Hooke

/-- One-dimensional `torch.Tensor`. -/
structure Arr where
  len : ℕ
  val : ℕ → ℝ

/-- What the indexing methods read from a `StructureMesh`: `_n_node_mesh` and
`_connectivities` (node labels from 1). -/
structure MeshTopology where
  nNode : ℕ
  conn : List (List ℕ)

/-- `self._connectivities[str(k)]`. -/
def MeshTopology.lookup (m : MeshTopology) (k : ℕ) : Py (List ℕ) :=
  orRaise (if k = 0 then none else m.conn[k - 1]?) .keyError

/-- `_check_mesh_initialization`, structure_mesh.py:592-647, on the part that concerns the
connectivities: `nodesOf[k]` is the number of nodes of the type of element `k + 1`.  Node
labels are not checked against the number of nodes. -/
def checkConnectivities (nodesOf : List ℕ) (conn : List (List ℕ)) : Py Unit :=
  if conn.length ≠ nodesOf.length then .error .runtimeError
  else if (conn.zip nodesOf).any (fun p => p.1.length ≠ p.2) then .error .runtimeError
  else .ok ()

/-- `mesh_array[mi:mi + nd] += element_array[ei:ei + nd]`, structure_mesh.py:453-460.  For a
node label outside the mesh the left slice is empty: torch raises on the size mismatch
unless the right slice has at most one entry (then it broadcasts to nothing). -/
def assembleNode (nNode nd : ℕ) (arr : Arr) (acc : ℕ → ℝ) (inode : ℕ × ℕ) : Py (ℕ → ℝ) :=
  let i := inode.1
  let node := inode.2
  if node = 0 ∨ nNode < node then
    if nd ≤ 1 then .ok acc else .error .runtimeError
  else
    let mi := (node - 1) * nd
    let ei := i * nd
    .ok (fun q => if mi ≤ q ∧ q < mi + nd then acc q + arr.val (ei + (q - mi)) else acc q)

/-- Body of the element loop of `_element_assembler_1d`, structure_mesh.py:449-460.  An
element array whose length is not `n_nodes * n_dim_per_node` raises (torch broadcasts some
shorter slices; that is not modelled). -/
def assembleElement (m : MeshTopology) (nd : ℕ) (acc : ℕ → ℝ) (ka : ℕ × Arr) : Py (ℕ → ℝ) := do
  let nodes ← m.lookup ka.1
  raiseIf (ka.2.len ≠ nodes.length * nd) .runtimeError
  (nodes.zipIdx.map fun x => (x.2, x.1)).foldlM (assembleNode m.nNode nd ka.2) acc

/-- `element_assembler` / `_element_assembler_1d`, structure_mesh.py:383-462.
`elements_array` is a dictionary in insertion order. -/
def elementAssembler (m : MeshTopology) (elems : List (ℕ × Arr)) : Py Arr := do
  let first ← orRaise elems.head? .indexError
  let nodes ← m.lookup first.1
  raiseIf (nodes.length = 0) .zeroDivision
  let nd := first.2.len / nodes.length
  let out ← elems.foldlM (assembleElement m nd) (fun _ => 0)
  return ⟨m.nNode * nd, out⟩

/-- `element_array[ei:ei + nd] = mesh_array[mi:mi + nd]`, structure_mesh.py:529-536; same
treatment of labels outside the mesh. -/
def extractNode (nNode nd : ℕ) (mesh : Arr) (acc : ℕ → ℝ) (inode : ℕ × ℕ) : Py (ℕ → ℝ) :=
  let i := inode.1
  let node := inode.2
  if node = 0 ∨ nNode < node then
    if nd = 0 then .ok acc else .error .runtimeError
  else
    let mi := (node - 1) * nd
    let ei := i * nd
    .ok (fun q => if ei ≤ q ∧ q < ei + nd then mesh.val (mi + (q - ei)) else acc q)

/-- `element_extractor` / `_element_extractor_1d`, structure_mesh.py:464-538. -/
def elementExtractor (m : MeshTopology) (mesh : Arr) (k : ℕ) : Py Arr := do
  raiseIf (m.nNode = 0) .zeroDivision
  let nd := mesh.len / m.nNode
  let nodes ← m.lookup k
  let out ← (nodes.zipIdx.map fun x => (x.2, x.1)).foldlM (extractNode m.nNode nd mesh) (fun _ => 0)
  return ⟨nodes.length * nd, out⟩

/-- `build_element_mesh_indexing`, structure_mesh.py:566-590. -/
def buildElementMeshIndexing (nodes : List ℕ) (nd : ℕ) : List ℕ :=
  List.zipWith (· + ·) (nodes.flatMap fun x => List.replicate nd ((x - 1) * nd))
    ((List.replicate nodes.length (List.range nd)).flatten)

/-- `get_connectivities_tensor`, structure_mesh.py:219-245: `torch.stack` needs a common
number of nodes; the handler prints and then reads an unbound variable. -/
def getConnectivitiesTensor (m : MeshTopology) : Py (List (List ℕ)) :=
  match m.conn with
  | [] => .error .unboundLocal
  | c :: rest => if rest.any (fun c' => c'.length ≠ c.length) then .error .unboundLocal
    else .ok m.conn

/-- `build_elements_mesh_indexing`, structure_mesh.py:540-564. -/
def buildElementsMeshIndexing (m : MeshTopology) (nd : ℕ) : Py (List (List ℕ)) := do
  let t ← getConnectivitiesTensor m
  return t.map fun nodes => buildElementMeshIndexing nodes nd

/-- `vassemble_internal_forces`, material_discovery.py:2602-2632: entry `q` of the flattened
mesh vector is the sum of all element entries whose mesh index is `q`. -/
def vassembleInternalForces (forces : List (List ℝ)) (indexes : List (List ℕ)) (nNode nd : ℕ) :
    Arr :=
  ⟨nNode * nd, fun q =>
    (((forces.flatten.zip indexes.flatten).filter fun p => p.2 = q).map fun p => p.1).sum⟩

end Hooke
