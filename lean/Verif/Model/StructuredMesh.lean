import Verif.Model.FiniteElementTables
import Mathlib.Data.Real.Basic
import Mathlib.Algebra.Order.Floor.Ring
import Mathlib.Data.Real.Archimedean

/-!
# Structured meshes of the material patches

`data_generation/spdg/patch_generator.py` (mesh generation), `data_generation/spdg/patch.py` (node
sets) and `simulators/links/links.py` (connectivities, removal of elements).

An index into an array is the list of its components, an array of integers the function from indices
to entries.  Dictionaries with keys `'1'`, `'2'`, … are lists of pairs in the order of insertion.
-/

noncomputable section

namespace Hooke

/-- The indices of the nested loops over `range(n)` for the dimensions `ns`, the first dimension
innermost (patch_generator.py:1768-1770 and 1785-1787, links.py:745-751 and 782-792). -/
def gridIndices : List ℕ → List (List ℕ)
  | [] => [[]]
  | n :: ns => (gridIndices ns).flatMap fun r => (List.range n).map fun i => i :: r

/-- `_get_n_edge_nodes_per_dim` for one dimension (patch_generator.py:879-880, also 1753-1754 and
patch.py:287-289). -/
def nEdgeNodes (e n : ℕ) : ℕ := ((n * e : ℤ) - ((n : ℤ) - 1)).toNat

/-- `elem_index` and `local_index` of `_get_elem_node_index` for one dimension
(patch_generator.py:1834-1840); `fl` is the rounding to a floating-point number of the exact result
of an operation. -/
def elemLocalIndex (fl : ℝ → ℝ) (e n g : ℕ) : ℤ :=
  let elemIndex : ℤ := max 1 ⌈fl (fl ((g : ℝ) / ((nEdgeNodes e n : ℝ) - 1)) * n)⌉
  (g : ℤ) - ((elemIndex - 1) * e - (elemIndex - 1))

/-- A component of an index into an array with `e` entries along that dimension: negative ones count
from the end. -/
def arrayIndex (e : ℕ) (z : ℤ) : Py ℕ :=
  if 0 ≤ z ∧ z < e then .ok z.toNat
  else if z < 0 ∧ -(e : ℤ) ≤ z then .ok (z + e).toNat
  else .error .indexError

/-- `nodes_matrix[elem_node_index]` (patch_generator.py:1772-1775, 1789-1792). -/
def nodeMatrixAt (fl : ℝ → ℝ) (t : FeTable) (nElems idx : List ℕ) : Py ℕ := do
  let loc ← (List.zip nElems idx).mapM fun a =>
    arrayIndex t.nEdgeNodes (elemLocalIndex fl t.nEdgeNodes a.1 a.2)
  pure (t.entry loc)

/-- `_generate_finite_element_mesh`: the node matrix, the coordinates by label, the next label. -/
structure StructMesh where
  matrix : List ℕ → ℕ
  coords : List (ℕ × List ℝ)
  next : ℕ

/-- Body of the loops (patch_generator.py:1772-1783, 1789-1801). -/
def meshStep (fl : ℝ → ℝ) (t : FeTable) (nElems : List ℕ) (steps : List ℝ) (s : StructMesh)
    (idx : List ℕ) : Py StructMesh := do
  let v ← nodeMatrixAt fl t nElems idx
  pure (if v ≠ 0 then
    { matrix := fun i => if i = idx then s.next else s.matrix i
      coords := s.coords ++ [(s.next, List.zipWith (fun (i : ℕ) h => (i : ℝ) * h) idx steps)]
      next := s.next + 1 }
  else s)

/-- `coord_step_per_dim` for one dimension (patch_generator.py:1757). -/
def coordStep (e : ℕ) (L : ℝ) (n : ℕ) : Py ℝ :=
  if n * (e - 1) = 0 then .error .zeroDivision else .ok (L / ((n * (e - 1) : ℕ) : ℝ))

/-- `_generate_finite_element_mesh(elem_type, n_elems_per_dim)` of a patch of dimensions `dims`
(patch_generator.py:1742-1803).  With an element of another dimension the look-up of the node matrix
gives an array, whose comparison has no truth value, or has too many indices. -/
def generateMesh (fl : ℝ → ℝ) (nDim : ℕ) (dims : List ℝ) (elemType : String) (nElems : List ℕ) :
    Py (StructMesh × List ℕ) := do
  let t ← finiteElement elemType
  let steps ← (List.zip dims nElems).mapM fun a => coordStep t.nEdgeNodes a.1 a.2
  raiseIf (nDim < t.nDim) .valueError
  raiseIf (t.nDim < nDim) .indexError
  let ns := nElems.map (nEdgeNodes t.nEdgeNodes)
  let s ← (gridIndices ns).foldlM (meshStep fl t nElems steps) ⟨fun _ => 0, [], 1⟩
  pure (s, ns)

/-- `get_boundary_nodes_labels` (patch.py:302-319): the labels on the faces of the node matrix, in
3D without zero.  The set is a list here. -/
def boundaryLabels (nDim : ℕ) (ns : List ℕ) (matrix : List ℕ → ℕ) : List ℕ :=
  let faces := (gridIndices ns).filter fun idx =>
    (List.zip idx ns).any fun a => decide (a.1 = 0 ∨ a.1 + 1 = a.2)
  let labels := faces.map matrix
  if nDim = 2 then labels else labels.filter (· ≠ 0)

/-- The element offsets of `_get_links_mesh_data`: `range(0, n_edge_nodes - e + 1, e - 1)` for each
dimension (links.py:745-751, 782-792). -/
def elemOffsets (e : ℕ) (ns : List ℕ) : List (List ℕ) :=
  (gridIndices (ns.map fun N => (N - e + 1 + (e - 1) - 1) / (e - 1))).map fun o =>
    o.map (· * (e - 1))

/-- Nodes of the element with offset `o` (links.py:753-762, 794-804). -/
def elemNodes (t : FeTable) (matrix : List ℕ → ℕ) (o : List ℕ) : Py (List ℕ) :=
  (List.range t.nNodes).mapM fun (p : ℕ) => do
    let loc ← t.getNodeLabelIndex ((p : ℤ) + 1)
    pure (matrix (List.zipWith (· + ·) o loc))

/-- `_get_links_mesh_data` (links.py:716-824): nodes and material phase of the elements, of which the
labels are the positions in the lists counted from one. -/
def linksMeshData (elemType : String) (ns nElems : List ℕ) (matrix : List ℕ → ℕ)
    (material : List ℕ → ℕ) : Py (List (List ℕ) × List ℕ) := do
  let t ← finiteElement elemType
  let elements ← (elemOffsets t.nEdgeNodes ns).mapM (elemNodes t matrix)
  pure (elements, (gridIndices nElems).map material)

end Hooke
