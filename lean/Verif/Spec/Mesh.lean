import Verif.Model.Mesh

/-!
# Specification vocabulary for finite element meshes

What a valid mesh is, and assembly written as a plain sum.
-/

noncomputable section

namespace Hooke

namespace Spec

/-- Node labels (from 1) of element `k`. -/
def nodes (m : MeshTopology) (k : ℕ) : List ℕ := m.conn.getD (k - 1) []

/-- `k` is the label of an element of the mesh. -/
def IsElement (m : MeshTopology) (k : ℕ) : Prop := 1 ≤ k ∧ k ≤ m.conn.length

/-- Every element has at least one node and all node labels are within `1..n_node_mesh`. -/
def ValidMesh (m : MeshTopology) : Prop :=
  0 < m.nNode ∧ ∀ c ∈ m.conn, c ≠ [] ∧ ∀ x ∈ c, 1 ≤ x ∧ x ≤ m.nNode

/-- The dictionary `elems` maps elements of the mesh to arrays with `nd` entries per node. -/
def ElementArrays (m : MeshTopology) (nd : ℕ) (elems : List (ℕ × Arr)) : Prop :=
  elems ≠ [] ∧ ∀ ka ∈ elems, IsElement m ka.1 ∧ ka.2.len = (nodes m ka.1).length * nd

/-- Contribution of one element to component `d` of the node with label `n`: the sum of
its entries over the element's nodes that are node `n`. -/
def contribution (m : MeshTopology) (nd n d : ℕ) (ka : ℕ × Arr) : ℝ :=
  ∑ i ∈ Finset.range (nodes m ka.1).length,
    if (nodes m ka.1).getD i 0 = n then ka.2.val (i * nd + d) else 0

end Spec

end Hooke
