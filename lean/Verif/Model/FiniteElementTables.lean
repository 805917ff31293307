import Verif.Model.PyUtil
import Mathlib.Data.List.Range

/-!
# Node tables of the structured finite elements

`simulators/links/discretization/finite_element.py`.
-/

namespace Hooke

/-- The attributes `FiniteElement._set_elem_type_attributes` sets
(`simulators/links/discretization/finite_element.py:250-254`).  The node matrix is the list of the
item assignments made to an array of zeros of shape `n_dim*(n_edge_nodes,)`. -/
structure FeTable where
  nDim : ℕ
  nNodes : ℕ
  nEdges : ℕ
  nEdgeNodes : ℕ
  assigned : List (List ℕ × ℕ)

namespace FeTable

/-- The entry of the node matrix at an index: the last assignment, or zero. -/
def entry (t : FeTable) (idx : List ℕ) : ℕ :=
  t.assigned.foldl (fun v a => if a.1 = idx then a.2 else v) 0

/-- The indices of an array of shape `d*(n,)`, in row-major order. -/
def indices (n : ℕ) : ℕ → List (List ℕ)
  | 0 => [[]]
  | d + 1 => (List.range n).flatMap fun i => (indices n d).map fun r => i :: r

/-- The indices of the node matrix. -/
def cells (t : FeTable) : List (List ℕ) := indices t.nEdgeNodes t.nDim

/-- `get_node_label_index(label)` (`finite_element.py:300-321`): `np.where(nodes_matrix == label)`
gives, for each dimension, one array with as many entries as there are matching cells. -/
def getNodeLabelIndex (t : FeTable) (label : ℤ) : Py (List ℕ) :=
  match t.cells.filter fun c => decide ((t.entry c : ℤ) = label) with
  | [c] => .ok c
  | _ => .error .runtimeError

end FeTable

/-- `SQUAD4` (`finite_element.py:117-126`). -/
def feSQUAD4 : FeTable where
  nDim := 2
  nNodes := 4
  nEdges := 4
  nEdgeNodes := 2
  assigned :=
    [([0, 0], 1), ([1, 0], 2), ([1, 1], 3), ([0, 1], 4)]

/-- `SQUAD8` (`finite_element.py:127-140`). -/
def feSQUAD8 : FeTable where
  nDim := 2
  nNodes := 8
  nEdges := 4
  nEdgeNodes := 3
  assigned :=
    [([0, 0], 1), ([1, 0], 2), ([2, 0], 3), ([2, 1], 4), ([2, 2], 5), ([1, 2], 6), ([0,
     2], 7), ([0, 1], 8)]

/-- `SQUAD12` (`finite_element.py:141-158`). -/
def feSQUAD12 : FeTable where
  nDim := 2
  nNodes := 12
  nEdges := 4
  nEdgeNodes := 4
  assigned :=
    [([0, 0], 1), ([1, 0], 2), ([2, 0], 3), ([3, 0], 4), ([3, 1], 5), ([3, 2], 6), ([3,
     3], 7), ([2, 3], 8), ([1, 3], 9), ([0, 3], 10), ([0, 2], 11), ([0, 1], 12)]

/-- `LQUAD4` (`finite_element.py:159-168`). -/
def feLQUAD4 : FeTable where
  nDim := 2
  nNodes := 4
  nEdges := 4
  nEdgeNodes := 2
  assigned :=
    [([0, 0], 1), ([1, 0], 2), ([0, 1], 3), ([1, 1], 4)]

/-- `LQUAD9` (`finite_element.py:169-183`). -/
def feLQUAD9 : FeTable where
  nDim := 2
  nNodes := 9
  nEdges := 4
  nEdgeNodes := 3
  assigned :=
    [([0, 0], 1), ([1, 0], 2), ([2, 0], 3), ([0, 1], 4), ([1, 1], 5), ([2, 1], 6), ([0,
     2], 7), ([1, 2], 8), ([2, 2], 9)]

/-- `LQUAD16` (`finite_element.py:184-205`). -/
def feLQUAD16 : FeTable where
  nDim := 2
  nNodes := 16
  nEdges := 4
  nEdgeNodes := 4
  assigned :=
    [([0, 0], 1), ([1, 0], 2), ([2, 0], 3), ([3, 0], 4), ([0, 1], 5), ([1, 1], 6), ([2,
     1], 7), ([3, 1], 8), ([0, 2], 9), ([1, 2], 10), ([2, 2], 11), ([3, 2], 12), ([0, 3],
     13), ([1, 3], 14), ([2, 3], 15), ([3, 3], 16)]

/-- `SHEXA8` (`finite_element.py:206-219`). -/
def feSHEXA8 : FeTable where
  nDim := 3
  nNodes := 8
  nEdges := 12
  nEdgeNodes := 2
  assigned :=
    [([0, 0, 0], 1), ([1, 0, 0], 2), ([1, 1, 0], 3), ([0, 1, 0], 4), ([0, 0, 1], 5), ([1,
     0, 1], 6), ([1, 1, 1], 7), ([0, 1, 1], 8)]

/-- `SHEXA20` (`finite_element.py:220-245`). -/
def feSHEXA20 : FeTable where
  nDim := 3
  nNodes := 20
  nEdges := 12
  nEdgeNodes := 3
  assigned :=
    [([0, 0, 0], 1), ([2, 0, 0], 2), ([2, 2, 0], 3), ([0, 2, 0], 4), ([0, 0, 2], 5), ([2,
     0, 2], 6), ([2, 2, 2], 7), ([0, 2, 2], 8), ([1, 0, 0], 9), ([2, 1, 0], 10), ([1, 2,
     0], 11), ([0, 1, 0], 12), ([0, 0, 1], 13), ([2, 0, 1], 14), ([2, 2, 1], 15), ([0, 2,
     1], 16), ([1, 0, 2], 17), ([2, 1, 2], 18), ([1, 2, 2], 19), ([0, 1, 2], 20)]

/-- `FiniteElement(elem_type)` (`finite_element.py:63-78`, `finite_element.py:117-247`). -/
def finiteElement (elemType : String) : Py FeTable :=
  if elemType = "SQUAD4" then .ok feSQUAD4
  else if elemType = "SQUAD8" then .ok feSQUAD8
  else if elemType = "SQUAD12" then .ok feSQUAD12
  else if elemType = "LQUAD4" then .ok feLQUAD4
  else if elemType = "LQUAD9" then .ok feLQUAD9
  else if elemType = "LQUAD16" then .ok feLQUAD16
  else if elemType = "SHEXA8" then .ok feSHEXA8
  else if elemType = "SHEXA20" then .ok feSHEXA20
  else .error .runtimeError

end Hooke
