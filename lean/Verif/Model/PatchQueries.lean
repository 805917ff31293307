import Verif.Model.StructuredMesh
import Mathlib.Analysis.SpecialFunctions.Complex.Arg

/-!
# Connected nodes and edges of a patch, and rotations of plane vectors

`data_generation/spdg/patch.py:240-273, 321-352, 675-740`.  The node matrix is a function of indices and
its shape, as in `Model/StructuredMesh`.
-/

noncomputable section

open Classical

namespace Hooke

/-- A pair of labels of the node matrix without missing nodes (patch.py:259-262, 266-269). -/
def nodePair (matrix : List ℕ → ℕ) (a b : List ℕ) : Option (ℕ × ℕ) :=
  if matrix a ≠ 0 ∧ matrix b ≠ 0 then some (matrix a, matrix b) else none

/-- `get_mesh_connected_nodes` (patch.py:240-273). -/
def connectedNodes (nDim : ℕ) (ns : List ℕ) (matrix : List ℕ → ℕ) : Py (List (ℕ × ℕ)) :=
  if nDim = 2 then
    match ns with
    | [n0, n1] =>
        .ok (((List.range n1).flatMap fun j =>
            (List.range (n0 - 1)).filterMap fun i => nodePair matrix [i, j] [i + 1, j])
          ++ (List.range n0).flatMap fun i =>
            (List.range (n1 - 1)).filterMap fun j => nodePair matrix [i, j] [i, j + 1])
    | _ => .error .indexError
  else .error .runtimeError

/-- The first and the last index of a dimension (index `-1` of the arrays). -/
def endIndices (n : ℕ) : List ℕ := [0, n - 1]

/-- `get_boundary_edges_nodes_labels` (patch.py:321-352): the four sides of a matrix, and the twelve
edges of an array with three dimensions.  The set is a list here. -/
def edgeLabels (nDim : ℕ) (ns : List ℕ) (matrix : List ℕ → ℕ) : List ℕ :=
  if nDim = 2 then
    match ns with
    | [n0, n1] =>
        ((endIndices n1).flatMap fun j => (List.range n0).map fun i => matrix [i, j])
          ++ (endIndices n0).flatMap fun i => (List.range n1).map fun j => matrix [i, j]
    | _ => []
  else
    match ns with
    | [n0, n1, n2] =>
        ((endIndices n1).flatMap fun j => (endIndices n2).flatMap fun k =>
            (List.range n0).map fun i => matrix [i, j, k])
          ++ ((endIndices n0).flatMap fun i => (endIndices n2).flatMap fun k =>
            (List.range n1).map fun j => matrix [i, j, k])
          ++ (endIndices n0).flatMap fun i => (endIndices n1).flatMap fun j =>
            (List.range n2).map fun k => matrix [i, j, k]
    | _ => []

/-- `np.arctan2(y, x)`: the argument of `x + i y`, which is 0 for the origin. -/
def arctan2 (y x : ℝ) : ℝ := Complex.arg ⟨x, y⟩

/-- `rotation_angle_2d` (patch.py:675-702) for arrays with one dimension.  `np.linalg.det` of two rows
fails for rows of another length than two, here `valueError`; `np.dot` fails for different lengths, and
rows of different lengths are not an array. -/
def rotationAngle (x1 x2 : List ℝ) : Py ℝ :=
  match x1, x2 with
  | [a, b], [c, d] => .ok (arctan2 (a * d - b * c) (a * c + b * d) * (180 / Real.pi))
  | _, _ => .error .valueError

/-- `mean_rotation_angle_2d` (patch.py:704-740) for arrays with two dimensions; `none` is the NaN of the
mean of no values. -/
def meanRotationAngle (xs ys : List (List ℝ)) : Py (Option ℝ) := do
  raiseIf (xs.length ≠ ys.length) .runtimeError
  let angles ← (xs.zip ys).mapM fun p => rotationAngle p.1 p.2
  .ok (if angles = [] then none else some (angles.sum / angles.length))

end Hooke
