import Verif.Model.PatchGenerate
import Mathlib.LinearAlgebra.CrossProduct

/-!
# Generation of three-dimensional deformed material patches

`data_generation/spdg/patch_generator.py` with `n_dim == 3`: frame and nodes of the deformed edges,
rigid motion, displacements of the nodes on the edges and the faces.  Points are functions from
`Fin 3`.  The values drawn are arguments, as is the order in which a Python set is iterated.
-/

noncomputable section

namespace Hooke

open Matrix

/-- A point or vector of space. -/
abbrev Vec3 := Fin 3 → ℝ

/-- `np.linalg.norm` of a vector with three components. -/
def norm3 (v : Vec3) : ℝ := √(v ⬝ᵥ v)

open Classical in
/-- `_rotation_tensor_deformed_edge` in three dimensions (patch_generator.py:1550-1590); `a`, `b` are
the corners of the edge, `c`, `d` those of the diagonal.  A null vector is divided by its norm into
not-a-number components, which the final comparison of the transpose with the inverse rejects; for
other vectors that comparison holds (the rows are orthonormal, `edgeFrame3_spec`). -/
def edgeFrame3 (a b c d : Vec3) : Py (Matrix (Fin 3) (Fin 3) ℝ) :=
  let edge := (1 / norm3 (b - a)) • (b - a)
  let diag := (1 / norm3 (d - c)) • (d - c)
  let cross := diag ⨯₃ edge
  let oop := (1 / norm3 cross) • cross
  if norm3 (b - a) = 0 ∨ norm3 (d - c) = 0 ∨ norm3 cross = 0 then .error .runtimeError
  else .ok (Matrix.of ![edge, -(edge ⨯₃ oop), oop])

/-- `_transform_to_edge_local_coordinates` for one point, without the third component
(patch_generator.py:331-339, 351-355 and 1639-1645). -/
def toLocal3 (R : Matrix (Fin 3) (Fin 3) ℝ) (a x : Vec3) : ℝ × ℝ :=
  let y := R *ᵥ x - R *ᵥ a
  (y 0, y 1)

/-- `_transform_from_edge_local_coordinates` for one point, after a null third component has been
appended (patch_generator.py:367-388 and 1681-1683). -/
def fromLocal3 (R : Matrix (Fin 3) (Fin 3) ℝ) (a : Vec3) (y : ℝ × ℝ) : Vec3 :=
  Rᵀ *ᵥ ![y.1, y.2, 0] - -a

/-- One edge of `generate_deformed_patch` in three dimensions (patch_generator.py:320-391): corners
`a`, `b` of the deformed edge, `c`, `d` of the diagonal, reference nodes `p`. -/
def patchEdge3 (n : ℕ) (p : ℕ → Vec3) (a b c d : Vec3) (order : ℕ) (range : List ℝ) (u : ℕ → ℝ)
    (noise : ℕ → ℝ × ℝ) : Py (List Vec3) := do
  let R ← edgeFrame3 a b c d
  let nodes ← deformedEdge n (fun k => toLocal3 R a (p k)) (toLocal3 R a a) (toLocal3 R a b) order
    range u noise
  pure (nodes.map (fromLocal3 R a))

/-- `_edges_diag_per_dim` (patch_generator.py:803-808). -/
def edgesDiag3 : List (List (ℕ × ℕ)) :=
  [[(0, 2), (3, 1), (4, 6), (7, 5), (0, 5), (4, 1), (3, 6), (7, 2)],
   [(0, 2), (1, 3), (4, 6), (5, 7), (0, 7), (4, 3), (1, 6), (5, 2)],
   [(0, 7), (3, 4), (1, 6), (2, 5), (0, 5), (1, 4), (3, 6), (2, 7)]]

/-- `_edges_per_dim[str(i)][j]`. -/
def edgeAt (i j : ℕ) : ℕ × ℕ := ((edgesPerDim 3).getD i []).getD j (0, 0)

/-- `_edges_diag_per_dim[str(i)][j]`. -/
def edgeDiagAt (i j : ℕ) : ℕ × ℕ := (edgesDiag3.getD i []).getD j (0, 0)

/-- Dimension and index of the edges in the order of the loops (patch_generator.py:313-318). -/
def edgeList3 : List (ℕ × ℕ) := (List.range 3).flatMap fun i => (List.range 8).map fun j => (i, j)

/-- `_set_corners_coords_ref` in three dimensions (patch_generator.py:768-775). -/
def cornerRef3 (L : Vec3) (c : ℕ) : Vec3 :=
  [![0, 0, 0], ![L 0, 0, 0], ![L 0, L 1, 0], ![0, L 1, 0],
   ![0, 0, L 2], ![L 0, 0, L 2], ![L 0, L 1, L 2], ![0, L 1, L 2]].getD c 0

/-- Reference positions of the `n` nodes of an edge (patch_generator.py:279-284). -/
def edgeRef3 (n : ℕ) (A B : Vec3) (k : ℕ) : Vec3 :=
  fun r => A r + (k : ℝ) * ((B r - A r) / ((n : ℝ) - 1))

/-- `_build_edges_disp_range` in three dimensions (patch_generator.py:706-747). -/
def buildEdgeRanges3 : DictArg (Option (List ℝ)) → Py (ℕ → ℕ → List ℝ)
  | .none => .ok fun _ _ => [0, 0]
  | .dict d => do
    let rs ← (List.range (edgesMapping 3).length).mapM (edgeRange d)
    pure fun i j => rs.getD ((edgesMapping 3).idxOf (i, j)) []
  | .other => .error .runtimeError

/-- The deformed edges, in the order of `edgeList3` (patch_generator.py:312-391); `ns` are the numbers
of nodes along the dimensions. -/
def deformedEdges3 (L : Vec3) (ns : List ℕ) (noise : ℝ) (orders : ℕ → ℕ → ℕ)
    (ranges : ℕ → ℕ → List ℝ) (corners : ℕ → Vec3) (u : PatchDraws) : Py (List (List Vec3)) :=
  edgeList3.mapM fun e =>
    let n := ns.getD e.1 0
    let c := edgeAt e.1 e.2
    let d := edgeDiagAt e.1 e.2
    patchEdge3 n (edgeRef3 n (cornerRef3 L c.1) (cornerRef3 L c.2)) (corners c.1) (corners c.2)
      (corners d.1) (corners d.2) (orders e.1 e.2) (ranges e.1 e.2) (u.sample e.1 e.2)
      (edgeNoise (L 0, L 1) noise (u.noise e.1 e.2))

/-- `_get_random_rigid_motions`: the translation (patch_generator.py:1325-1340). -/
def rigidTranslation3 (d : PyDict (ℝ × ℝ)) (u : ℕ → ℝ) : Vec3 :=
  ![drawKey d "1" (u 0), drawKey d "2" (u 1), drawKey d "3" (u 2)]

/-- `_get_random_rigid_motions`: the rotation tensor (patch_generator.py:1342-1363). -/
def rigidRotation3 (d : PyDict (ℝ × ℝ)) (u : ℕ → ℝ) : Matrix (Fin 3) (Fin 3) ℝ :=
  eulerRotation (drawKey d "alpha" (u 0)) (drawKey d "beta" (u 1)) (drawKey d "gamma" (u 2))

/-- `_get_patch_centroid` in three dimensions (patch_generator.py:1400): the mean of the corners. -/
def cornersMean (corners : ℕ → Vec3) : Vec3 := (1 / 8 : ℝ) • ∑ c ∈ Finset.range 8, corners c

/-- The rigid motion of the edges (patch_generator.py:394-425), with the conditions as in two
dimensions (`moveEdges`). -/
def moveEdges3 (corners : ℕ → Vec3) (translation rotation : Option (PyDict (ℝ × ℝ))) (u : PatchDraws)
    (edges : List (List Vec3)) : Py (List (List Vec3)) := do
  let c := cornersMean corners
  let r ← orRaise (rotation.map fun d => rigidRotation3 d u.rot) .typeError
  let t ← orRaise (translation.map fun d => rigidTranslation3 d u.trans) .typeError
  pure (edges.map fun e => e.map fun x => c + r *ᵥ (x - c) + t)

open Classical in
/-- `_get_node_label_from_coords` (patch_generator.py:2012-2022): the last node that is close. -/
def labelFromCoords3 (coords : List (ℕ × List ℝ)) (x : Vec3) : Py ℕ :=
  orRaise (((coords.filter fun a => decide (∀ r : Fin 3, npIsClose (x r) (a.2.getD r 0))).getLast?).map
    Prod.fst) .runtimeError

/-- `_get_matching_edges_idxs` for dimension `i` (patch_generator.py:839-852); `uniq` are the elements
of the set of its edges in the order of iteration. -/
def matchingIdxs (uniq : List (ℕ × ℕ)) (i : ℕ) : List (List ℕ) :=
  uniq.map fun t => (List.range 8).filter fun j => decide (edgeAt i j = t)

/-- `np.mean` of points. -/
def meanVec (l : List Vec3) : Vec3 := (1 / (l.length : ℝ)) • l.sum

/-- Reference and mean deformed positions of the nodes of the edges, in the order of the loops
(patch_generator.py:1914-1935).  The deformed edges are overwritten by their mean there, which is not
read again. -/
def edgeNodes3 (L : Vec3) (ns : List ℕ) (uniq : ℕ → List (ℕ × ℕ)) (edges : List (List Vec3)) :
    List (Vec3 × Vec3) :=
  (List.range 3).flatMap fun i => (matchingIdxs (uniq i) i).flatMap fun idxs =>
    let n := ns.getD i 0
    let c := edgeAt i (idxs.headD 0)
    (List.range n).map fun k =>
      (edgeRef3 n (cornerRef3 L c.1) (cornerRef3 L c.2) k,
        meanVec (idxs.map fun j => (edges.getD (edgeList3.idxOf (i, j)) []).getD k 0))

/-- One node of an edge (patch_generator.py:1934-1943). -/
def setEdgeDisp3 (coords : List (ℕ × List ℝ)) (d : KDict ℕ Vec3) (a : Vec3 × Vec3) :
    Py (KDict ℕ Vec3) := do
  let label ← labelFromCoords3 coords a.1
  pure (if d.has label then d else d.put label (a.2 - a.1))

/-- `faces_nodes` (patch_generator.py:1948-1953): shape of the faces and index into the node matrix. -/
def solidFaces (ns : List ℕ) : List ((ℕ × ℕ) × (ℕ → ℕ → List ℕ)) :=
  let n := fun i => ns.getD i 0
  [((n 0, n 1), fun i j => [i, j, 0]), ((n 0, n 1), fun i j => [i, j, n 2 - 1]),
   ((n 1, n 2), fun i j => [0, i, j]), ((n 1, n 2), fun i j => [n 0 - 1, i, j]),
   ((n 0, n 2), fun i j => [i, 0, j]), ((n 0, n 2), fun i j => [i, n 1 - 1, j])]

/-- One node of a face (patch_generator.py:1965-1989). -/
def setFaceDisp (matrix : List ℕ → ℕ) (f : (ℕ × ℕ) × (ℕ → ℕ → List ℕ)) (d : KDict ℕ Vec3)
    (p : ℕ × ℕ) : Py (KDict ℕ Vec3) :=
  let n₁ := f.1.1
  let n₂ := f.1.2
  let label := matrix (f.2 p.1 p.2)
  if label = 0 then .ok d
  else do
    let a ← orRaise (d.get? (matrix (f.2 0 p.2))) .keyError
    let b ← orRaise (d.get? (matrix (f.2 (n₁ - 1) p.2))) .keyError
    let a' ← orRaise (d.get? (matrix (f.2 p.1 0))) .keyError
    let b' ← orRaise (d.get? (matrix (f.2 p.1 (n₂ - 1)))) .keyError
    let disp₁ := (1 - (p.1 : ℝ) / n₁) • a + ((p.1 : ℝ) / n₁) • b
    let disp₂ := (1 - (p.2 : ℝ) / n₂) • a' + ((p.2 : ℝ) / n₂) • b'
    pure (if d.has label then d else d.put label (meanVec [disp₁, disp₂]))

/-- The nodes of a face in the order of the loops (patch_generator.py:1958-1963). -/
def faceIndices (n₁ n₂ : ℕ) : List (ℕ × ℕ) :=
  (List.range' 1 (n₂ - 1)).flatMap fun j => (List.range' 1 (n₁ - 1)).map fun i => (i, j)

/-- `_get_mesh_boundary_nodes_disps` in three dimensions (patch_generator.py:1912-1991). -/
def boundaryDisps3 (L : Vec3) (ns : List ℕ) (uniq : ℕ → List (ℕ × ℕ)) (edges : List (List Vec3))
    (coords : List (ℕ × List ℝ)) (matrix : List ℕ → ℕ) : Py (KDict ℕ Vec3) := do
  let d ← (edgeNodes3 L ns uniq edges).foldlM (setEdgeDisp3 coords) []
  (solidFaces ns).foldlM (fun d f => (faceIndices f.1.1 f.1.2).foldlM (setFaceDisp matrix f) d) d

/-- A `FiniteElementPatch`: mesh, number of nodes per dimension, boundary displacements. -/
structure DeformedPatch3 where
  mesh : StructMesh
  ns : List ℕ
  disps : KDict ℕ Vec3

/-- `FiniteElementPatch.__init__` (patch.py:134-149). -/
def makePatch3 (mesh : StructMesh) (ns : List ℕ) (disps : KDict ℕ Vec3) : Py DeformedPatch3 := do
  raiseIf (∃ l ∈ disps.keys, l ∉ boundaryLabels 3 ns mesh.matrix) .runtimeError
  pure ⟨mesh, ns, disps⟩

/-- One iteration of the loop (patch_generator.py:302-465).  Every deformation is admissible
(patch_generator.py:1504-1506). -/
def patchIteration3 (fl : ℝ → ℝ) (uniq : ℕ → List (ℕ × ℕ)) (L : Vec3) (elem : String)
    (nElems ns : List ℕ) (a : PatchArgs) (range : ℕ → ℕ → ℝ × ℝ) (orders : ℕ → ℕ → ℕ)
    (edgeRanges : ℕ → ℕ → List ℝ) (u : PatchDraws) : Py DeformedPatch3 := do
  let disp := cornersDisp 3 range orders u.corner u.edge
  let corners := fun c => cornerRef3 L c + ![disp.1 c 0, disp.1 c 1, disp.1 c 2]
  let edges ← deformedEdges3 L ns a.noise disp.2 edgeRanges corners u
  let moved ← moveEdges3 corners a.translation a.rotation u edges
  let m ← generateMesh fl 3 [L 0, L 1, L 2] elem nElems
  let disps ← boundaryDisps3 L ns uniq moved m.1.coords m.1.matrix
  makePatch3 m.1 m.2 disps

/-- `generate_deformed_patch` in three dimensions (patch_generator.py:249-473).  The loop is left in
the first iteration, for which the values `u` are drawn; without an iteration there is no patch. -/
def generatePatch3 (fl : ℝ → ℝ) (uniq : ℕ → List (ℕ × ℕ)) (L : Vec3) (elem : String)
    (nElems : List ℕ) (a : PatchArgs) (maxIter : ℕ) (u : PatchDraws) :
    Py (Bool × Option DeformedPatch3) := do
  let bc ← buildCornersBc 3 a.bc
  let range ← buildCornersRange 3 a.ranges bc
  let orders ← buildOrders 3 a.order
  let edgeRanges ← buildEdgeRanges3 a.edgeRanges
  let t ← finiteElement elem
  let ns := nElems.map (nEdgeNodes t.nEdgeNodes)
  if maxIter = 0 then pure (false, none)
  else do
    let p ← patchIteration3 fl uniq L elem nElems ns a range orders edgeRanges u
    pure (true, some p)

end Hooke
