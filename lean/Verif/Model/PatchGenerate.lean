import Verif.Model.PatchEdges
import Verif.Model.StructuredMesh
import Verif.Model.StrainPath
import Mathlib.Analysis.SpecialFunctions.Trigonometric.Basic
import Mathlib.LinearAlgebra.Matrix.Notation

/-!
# Generation of two-dimensional deformed material patches

`data_generation/spdg/patch_generator.py`: rigid motions, admissibility, displacements of the boundary
nodes and the iteration over random deformations.  The geometric library (centroid, validity and
orientation of a polygon) is a parameter, as are the values drawn in each iteration.
-/

noncomputable section

namespace Hooke

/-- `rotation_tensor_from_euler_angles` (patch_generator.py:2065-2088), angles in degrees. -/
def eulerRotation (α β γ : ℝ) : Matrix (Fin 3) (Fin 3) ℝ :=
  let rad := fun x : ℝ => x * Real.pi / 180
  let s1 := Real.sin (rad α)
  let s2 := Real.sin (rad β)
  let s3 := Real.sin (rad γ)
  let c1 := Real.cos (rad α)
  let c2 := Real.cos (rad β)
  let c3 := Real.cos (rad γ)
  !![c1 * c3 - c2 * s1 * s3, -c1 * s3 - c2 * c3 * s1, s1 * s2;
     c3 * s1 + c1 * c2 * s3, c1 * c2 * c3 - s1 * s3, -c1 * s2;
     s2 * s3, c3 * s2, c2]

/-- The functions of `shapely` used: centroid, `is_valid` and `is_ccw` of a closed polygon. -/
structure PolygonLib where
  centroid : List (ℝ × ℝ) → ℝ × ℝ
  isValid : List (ℝ × ℝ) → Bool
  isCcw : List (ℝ × ℝ) → Bool

/-- The values drawn in one iteration: uniform on `[0, 1)` for the corners (by corner and dimension),
for the edges of order zero (by edge and dimension), for the polynomials (by edge), for translation
and rotation; standard normal for the noise (by edge and node). -/
structure PatchDraws where
  corner : ℕ → ℕ → ℝ
  edge : ℕ → ℕ → ℕ → ℝ × ℝ
  sample : ℕ → ℕ → ℕ → ℝ
  noise : ℕ → ℕ → ℕ → ℝ × ℝ
  trans : ℕ → ℝ
  rot : ℕ → ℝ

/-- The arguments of `generate_deformed_patch` that specify the deformation. -/
structure PatchArgs where
  bc : DictArg (Option (List ℤ))
  ranges : DictArg (Option (List (Option (List ℝ))))
  order : OrderArg
  edgeRanges : DictArg (Option (List ℝ))
  translation : Option (PyDict (ℝ × ℝ))
  rotation : Option (PyDict (ℝ × ℝ))
  noise : ℝ

/-- The range of one edge of a dictionary (patch_generator.py:729-739). -/
def edgeRange (d : PyDict (Option (List ℝ))) (label : ℕ) : Py (List ℝ) :=
  match d.get? (toString (label + 1)) with
  | none => .ok [0, 0]
  | some o => orRaise o .runtimeError

/-- `_build_edges_disp_range` in two dimensions (patch_generator.py:706-747). -/
def buildEdgeRanges : DictArg (Option (List ℝ)) → Py (ℕ → ℕ → List ℝ)
  | .none => .ok fun _ _ => [0, 0]
  | .dict d => do
    let rs ← (List.range (edgesMapping 2).length).mapM (edgeRange d)
    pure fun i j => rs.getD ((edgesMapping 2).idxOf (i, j)) []
  | .other => .error .runtimeError

/-- `_set_corners_coords_ref` in two dimensions (patch_generator.py:762-766). -/
def cornerRef (dims : ℝ × ℝ) (c : ℕ) : ℝ × ℝ :=
  [(0, 0), (dims.1, 0), (dims.1, dims.2), (0, dims.2)].getD c 0

/-- Edges of a two-dimensional patch in the order of the loops, with dimension, index, corners and
corners of the diagonal (patch_generator.py:783-788). -/
def edges2 : List ((ℕ × ℕ) × (ℕ × ℕ) × (ℕ × ℕ)) :=
  [((0, 0), (0, 1), (0, 2)), ((0, 1), (3, 2), (3, 1)), ((1, 0), (0, 3), (0, 2)),
    ((1, 1), (1, 2), (1, 3))]

/-- Reference positions of the `n` nodes of an edge (patch_generator.py:279-284). -/
def edgeRef (n : ℕ) (A B : ℝ × ℝ) (k : ℕ) : ℝ × ℝ :=
  (A.1 + (k : ℝ) * ((B.1 - A.1) / ((n : ℝ) - 1)), A.2 + (k : ℝ) * ((B.2 - A.2) / ((n : ℝ) - 1)))

/-- The superimposed noise (patch_generator.py:1162-1167). -/
def edgeNoise (dims : ℝ × ℝ) (noise : ℝ) (z : ℕ → ℝ × ℝ) (k : ℕ) : ℝ × ℝ :=
  (|noise| * dims.1 * (z k).1, |noise| * dims.2 * (z k).2)

/-- The deformed edges of one iteration, in the order of `edges2` (patch_generator.py:312-391). -/
def deformedEdges (dims : ℝ × ℝ) (ns : ℕ × ℕ) (noise : ℝ) (orders : ℕ → ℕ → ℕ)
    (ranges : ℕ → ℕ → List ℝ) (corners : ℕ → ℝ × ℝ) (u : PatchDraws) : Py (List (List (ℝ × ℝ))) :=
  edges2.mapM fun e =>
    let n := if e.1.1 = 0 then ns.1 else ns.2
    patchEdge n (edgeRef n (cornerRef dims e.2.1.1) (cornerRef dims e.2.1.2)) (corners e.2.1.1)
      (corners e.2.1.2) (corners e.2.2.1) (corners e.2.2.2) (orders e.1.1 e.1.2)
      (ranges e.1.1 e.1.2) (u.sample e.1.1 e.1.2) (edgeNoise dims noise (u.noise e.1.1 e.1.2))

/-- A value drawn from the range under a key, zero without that key (patch_generator.py:1333-1339,
1354-1360). -/
def drawKey (d : PyDict (ℝ × ℝ)) (key : String) (u : ℝ) : ℝ :=
  match d.get? key with
  | some r => uniformDraw r u
  | none => 0

/-- `_get_random_rigid_motions`: the translation (patch_generator.py:1325-1340). -/
def rigidTranslation (d : PyDict (ℝ × ℝ)) (u : ℕ → ℝ) : ℝ × ℝ := (drawKey d "1" (u 0), drawKey d "2" (u 1))

/-- `_get_random_rigid_motions`: the rotation tensor (patch_generator.py:1342-1363); in two dimensions
only the first angle is drawn. -/
def rigidRotation (d : PyDict (ℝ × ℝ)) (u : ℕ → ℝ) : Matrix (Fin 3) (Fin 3) ℝ :=
  eulerRotation (drawKey d "alpha" (u 0)) 0 0

/-- `_rotate_coords_array` for one point of the plane (patch_generator.py:1711-1712). -/
def rotatePoint (r : Matrix (Fin 3) (Fin 3) ℝ) (x : ℝ × ℝ) : ℝ × ℝ :=
  (r 0 0 * x.1 + r 0 1 * x.2, r 1 0 * x.1 + r 1 1 * x.2)

/-- The closed boundary polygon (patch_generator.py:1428-1464): the edges counterclockwise, each
without its last point, and the first point again. -/
def boundaryPolygon (edges : List (List (ℝ × ℝ))) : List (ℝ × ℝ) :=
  let e := fun i => edges.getD i []
  let open_ := (e 0).dropLast ++ (e 3).dropLast ++ (e 1).reverse.dropLast ++ (e 2).reverse.dropLast
  open_ ++ open_.take 1

/-- The rigid motion of the edges (patch_generator.py:394-425).  The conditions of the code test other
variables, which are never `None`: without rotation angles the rotation tensor `None` is subscripted,
without translation `None` is added. -/
def moveEdges (lib : PolygonLib) (translation rotation : Option (PyDict (ℝ × ℝ))) (u : PatchDraws)
    (edges : List (List (ℝ × ℝ))) : Py (List (List (ℝ × ℝ))) := do
  let c := lib.centroid (boundaryPolygon edges)
  let r ← orRaise (rotation.map fun d => rigidRotation d u.rot) .typeError
  let t ← orRaise (translation.map fun d => rigidTranslation d u.trans) .typeError
  pure (edges.map fun e => e.map fun x => c + rotatePoint r (x - c) + t)

open Classical in
/-- `_get_node_label_from_coords` (patch_generator.py:2012-2022): the last node that is close. -/
def labelFromCoords (coords : List (ℕ × List ℝ)) (x : ℝ × ℝ) : Py ℕ :=
  orRaise (((coords.filter fun a => decide (npIsClose x.1 (a.2.getD 0 0) ∧
    npIsClose x.2 (a.2.getD 1 0))).getLast?).map Prod.fst) .runtimeError

/-- One node of `_get_mesh_boundary_nodes_disps` (patch_generator.py:1902-1911). -/
def setNodeDisp (coords : List (ℕ × List ℝ)) (d : KDict ℕ (ℝ × ℝ)) (a : (ℝ × ℝ) × (ℝ × ℝ)) :
    Py (KDict ℕ (ℝ × ℝ)) := do
  let label ← labelFromCoords coords a.1
  pure (if d.has label then d else d.put label (a.2 - a.1))

/-- Reference and deformed positions of the nodes of the edges, in the order of the loops
(patch_generator.py:1892-1903). -/
def edgeNodes (dims : ℝ × ℝ) (ns : ℕ × ℕ) (edges : List (List (ℝ × ℝ))) :
    List ((ℝ × ℝ) × (ℝ × ℝ)) :=
  (List.zip edges2 edges).flatMap fun a =>
    let n := if a.1.1.1 = 0 then ns.1 else ns.2
    (List.range n).map fun k =>
      (edgeRef n (cornerRef dims a.1.2.1.1) (cornerRef dims a.1.2.1.2) k, a.2.getD k 0)

/-- `_get_mesh_boundary_nodes_disps` in two dimensions (patch_generator.py:1887-1911). -/
def boundaryDisps (dims : ℝ × ℝ) (ns : ℕ × ℕ) (edges : List (List (ℝ × ℝ)))
    (coords : List (ℕ × List ℝ)) : Py (KDict ℕ (ℝ × ℝ)) :=
  (edgeNodes dims ns edges).foldlM (setNodeDisp coords) []

/-- A `FiniteElementPatch`: mesh, number of nodes per dimension, boundary displacements. -/
structure DeformedPatch where
  mesh : StructMesh
  ns : List ℕ
  disps : KDict ℕ (ℝ × ℝ)

/-- `FiniteElementPatch.__init__` (patch.py:134-149). -/
def makePatch (mesh : StructMesh) (ns : List ℕ) (disps : KDict ℕ (ℝ × ℝ)) : Py DeformedPatch := do
  raiseIf (∃ l ∈ disps.keys, l ∉ boundaryLabels 2 ns mesh.matrix) .runtimeError
  pure ⟨mesh, ns, disps⟩

/-- The part of an iteration after an admissible deformation was found
(patch_generator.py:441-463). -/
def finishPatch (fl : ℝ → ℝ) (dims : ℝ × ℝ) (elem : String) (nElems : ℕ × ℕ) (ns : ℕ × ℕ)
    (edges : List (List (ℝ × ℝ))) : Py (Option DeformedPatch) := do
  let m ← generateMesh fl 2 [dims.1, dims.2] elem [nElems.1, nElems.2]
  let disps ← boundaryDisps dims ns edges m.1.coords
  let p ← makePatch m.1 m.2 disps
  pure (some p)

/-- One iteration of the loop (patch_generator.py:302-465): the patch if the deformation is
admissible. -/
def patchIteration (lib : PolygonLib) (fl : ℝ → ℝ) (dims : ℝ × ℝ) (elem : String) (nElems ns : ℕ × ℕ)
    (a : PatchArgs) (range : ℕ → ℕ → ℝ × ℝ) (orders : ℕ → ℕ → ℕ) (edgeRanges : ℕ → ℕ → List ℝ)
    (u : PatchDraws) : Py (Option DeformedPatch) := do
  let disp := (cornersDisp 2 range orders u.corner u.edge).1
  let edges ← deformedEdges dims ns a.noise orders edgeRanges
    (fun c => cornerRef dims c + (disp c 0, disp c 1)) u
  let moved ← moveEdges lib a.translation a.rotation u edges
  let poly := boundaryPolygon moved
  if lib.isValid poly && lib.isCcw poly then finishPatch fl dims elem nElems ns moved else pure none

/-- The loop of `generate_deformed_patch` over the iterations (patch_generator.py:292-295, 435,
465). -/
def patchLoop (f : ℕ → Py (Option DeformedPatch)) : List ℕ → Py (Option DeformedPatch)
  | [] => .ok none
  | i :: l => do
    match ← f i with
    | some p => pure (some p)
    | none => patchLoop f l

/-- `generate_deformed_patch` in two dimensions (patch_generator.py:249-473); `u i` are the values
drawn in iteration `i`.  The flag returned with the patch says whether there is one. -/
def generatePatch (lib : PolygonLib) (fl : ℝ → ℝ) (dims : ℝ × ℝ) (elem : String) (nElems : ℕ × ℕ)
    (a : PatchArgs) (maxIter : ℕ) (u : ℕ → PatchDraws) : Py (Bool × Option DeformedPatch) := do
  let bc ← buildCornersBc 2 a.bc
  let range ← buildCornersRange 2 a.ranges bc
  let orders ← buildOrders 2 a.order
  let edgeRanges ← buildEdgeRanges a.edgeRanges
  let t ← finiteElement elem
  let ns := (nEdgeNodes t.nEdgeNodes nElems.1, nEdgeNodes t.nEdgeNodes nElems.2)
  let p ← patchLoop (fun i => patchIteration lib fl dims elem nElems ns a range orders edgeRanges (u i))
    (List.range maxIter)
  pure (p.isSome, p)

end Hooke
