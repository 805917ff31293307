import Verif.Model.PatchSolid
import Verif.Spec.PatchGenerate

/-!
# Specification: deformed material patches in three dimensions
-/

noncomputable section

namespace Hooke.Spec

open Matrix

/-- The corners of a brick in units of its dimensions. -/
def cornerBit (c : ℕ) : Fin 3 → ℕ :=
  [![0, 0, 0], ![1, 0, 0], ![1, 1, 0], ![0, 1, 0],
   ![0, 0, 1], ![1, 0, 1], ![1, 1, 1], ![0, 1, 1]].getD c 0

/-- The edges of the six faces of a brick: label, dimension along which the edge runs, corner at its
beginning, corner at its end, corner of the face opposite to the beginning.  Four labels for each
face: bottom, top, `x = 0`, `x = L`, `y = 0`, `y = L`; so every edge of the brick has two labels. -/
def patchEdges3 : List (ℕ × ℕ × ℕ × ℕ × ℕ) :=
  [(1, 0, 0, 1, 2), (2, 0, 3, 2, 1), (3, 1, 0, 3, 2), (4, 1, 1, 2, 3),
   (5, 0, 4, 5, 6), (6, 0, 7, 6, 5), (7, 1, 4, 7, 6), (8, 1, 5, 6, 7),
   (9, 1, 0, 3, 7), (10, 1, 4, 7, 3), (11, 2, 0, 4, 7), (12, 2, 3, 7, 4),
   (13, 1, 1, 2, 6), (14, 1, 5, 6, 2), (15, 2, 1, 5, 6), (16, 2, 2, 6, 5),
   (17, 0, 0, 1, 5), (18, 0, 4, 5, 1), (19, 2, 0, 4, 5), (20, 2, 1, 5, 4),
   (21, 0, 3, 2, 6), (22, 0, 7, 6, 2), (23, 2, 3, 7, 6), (24, 2, 2, 6, 7)]

/-- A deformed edge with `n` nodes from `a` to `b`, as `IsDeformedEdge`, in space: `v` points from the
edge into the face, and the edge is deformed in the plane of the edge and `v`. -/
def IsDeformedEdge3 (a b v : Vec3) (order : ℕ) (lo hi : ℝ) (n : ℕ) (noise : ℕ → ℝ × ℝ)
    (q : ℕ → Vec3) : Prop :=
  ∃ (e ν : Vec3) (ℓ : ℝ) (P : Polynomial ℝ) (x : ℕ → ℝ),
    (e ⬝ᵥ e = 1 ∧ ν ⬝ᵥ ν = 1 ∧ e ⬝ᵥ ν = 0) ∧
    (0 < ℓ ∧ b = a + ℓ • e ∧ ν ⬝ᵥ v < 0 ∧ ∃ s t : ℝ, ν = s • e + t • v) ∧
    (P.natDegree ≤ max 1 order ∧ P.eval 0 = 0 ∧ P.eval ℓ = 0 ∧
      ∀ m, 1 ≤ m → m < order → P.eval (ℓ * m / order) ∈ Set.Icc lo hi) ∧
    (x 0 = 0 ∧ x (n - 1) = ℓ ∧ (∀ k, k + 1 < n → x k < x (k + 1)) ∧
      ∀ k < n, AtFraction P ℓ 999 ((k : ℝ) / ((n : ℝ) - 1)) (x k)) ∧
    q 0 = a ∧ q (n - 1) = b ∧
    ∀ k, 0 < k → k < n - 1 →
      q k = a + (x k + (noise k).1) • e + (P.eval (x k) + (noise k).2) • ν

/-- Rotation by `φ` degrees about the third axis. -/
def rotZ (φ : ℝ) : Matrix (Fin 3) (Fin 3) ℝ :=
  !![Real.cos (φ * Real.pi / 180), -Real.sin (φ * Real.pi / 180), 0;
     Real.sin (φ * Real.pi / 180), Real.cos (φ * Real.pi / 180), 0; 0, 0, 1]

/-- Rotation by `φ` degrees about the first axis. -/
def rotX (φ : ℝ) : Matrix (Fin 3) (Fin 3) ℝ :=
  !![1, 0, 0; 0, Real.cos (φ * Real.pi / 180), -Real.sin (φ * Real.pi / 180);
     0, Real.sin (φ * Real.pi / 180), Real.cos (φ * Real.pi / 180)]

/-- The corners of the patch before the rigid motion: those of the brick, displaced. -/
def cornerPoint3 (L : Vec3) (disp : ℕ → ℕ → ℝ) (c : ℕ) : Vec3 :=
  fun r => (cornerBit c r : ℝ) * L r + disp c r

/-- The position in the node grid of the `k`-th node of the edge along dimension `i` that begins at
corner `c`. -/
def edgePos3 (N : Fin 3 → ℕ) (c i k : ℕ) : List ℕ :=
  List.ofFn fun r : Fin 3 => if (r : ℕ) = i then k else cornerBit c r * (N r - 1)

/-- The point of the undeformed patch at a position of the node grid. -/
def gridPoint3 (L : Vec3) (N : Fin 3 → ℕ) (idx : List ℕ) : Vec3 :=
  fun r => (idx.getD r 0 : ℝ) * (L r / ((N r : ℝ) - 1))

/-- Position of the node `(i, j)` of the face orthogonal to dimension `f` at `s`. -/
def facePos (f : Fin 3) (s i j : ℕ) : List ℕ :=
  if f = 0 then [s, i, j] else if f = 1 then [i, s, j] else [i, j, s]

/-- The two dimensions along a face. -/
def faceDims (f : Fin 3) : Fin 3 × Fin 3 := if f = 0 then (1, 2) else if f = 1 then (0, 2) else (0, 1)

/-- `z lab k` is the position of the `k`-th node of the edge with that label after the deformation and
the rigid motion with the values `u`: the corners are displaced as in C96, every edge is deformed in
the plane of its face with the order declared for it (zero if it is zero for the other face), and all
is rotated about the mean of the corners and translated. -/
def DeformedSolid (L : Vec3) (N : Fin 3 → ℕ) (a : PatchArgs) (u : PatchDraws) (z : ℕ → ℕ → Vec3) :
    Prop :=
  ∃ (disp : ℕ → ℕ → ℝ) (tr rd : PyDict (ℝ × ℝ)) (t : Vec3) (α β γ : ℝ) (q : ℕ → ℕ → Vec3),
    cornerDisplacements 3 a.bc a.ranges a.order u.corner u.edge = .ok disp ∧
    a.translation = some tr ∧ a.rotation = some rd ∧
    (InKeyRange tr "1" (t 0) ∧ InKeyRange tr "2" (t 1) ∧ InKeyRange tr "3" (t 2)) ∧
    (InKeyRange rd "alpha" α ∧ InKeyRange rd "beta" β ∧ InKeyRange rd "gamma" γ) ∧
    ∀ lab i c d f lab' f', (lab, i, c, d, f) ∈ patchEdges3 → (lab', i, c, d, f') ∈ patchEdges3 →
      lab' ≠ lab → ∃ o o' lo hi j, EdgeOrder a.order lab o ∧ EdgeOrder a.order lab' o' ∧
        EdgeDispRange a.edgeRanges lab lo hi ∧ (edgesMapping 3)[lab - 1]? = some (i, j) ∧
        IsDeformedEdge3 (cornerPoint3 L disp c) (cornerPoint3 L disp d)
          (cornerPoint3 L disp f - cornerPoint3 L disp c) (if o' = 0 then 0 else o) lo hi
          (N (Fin.ofNat 3 i)) (fun k => (|a.noise| * L 0 * (u.noise i j k).1,
            |a.noise| * L 1 * (u.noise i j k).2)) (q lab) ∧
        ∀ k < N (Fin.ofNat 3 i), z lab k =
          let C : Vec3 := fun r => (∑ c ∈ Finset.range 8, cornerPoint3 L disp c r) / 8
          C + (rotZ α * rotX β * rotZ γ) *ᵥ (q lab k - C) + t

/-- `uniq i` lists the edges along dimension `i` once each, in any order. -/
def ListsEdges (uniq : ℕ → List (ℕ × ℕ)) : Prop :=
  ∀ i < 3, (uniq i).Nodup ∧ ∀ c d, (c, d) ∈ uniq i ↔ ∃ lab f, (lab, i, c, d, f) ∈ patchEdges3

/-- The displacement ranges of the edges are well-formed: a dictionary or `None`, with a pair in
increasing order for every edge that is mentioned. -/
def EdgeRangesOk3 : DictArg (Option (List ℝ)) → Prop
  | .none => True
  | .dict d => ∀ lab, 1 ≤ lab → lab ≤ 24 → ∀ v, d.get? (toString lab) = some v →
      ∃ lo hi, v = some [lo, hi] ∧ lo ≤ hi
  | .other => False

/-- The displaced corners span a brick: no edge is parallel to the diagonal of its face, or orthogonal
to that face before the deformation. -/
def NonDegenerate3 (L : Vec3) (disp : ℕ → ℕ → ℝ) : Prop :=
  ∀ lab i c d f, (lab, i, c, d, f) ∈ patchEdges3 →
    let e := cornerPoint3 L disp d - cornerPoint3 L disp c
    let v := cornerPoint3 L disp f - cornerPoint3 L disp c
    v ⨯₃ e ≠ 0 ∧ (e (Fin.ofNat 3 i) ≠ 0 ∨ v (Fin.ofNat 3 i) ≠ 0)

/-- The mesh of the patch with the displacements of its boundary nodes, for the positions `z` of the
nodes of the edges.  Every node of the boundary (and no other) has a displacement.  A node of an edge
moves to the mean of its positions on the two faces.  A node in the interior of a face is displaced by
the mean of two linear interpolations between opposite edges. -/
structure IsSolidPatch (fl : ℝ → ℝ) (L : Vec3) (elem : String) (nElems N : Fin 3 → ℕ)
    (z : ℕ → ℕ → Vec3) (p : DeformedPatch3) : Prop where
  mesh : generateMesh fl 3 [L 0, L 1, L 2] elem [nElems 0, nElems 1, nElems 2] =
    .ok (p.mesh, [N 0, N 1, N 2])
  ns : p.ns = [N 0, N 1, N 2]
  nodup : p.disps.keys.Nodup
  nodes : ∀ l, l ∈ p.disps.keys ↔ l ≠ 0 ∧ ∃ idx, p.mesh.matrix idx = l ∧ OnBoundary [N 0, N 1, N 2] idx
  edge : ∀ lab lab' i c d f f', (lab, i, c, d, f) ∈ patchEdges3 → (lab', i, c, d, f') ∈ patchEdges3 →
    lab ≠ lab' → ∀ k < N (Fin.ofNat 3 i), p.disps.get? (p.mesh.matrix (edgePos3 N c i k)) =
      some ((1 / 2 : ℝ) • (z lab k + z lab' k) - gridPoint3 L N (edgePos3 N c i k))
  face : ∀ f s, (s = 0 ∨ s = N f - 1) → ∀ i j, 0 < i → i < N (faceDims f).1 - 1 → 0 < j →
    j < N (faceDims f).2 - 1 → p.mesh.matrix (facePos f s i j) ≠ 0 →
    ∃ left right bottom top : Vec3,
      p.disps.get? (p.mesh.matrix (facePos f s 0 j)) = some left ∧
      p.disps.get? (p.mesh.matrix (facePos f s (N (faceDims f).1 - 1) j)) = some right ∧
      p.disps.get? (p.mesh.matrix (facePos f s i 0)) = some bottom ∧
      p.disps.get? (p.mesh.matrix (facePos f s i (N (faceDims f).2 - 1))) = some top ∧
      p.disps.get? (p.mesh.matrix (facePos f s i j)) = some ((1 / 2 : ℝ) •
        ((1 - (i : ℝ) / N (faceDims f).1) • left + ((i : ℝ) / N (faceDims f).1) • right +
         (1 - (j : ℝ) / N (faceDims f).2) • bottom + ((j : ℝ) / N (faceDims f).2) • top))

end Hooke.Spec
