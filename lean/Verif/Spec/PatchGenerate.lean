import Verif.Model.PatchGenerate
import Verif.Spec.PatchCorners
import Verif.Spec.PatchEdges
import Verif.Spec.StructuredMesh

/-!
# Specification: deformed material patches in two dimensions
-/

noncomputable section

namespace Hooke.Spec

/-- `[lo, hi]` is the displacement range declared for the edge with that label. -/
def EdgeDispRange (arg : DictArg (Option (List ℝ))) (lab : ℕ) (lo hi : ℝ) : Prop :=
  (arg = .none ∧ lo = 0 ∧ hi = 0) ∨
  ∃ d, arg = .dict d ∧ (d.get? (toString lab) = some (some [lo, hi]) ∨
    (toString lab ∉ d.keys ∧ lo = 0 ∧ hi = 0))

/-- `v` is in the range declared under a key, zero without one. -/
def InKeyRange (d : PyDict (ℝ × ℝ)) (key : String) (v : ℝ) : Prop :=
  (∃ r, d.get? key = some r ∧ (r.1 ≤ r.2 → v ∈ Set.Icc r.1 r.2)) ∨ (key ∉ d.keys ∧ v = 0)

/-- Rotation about `c` by `α` degrees, followed by the translation `t`. -/
def rigidMotion (c t : ℝ × ℝ) (α : ℝ) (x : ℝ × ℝ) : ℝ × ℝ :=
  (c.1 + (Real.cos (α * Real.pi / 180) * (x.1 - c.1) - Real.sin (α * Real.pi / 180) * (x.2 - c.2)) + t.1,
   c.2 + (Real.sin (α * Real.pi / 180) * (x.1 - c.1) + Real.cos (α * Real.pi / 180) * (x.2 - c.2)) + t.2)

/-- The position in the node grid of the `k`-th node of an edge. -/
def edgePos (N : ℕ × ℕ) (lab k : ℕ) : List ℕ :=
  if lab = 1 then [k, 0] else if lab = 2 then [k, N.2 - 1] else if lab = 3 then [0, k] else [N.1 - 1, k]

/-- The number of nodes of an edge. -/
def edgeSize (N : ℕ × ℕ) (lab : ℕ) : ℕ := if lab = 1 ∨ lab = 2 then N.1 else N.2

/-- The point of the undeformed patch at a position of the node grid. -/
def gridPoint (dims : ℝ × ℝ) (N : ℕ × ℕ) (idx : List ℕ) : ℝ × ℝ :=
  ((idx.getD 0 0 : ℝ) * (dims.1 / ((N.1 : ℝ) - 1)), (idx.getD 1 0 : ℝ) * (dims.2 / ((N.2 : ℝ) - 1)))

/-- The closed polygon through the nodes of the edges, `q lab k` being the `k`-th node of the edge
`lab`: along the lower edge, up the right one, back along the upper one, down the left one. -/
def ccwPolygon (N : ℕ × ℕ) (q : ℕ → ℕ → ℝ × ℝ) : List (ℝ × ℝ) :=
  (List.range (N.1 - 1)).map (q 1) ++ (List.range (N.2 - 1)).map (q 4) ++
    (List.range (N.1 - 1)).map (fun k => q 2 (N.1 - 1 - k)) ++
    (List.range (N.2 - 1)).map (fun k => q 3 (N.2 - 1 - k)) ++ [q 1 0]

/-- The corners of the patch before the rigid motion: those of the rectangle, displaced. -/
def cornerPoint (dims : ℝ × ℝ) (disp : ℕ → ℕ → ℝ) (c : ℕ) : ℝ × ℝ :=
  ((patchCorners2.getD c (0, 0)).1 * dims.1 + disp c 0, (patchCorners2.getD c (0, 0)).2 * dims.2 + disp c 1)

/-- `z lab k` is the position of the `k`-th node of the edge `lab` after the deformation and the rigid
motion of one iteration with the values `u`: the corners are displaced as in C96, the edges deformed as
in C97, and the whole boundary is rotated about its centroid and translated. -/
def DeformedBoundary (lib : PolygonLib) (dims : ℝ × ℝ) (N : ℕ × ℕ) (a : PatchArgs) (u : PatchDraws)
    (z : ℕ → ℕ → ℝ × ℝ) : Prop :=
  ∃ disp tr rd t α q, cornerDisplacements 2 a.bc a.ranges a.order u.corner u.edge = .ok disp ∧
    a.translation = some tr ∧ a.rotation = some rd ∧
    InKeyRange tr "1" t.1 ∧ InKeyRange tr "2" t.2 ∧ InKeyRange rd "alpha" α ∧
    ∀ lab i c d, (lab, i, c, d) ∈ patchEdges2 → ∃ o lo hi, EdgeOrder a.order lab o ∧
      EdgeDispRange a.edgeRanges lab lo hi ∧
      IsDeformedEdge (cornerPoint dims disp c) (cornerPoint dims disp d)
        (cornerPoint dims disp ((c + 2) % 4) - cornerPoint dims disp c) o lo hi (edgeSize N lab)
        (fun k => (|a.noise| * dims.1 * (u.noise i ((lab - 1) % 2) k).1,
          |a.noise| * dims.2 * (u.noise i ((lab - 1) % 2) k).2)) (q lab) ∧
      ∀ k < edgeSize N lab, z lab k = rigidMotion (lib.centroid (ccwPolygon N q)) t α (q lab k)

/-- The values drawn from uniform distributions are in `[0, 1]`. -/
def PatchDraws.Ok (u : PatchDraws) : Prop :=
  (∀ c k, u.corner c k ∈ Set.Icc (0 : ℝ) 1) ∧
  (∀ i j k, (u.edge i j k).1 ∈ Set.Icc (0 : ℝ) 1 ∧ (u.edge i j k).2 ∈ Set.Icc (0 : ℝ) 1) ∧
  (∀ i j k, u.sample i j k ∈ Set.Icc (0 : ℝ) 1) ∧
  (∀ k, u.trans k ∈ Set.Icc (0 : ℝ) 1) ∧ ∀ k, u.rot k ∈ Set.Icc (0 : ℝ) 1

/-- The displacement ranges of the edges are well-formed: a dictionary or `None`, with a pair in
increasing order for every edge that is mentioned. -/
def EdgeRangesOk : DictArg (Option (List ℝ)) → Prop
  | .none => True
  | .dict d => ∀ lab, 1 ≤ lab → lab ≤ 4 → ∀ v, d.get? (toString lab) = some v →
      ∃ lo hi, v = some [lo, hi] ∧ lo ≤ hi
  | .other => False

/-- The displaced corners span a patch: no edge is parallel to the diagonal from its first corner. -/
def NonDegenerate (dims : ℝ × ℝ) (disp : ℕ → ℕ → ℝ) : Prop :=
  ∀ lab i c d, (lab, i, c, d) ∈ patchEdges2 →
    let e := cornerPoint dims disp d - cornerPoint dims disp c
    let v := cornerPoint dims disp ((c + 2) % 4) - cornerPoint dims disp c
    v.1 * e.2 ≠ v.2 * e.1

end Hooke.Spec
