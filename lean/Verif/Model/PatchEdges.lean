import Verif.Model.PatchCorners
import Mathlib.LinearAlgebra.Vandermonde
import Mathlib.LinearAlgebra.Matrix.NonsingularInverse
import Mathlib.Analysis.Real.Sqrt

/-!
# Deformed edges of the two-dimensional material patches

`data_generation/spdg/patch_generator.py`: local frame of an edge, random polynomial, positions of the
nodes along it.  Points are pairs of reals; an array of points is a function of the row.  The values
drawn are arguments.
-/

noncomputable section

namespace Hooke

open Matrix

/-- `np.linalg.norm` of a vector with two components. -/
def norm2 (v : ℝ × ℝ) : ℝ := √(v.1 ^ 2 + v.2 ^ 2)

/-- Scalar product of two vectors. -/
def dot2 (v w : ℝ × ℝ) : ℝ := v.1 * w.1 + v.2 * w.2

/-- The first two components of `np.cross` of a vector of the plane and a vector `(0, 0, s)`
orthogonal to it. -/
def crossZ (v : ℝ × ℝ) (s : ℝ) : ℝ × ℝ := (v.2 * s, -(v.1 * s))

open Classical in
/-- `_rotation_tensor_deformed_edge` in two dimensions (patch_generator.py:1550-1590): the first two
rows, restricted to the plane; `a`, `b` are the corners of the edge, `c`, `d` those of the diagonal.
A null vector is divided by its norm into not-a-number components, which the final comparison of the
transpose with the inverse rejects; for other vectors that comparison holds (the rows are orthonormal,
`edgeFrame_spec`). -/
def edgeFrame (a b c d : ℝ × ℝ) : Py ((ℝ × ℝ) × (ℝ × ℝ)) :=
  let edge := (1 / norm2 (b - a)) • (b - a)
  let diag := (1 / norm2 (d - c)) • (d - c)
  let oop := diag.1 * edge.2 - diag.2 * edge.1
  if norm2 (b - a) = 0 ∨ norm2 (d - c) = 0 ∨ |oop| = 0 then .error .runtimeError
  else .ok (edge, -crossZ edge (1 / |oop| * oop))

/-- `np.linalg.solve`; a singular matrix raises `LinAlgError`, a `ValueError`. -/
def npSolve {n : ℕ} (A : Matrix (Fin n) (Fin n) ℝ) (b : Fin n → ℝ) : Py (Fin n → ℝ) :=
  open Classical in if A.det = 0 then .error .valueError else .ok (A⁻¹ *ᵥ b)

/-- The control points of `_polynomial_sampler` (patch_generator.py:1241-1257): the two ends and, at
equidistant interior abscissas, ordinates drawn from `[lo, hi)`. -/
def controlPoints (nInt : ℕ) (l r : ℝ × ℝ) (lo hi : ℝ) (u : ℕ → ℝ) (i : ℕ) : ℝ × ℝ :=
  if i = 0 then l
  else if i = 1 then r
  else (l.1 + ((i : ℝ) - 1) * ((r.1 - l.1) / ((2 + nInt : ℝ) - 1)), uniformDraw (lo, hi) (u (i - 2)))

/-- `_polynomial_sampler` (patch_generator.py:1231-1265): the coefficients. -/
def polynomialSampler (order : ℕ) (l r : ℝ × ℝ) (lo hi : ℝ) (u : ℕ → ℝ) :
    Py (Fin (2 + (order - 1)) → ℝ) :=
  npSolve (Matrix.of fun i k => (controlPoints (order - 1) l r lo hi u i).1 ^ (k : ℕ))
    fun i => (controlPoints (order - 1) l r lo hi u i).2

/-- `polynomial` (patch_generator.py:1081-1083). -/
def polyVal {n : ℕ} (c : Fin n → ℝ) (x : ℝ) : ℝ := ∑ i, c i * x ^ (i : ℕ)

/-- `linear_coord_map` from `[0, 1]` (patch_generator.py:1085-1088). -/
def linearMap01 (x lo hi : ℝ) : ℝ := lo + (hi - lo) / (1 - 0) * (x - 0)

/-- `np.sum(cord_lengths[:i])` for the polygon through the points `p` (patch_generator.py:1095-1113 and
1124-1137). -/
def cumLength (p : ℕ → ℝ × ℝ) (i : ℕ) : ℝ := ∑ j ∈ Finset.range i, norm2 (p (j + 1) - p j)

/-- The fractional positions of the `n` points `p` along their polygon. -/
def fracPosition (p : ℕ → ℝ × ℝ) (n i : ℕ) : ℝ := 1 / cumLength p (n - 1) * cumLength p i

open Classical in
/-- The parameter of the point at the fractional position `f` (patch_generator.py:1141-1152), for the
`m` sorted fractional positions `g`, the first of which is zero. -/
def nodeParam (g : ℕ → ℝ) (m : ℕ) (f : ℝ) : Py ℝ :=
  let index := (List.range m).countP fun i => decide (g i ≤ f)
  if m ≤ index then .error .indexError
  else .ok (((index - 1 : ℕ) : ℝ) * (1 / ((m : ℝ) - 1)) +
    (f - g (index - 1)) / (g index - g (index - 1)) * (1 / ((m : ℝ) - 1)))

open Classical in
/-- One node of `_get_deformed_boundary_edge` (patch_generator.py:1118-1169), in the row `k` of `n`;
`g` are the fractional positions of the points of the curve, `p` the reference nodes. With a null total
length the fractional position is not a number, which is sorted after the last point. -/
def deformedNode (n : ℕ) (p : ℕ → ℝ × ℝ) (l r : ℝ × ℝ) {d : ℕ} (c : Fin d → ℝ) (m : ℕ) (g : ℕ → ℝ)
    (noise : ℕ → ℝ × ℝ) (k : ℕ) : Py (ℝ × ℝ) :=
  if k = n - 1 then .ok r
  else if k = 0 then .ok l
  else if cumLength p (n - 1) = 0 then .error .indexError
  else do
    let t ← nodeParam g m (fracPosition p n k)
    let x := linearMap01 t l.1 r.1
    pure ((x, polyVal c x) + noise k)

/-- The points of the curve (patch_generator.py:1098-1104). -/
def curvePoint (l r : ℝ × ℝ) {d : ℕ} (c : Fin d → ℝ) (m : ℕ) (i : ℕ) : ℝ × ℝ :=
  let x := linearMap01 ((i : ℝ) * (1 / ((m : ℝ) - 1))) l.1 r.1
  (x, polyVal c x)

/-- `arr[:-1] <= arr[1:]` for the first components of the `n` points. -/
def SortedAscend (n : ℕ) (p : ℕ → ℝ × ℝ) : Prop := ∀ k, k + 1 < n → (p k).1 ≤ (p (k + 1)).1

/-- `arr[:-1] >= arr[1:]`. -/
def SortedDescend (n : ℕ) (p : ℕ → ℝ × ℝ) : Prop := ∀ k, k + 1 < n → (p (k + 1)).1 ≤ (p k).1

open Classical in
/-- The reference nodes in ascending order (patch_generator.py:1052-1056). -/
def ascendNodes (n : ℕ) (p : ℕ → ℝ × ℝ) : ℕ → ℝ × ℝ :=
  if SortedAscend n p then p else fun k => p (n - 1 - k)

open Classical in
/-- `_get_deformed_boundary_edge` (patch_generator.py:1035-1169): the deformed positions of the `n`
nodes; `u` are the values drawn for the polynomial, `noise` those of the superimposed noise. -/
def deformedEdge (n : ℕ) (p : ℕ → ℝ × ℝ) (l r : ℝ × ℝ) (order : ℕ) (range : List ℝ) (u : ℕ → ℝ)
    (noise : ℕ → ℝ × ℝ) : Py (List (ℝ × ℝ)) := do
  raiseIf (r.1 ≤ l.1) .runtimeError
  raiseIf (¬ SortedAscend n p ∧ ¬ SortedDescend n p) .runtimeError
  let b ← rangeOf (some range)
  let ref := (l.2 + r.2) / 2
  let c ← polynomialSampler order l r (ref + b.1) (ref + b.2) u
  (List.range n).mapM (deformedNode n (ascendNodes n p) l r c 1000
    (fracPosition (curvePoint l r c 1000) 1000) noise)

/-- `_transform_to_edge_local_coordinates` for one point (patch_generator.py:331-339 and 1639-1645). -/
def toLocal (f : (ℝ × ℝ) × (ℝ × ℝ)) (a x : ℝ × ℝ) : ℝ × ℝ :=
  (dot2 f.1 x, dot2 f.2 x) - (dot2 f.1 a, dot2 f.2 a)

/-- `_transform_from_edge_local_coordinates` for one point (patch_generator.py:379-388 and
1681-1683). -/
def fromLocal (f : (ℝ × ℝ) × (ℝ × ℝ)) (a y : ℝ × ℝ) : ℝ × ℝ :=
  (f.1.1 * y.1 + f.2.1 * y.2, f.1.2 * y.1 + f.2.2 * y.2) - -a

/-- One edge of `generate_deformed_patch` in two dimensions (patch_generator.py:320-391): corners `a`,
`b` of the deformed edge, `c`, `d` of the diagonal, reference nodes `p`. -/
def patchEdge (n : ℕ) (p : ℕ → ℝ × ℝ) (a b c d : ℝ × ℝ) (order : ℕ) (range : List ℝ) (u : ℕ → ℝ)
    (noise : ℕ → ℝ × ℝ) : Py (List (ℝ × ℝ)) := do
  let f ← edgeFrame a b c d
  let nodes ← deformedEdge n (fun k => toLocal f a (p k)) (toLocal f a a) (toLocal f a b) order range u
    noise
  pure (nodes.map (fromLocal f a))

end Hooke
