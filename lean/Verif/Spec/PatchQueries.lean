import Verif.Model.PatchQueries
import Verif.Spec.StructuredMesh

/-!
# Specification of connected nodes, edges of a patch and rotations
-/

noncomputable section

open Classical

namespace Hooke.Spec

/-- The second position of a plane grid follows the first one along one of its dimensions. -/
def Follows (a b : List ℕ) : Prop :=
  ∃ i j : ℕ, a = [i, j] ∧ (b = [i + 1, j] ∨ b = [i, j + 1])

/-- At least two components of the position are at an end of their dimension. -/
def OnGridEdge (ns idx : List ℕ) : Prop :=
  2 ≤ ((List.zip idx ns).filter fun a => a.1 = 0 ∨ a.1 + 1 = a.2).length

/-- The vector `(x, y)` rotated counterclockwise by an angle in degrees. -/
def rotated (deg x y : ℝ) : ℝ × ℝ :=
  let t := deg * (Real.pi / 180)
  (Real.cos t * x - Real.sin t * y, Real.sin t * x + Real.cos t * y)

/-- The Euclidean length. -/
def planeNorm (x y : ℝ) : ℝ := Real.sqrt (x ^ 2 + y ^ 2)

end Hooke.Spec
