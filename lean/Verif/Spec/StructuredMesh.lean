import Verif.Model.StructuredMesh
import Verif.Spec.FiniteElementTables

/-!
# Specification: structured meshes
-/

noncomputable section

namespace Hooke.Spec

/-- Rounding to double precision, for results that neither overflow nor underflow: the relative error
is at most `2^-53`. -/
def IsRounding (fl : ℝ → ℝ) : Prop := ∀ x, |fl x - x| ≤ |x| / 2 ^ 53

/-- Number of grid positions along each dimension of a mesh of elements with `e` nodes per edge. -/
def gridSize (e : ℕ) (nElems : List ℕ) : List ℕ := nElems.map fun n => n * (e - 1) + 1

/-- `idx` is a position of a grid of size `ns`. -/
def OnGrid (ns idx : List ℕ) : Prop := List.Forall₂ (· < ·) idx ns

/-- There is a node at position `idx`: everywhere for elements with nodes in all cells; where at most
one component is inside an element for elements with nodes on their edges only. -/
def IsNodePos (isEdge : Bool) (e : ℕ) (idx : List ℕ) : Prop :=
  isEdge = true → (idx.filter fun i => ¬ (e - 1) ∣ i).length ≤ 1

/-- Position `a` comes before `b` when the first component varies fastest. -/
def ColLt : List ℕ → List ℕ → Prop
  | i :: r, j :: s => ColLt r s ∨ r = s ∧ i < j
  | _, _ => False

/-- Coordinates of the position `idx` in a patch of dimensions `dims`: every dimension is divided
into equal intervals. -/
def gridCoords (e : ℕ) (dims : List ℝ) (nElems idx : List ℕ) : List ℝ :=
  List.zipWith (fun (i : ℕ) (a : ℝ × ℕ) => (i : ℝ) * (a.1 / ((a.2 * (e - 1) : ℕ) : ℝ))) idx
    (List.zip dims nElems)

/-- The position is on the boundary of the grid. -/
def OnBoundary (ns idx : List ℕ) : Prop :=
  ∃ a ∈ List.zip idx ns, a.1 = 0 ∨ a.1 + 1 = a.2

/-- Position of the corner node `loc` of the element in cell `c`. -/
def elemPos (e : ℕ) (c loc : List ℕ) : List ℕ := List.zipWith (fun o l => o * (e - 1) + l) c loc

end Hooke.Spec
