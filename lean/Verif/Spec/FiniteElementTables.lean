import Verif.Model.FiniteElementTables

/-!
# Specification: structured finite elements
-/

namespace Hooke.Spec

/-- The available element types, whether they have nodes on the edges only (`S`, serendipity) or in
every cell of the grid (`L`, Lagrange), their dimension and their number of nodes per edge. -/
def feKinds : List (String × Bool × ℕ × ℕ) :=
  [("SQUAD4", true, 2, 2), ("SQUAD8", true, 2, 3), ("SQUAD12", true, 2, 4),
   ("LQUAD4", false, 2, 2), ("LQUAD9", false, 2, 3), ("LQUAD16", false, 2, 4),
   ("SHEXA8", true, 3, 2), ("SHEXA20", true, 3, 3)]

/-- A grid index of an element of dimension `d` with `n` nodes per edge. -/
def IsCell (n d : ℕ) (c : List ℕ) : Prop := c.length = d ∧ ∀ i ∈ c, i < n

/-- The index lies on an edge of the element: at most one coordinate is not extremal. -/
def OnEdge (n : ℕ) (c : List ℕ) : Prop := (c.filter fun i => 0 < i ∧ i + 1 < n).length ≤ 1

instance (n : ℕ) (c : List ℕ) : Decidable (OnEdge n c) := by unfold OnEdge; infer_instance

end Hooke.Spec
