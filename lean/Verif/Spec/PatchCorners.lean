import Verif.Model.PatchCorners
import Mathlib.Order.Interval.Set.Basic

/-!
# Specification: corners and edges of a material patch

What the user declares about the corners and the edges of a patch.
-/

namespace Hooke.Spec

/-- The user fixed the degree of freedom `k` of corner `c` (counted from zero; the labels count from
one). -/
def CornerFixed (bc : DictArg (Option (List ℤ))) (c k : ℕ) : Prop :=
  ∃ d v, bc = .dict d ∧ d.get? (toString (c + 1)) = some (some v) ∧ v[k]? = some 1

/-- `r` is the displacement range of corner `c` along dimension `k` declared by the user: zero for a
fixed degree of freedom and for a corner that is not mentioned. -/
def CornerRange (bc : DictArg (Option (List ℤ)))
    (ranges : DictArg (Option (List (Option (List ℝ))))) (c k : ℕ) (r : ℝ × ℝ) : Prop :=
  (CornerFixed bc c k ∧ r = (0, 0)) ∨
  (¬ CornerFixed bc c k ∧
    ((∃ d l, ranges = .dict d ∧ d.get? (toString (c + 1)) = some (some l) ∧
        l[k]? = some (some [r.1, r.2])) ∨
      ((ranges = .none ∨ ∃ d, ranges = .dict d ∧ toString (c + 1) ∉ d.keys) ∧ r = (0, 0))))

/-- `o` is the deformation order declared for the edge with that label. -/
def EdgeOrder (order : OrderArg) (label o : ℕ) : Prop :=
  match order with
  | .none => o = 0
  | .int z => (o : ℤ) = max 0 z
  | .dict d => (∃ z, d.get? (toString label) = some (some z) ∧ (o : ℤ) = max 0 z) ∨
      (toString label ∉ d.keys ∧ o = 0)
  | .other => False

/-- The edges of a two-dimensional patch: label, dimension along which the edge runs, corner at its
beginning, corner at its end. -/
def patchEdges2 : List (ℕ × ℕ × ℕ × ℕ) := [(1, 0, 0, 1), (2, 0, 3, 2), (3, 1, 0, 3), (4, 1, 1, 2)]

/-- The coordinates of the corners of a two-dimensional patch in units of its dimensions. -/
def patchCorners2 : List (ℕ × ℕ) := [(0, 0), (1, 0), (1, 1), (0, 1)]

/-- The boundary conditions are well-formed: the keys are corner labels, the values tuples with one
component per dimension. -/
def BcOk (nDim : ℕ) : DictArg (Option (List ℤ)) → Prop
  | .dict d => ∀ a ∈ d, (∃ c < nCorners nDim, a.1 = toString (c + 1)) ∧
      ∃ v, a.2 = some v ∧ v.length = nDim
  | _ => True

/-- The displacement ranges are well-formed: a dictionary or `None`, and the entries of the corners
are tuples with a pair per dimension. -/
def RangesOk (nDim : ℕ) : DictArg (Option (List (Option (List ℝ)))) → Prop
  | .none => True
  | .dict d => ∀ c < nCorners nDim, ∀ v, d.get? (toString (c + 1)) = some v →
      ∃ l, v = some l ∧ l.length = nDim ∧ ∀ r ∈ l, ∃ a b, r = some [a, b]
  | .other => False

/-- The deformation orders are well-formed: `None`, an integer or a dictionary with an integer for
every edge that is mentioned. -/
def OrdersOk (nDim : ℕ) : OrderArg → Prop
  | .dict d => ∀ e < (edgesMapping nDim).length, ∀ v, d.get? (toString (e + 1)) = some v → v ≠ none
  | .other => False
  | _ => True

end Hooke.Spec
