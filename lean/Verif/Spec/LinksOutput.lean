import Verif.Model.LinksOutput
import Mathlib.LinearAlgebra.Matrix.Defs
import Mathlib.Algebra.BigOperators.Fin

/-!
# Specification of the conversions of the outputs of Links
-/

namespace Hooke.Spec

open scoped BigOperators

/-- The columns of a comma separated file of a time step hold the results of the nodes: label,
coordinates, displacements and reactions. -/
structure ExportOf (f : Frame) (c : CsvTable) : Prop where
  rows : c.nRows = f.rows.length
  names : c.cols.keys = ["NODE", "X1", "X2", "X3", "U1", "U2", "U3", "RF1", "RF2", "RF3"].map
    String.toList
  node : c.cols.get? "NODE".toList = some ((List.range f.rows.length).map fun i => f.at i 0)
  coord : ∀ d : ℕ, d < 3 → c.cols.get? ("X".toList ++ strNat (d + 1))
    = some ((List.range f.rows.length).map fun i => f.at i (3 + d))
  disp : ∀ d : ℕ, d < 3 → c.cols.get? ("U".toList ++ strNat (d + 1))
    = some ((List.range f.rows.length).map fun i => f.at i (6 + d))
  reac : ∀ d : ℕ, d < 3 → c.cols.get? ("RF".toList ++ strNat (d + 1))
    = some ((List.range f.rows.length).map fun i => f.at i (15 + d))

/-- The sets have no node in common, no set has a node twice, the nodes are in the mesh and every set
says for three directions whether the displacement is prescribed. -/
structure ProperSets (sets : List (List ℕ × List Bool)) (nNode : ℕ) : Prop where
  once : (sets.flatMap Prod.fst).Nodup
  within : ∀ s ∈ sets, ∀ v ∈ s.1, 1 ≤ v ∧ v ≤ nNode
  three : ∀ s ∈ sets, s.2.length = 3

/-- Direction `d` is prescribed in the set with index `k`. -/
def FixedIn (sets : List (List ℕ × List Bool)) (k d : ℕ) : Prop :=
  ∃ s, sets[k]? = some s ∧ s.2[d]? = some true

/-- Every set and prescribed direction has a positive label of its own, which marks this direction of
the nodes of the set; all others have no mark. -/
structure MarksOf (sets : List (List ℕ × List Bool)) (L : ℕ → ℕ → ℕ) (marks : ℕ → ℕ → ℕ) :
    Prop where
  own : ∀ k d k' d', FixedIn sets k d → FixedIn sets k' d' → L k d = L k' d' → k = k' ∧ d = d'
  pos : ∀ k d, FixedIn sets k d → 0 < L k d
  mark : ∀ k s v d, sets[k]? = some s → v ∈ s.1 → FixedIn sets k d → marks (v - 1) d = L k d
  free : ∀ k s v d, sets[k]? = some s → v ∈ s.1 → ¬ FixedIn sets k d → marks (v - 1) d = 0
  outside : ∀ i d, (∀ s ∈ sets, i + 1 ∉ s.1) → marks i d = 0

/-- The symmetric tensor with the components of a row of a path in the given order. -/
noncomputable def rowTensor (order : List (ℕ × ℕ)) (r : List ℝ) : Matrix (Fin 3) (Fin 3) ℝ := fun i j =>
  r.getD (order.findIdx fun c => decide (c = (min i.val j.val + 1, max i.val j.val + 1))) 0

end Hooke.Spec
