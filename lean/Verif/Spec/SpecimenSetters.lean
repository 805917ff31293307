import Verif.Model.SpecimenSetters

/-!
# Specification: mesh and data of a specimen
-/

namespace Hooke.Spec

/-- The keys are the labels from 1 to `n`. -/
def LabelledTo (n : ℕ) (keys : List String) : Prop :=
  ∀ k, k ∈ keys ↔ ∃ i, 1 ≤ i ∧ i ≤ n ∧ k = toString i

/-- Each element, from 1 to their number, has a type and as many nodes as its type says. -/
structure CompleteElements (types : PyDict (Option ℕ)) (conn : PyDict (List ℕ)) : Prop where
  types_labels : LabelledTo types.length types.keys
  conn_labels : LabelledTo types.length conn.keys
  known : ∀ e ∈ types, e.2 ≠ none
  nodes : ∀ k nodes, (k, nodes) ∈ conn → types.get? k = some (some nodes.length)

/-- Data of `N` nodes, `d` dimensions and `T` times. -/
structure FitData {τ : Type} (N d T : ℕ) (h : SpecimenHists τ) : Prop where
  disps : h.disps.1 = [N, d, T]
  reactions : h.reactions.1 = [N, d, T]
  bcs : h.bcs.1 = [N, d, T]
  time : h.time.1.head? = some T

/-- The data fit the mesh. -/
def Consistent {τ : Type} (s : SpecimenObj τ) : Prop :=
  ∀ h, s.hists = some h → ∃ m T, s.mesh = some m ∧ FitData m.nNode m.nDim T h

/-- A call that sets data. -/
def _root_.Hooke.SpecimenCall.isData {τ : Type} : SpecimenCall τ → Bool
  | .data .. => true
  | .mesh .. => false

end Hooke.Spec
