import Verif.Model.HybridInit

/-!
# Specification of the initialization file of hybrid models
-/

namespace Hooke.Spec

/-- The items name, place and connect their models in the same way. -/
def SameItems (l l' : List HybItem) : Prop :=
  List.Forall₂ (fun i j => i.name = j.name ∧ i.indices = j.indices ∧ i.residual = j.residual) l l'

/-- Two hybrid models have no hybridized model in common. -/
def SharesNothing (m m' : HybObj) : Prop := ∀ i ∈ m.items, ∀ j ∈ m'.items, i.addr ≠ j.addr

/-- The weights that the initialization file holds after some events: those of the last time the scalers were
set or the file was saved. `cur` are the weights before the events, `saved` those of the file. -/
def weightsOnFile {ω : Type} (cur saved : ℕ → ω) : List (HybEvent ω) → ℕ → ω
  | [] => saved
  | .step v :: es => weightsOnFile v saved es
  | .scalers _ :: es => weightsOnFile cur cur es
  | .save :: es => weightsOnFile cur cur es

end Hooke.Spec
