import Verif.Model.UncertaintyRuns

/-!
# Specification of an uncertainty quantification
-/

namespace Hooke.Spec

/-- All trainings and predictions succeed: realization `i` is trained on what is left in the model directory
by the earlier ones, `dirs i`, leaves `dirs (i + 1)`, and predicts `out i`. -/
structure UqRuns {M P : Type} (train : ℕ → M → Py Unit × M) (predict : M → Py P) (n : ℕ)
    (dirs : ℕ → M) (out : ℕ → P) : Prop where
  trained : ∀ i < n, train i (dirs i) = (.ok (), dirs (i + 1))
  predicted : ∀ i < n, predict (dirs (i + 1)) = .ok (out i)

/-- The realization after its prediction `p` of the kind `testing` has been stored. -/
def withPrediction {M P : Type} (s : UqSample M P) (testing : Text) (p : P) : UqSample M P :=
  ⟨s.model, some ((s.preds.getD []).put testing p)⟩

end Hooke.Spec
