import Verif.Model.FinderObject

/-! # The loss of a material model finder and its calls -/

noncomputable section

namespace Hooke.Spec

variable {N n T : ℕ}

/-- A force in direction `j` scaled to `[-1, 1]` by the bounds, if there are any. -/
def scaledForce (b : Option ((Fin n → ℝ) × (Fin n → ℝ))) (j : Fin n) (x : ℝ) : ℝ := match b with
  | none => x
  | some b => 2 * (x - b.1 j) / (b.2 j - b.1 j) - 1

/-- Squared residuals at one time without external forces; the reactions count where the flag is 1. -/
def residualLoss (b : Option ((Fin n → ℝ) × (Fin n → ℝ))) (Fi R : Fin N → Fin n → ℝ)
    (flags : Fin N → Fin n → ℤ) : ℝ :=
  ∑ i, ∑ j, (scaledForce b j (Fi i j) - scaledForce b j 0
    - if flags i j = 1 then scaledForce b j (R i j) else 0) ^ 2

/-- Weighted sum over the times, multiplied by the factor if there is one. -/
def weightedLoss (factor : Option ℝ) (w loss : Fin T → ℝ) : ℝ := factor.getD 1 * ∑ t, w t * loss t

/-- The weights that the call asks for: the given values, or 1 at each time. -/
def RequestedWeights (c : FinderCall) (w : Fin c.specimen.T → ℝ) : Prop :=
  (c.weights = .none ∧ ∀ t, w t = 1) ∨ c.weights = .tensor [c.specimen.T] (List.ofFn w)

/-- The bounds of the forces that a finder with or without normalisation uses for the call. -/
def RequestedBounds (normalization : Bool) (c : FinderCall)
    (b : Option ((Fin c.specimen.n → ℝ) × (Fin c.specimen.n → ℝ))) : Prop :=
  (normalization = false ∧ b = none) ∨
  (normalization = true ∧ ∃ mn mx : Fin c.specimen.n → ℝ, b = some (mn, mx) ∧
    c.forceMin = some (List.ofFn mn) ∧ c.forceMax = some (List.ofFn mx))

/-- The finder after calls of `set_specimen_data`, refused or not. -/
def afterCalls (F : FinderObj) (cs : List FinderCall) : FinderObj :=
  cs.foldl (fun F c => (setSpecimen F c).1) F

end Hooke.Spec
