import Verif.Model.TrainingRecords

/-!
# Specification of learning rates and of the figures of a training
-/

noncomputable section

open Classical

namespace Hooke.Spec

/-- The learning rate of an epoch, as documented for the schedulers: decayed every given number of
epochs, decayed every epoch, and changed linearly during the first epochs. -/
def rateOf (s : LrSched) (lr : ℝ) (epoch : ℕ) : ℝ :=
  match s with
  | .step size g => lr * g ^ (epoch / size)
  | .exp g => lr * g ^ epoch
  | .linear a b n => lr * (a + (b - a) * (min epoch n : ℕ) / n)

/-- The parameters that the constructors accept and that do not fail later. -/
def ValidSched : LrSched → Prop
  | .step size _ => 0 < size
  | .exp _ => True
  | .linear a b _ => 0 < a ∧ a ≤ 1 ∧ 0 ≤ b ∧ b ≤ 1

/-- The point of a history in the row of an epoch. -/
def pointAt (h : List HistEntry) (epoch : ℕ) : Option (ℕ × HistEntry) :=
  match h[epoch]? with
  | some v => some (epoch, v)
  | none => none

end Hooke.Spec
