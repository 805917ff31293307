import Verif.Spec.ModelState
import Verif.Model.Training
import Mathlib.Order.Bounds.Basic

/-!
# Specification of training and early stopping
-/

namespace Hooke

noncomputable section

/-- Model state and average loss after epoch `e`, when every epoch continues from the previous one. -/
def traj {σ : Type} (fit : ℕ → σ → σ × Fl) (s : σ) : ℕ → σ × Fl
  | 0 => fit 0 s
  | e + 1 => fit (e + 1) (traj fit s e).1

/-- `μ` is the smallest finite loss up to epoch `n`. -/
def IsMinLoss (loss : ℕ → Fl) (n : ℕ) (μ : ℝ) : Prop :=
  (∃ i ≤ n, loss i = .fin μ) ∧ ∀ i ≤ n, ∀ x, loss i = .fin x → μ ≤ x

/-- `j` is the last epoch up to `n` with the smallest loss. -/
def LastBest (loss : ℕ → Fl) (n j : ℕ) : Prop :=
  ∃ μ, IsMinLoss loss n μ ∧ j ≤ n ∧ loss j = .fin μ ∧ ∀ i ≤ n, j < i → loss i ≠ .fin μ

/-- `j` is the first epoch up to `n` with the smallest loss. -/
def FirstBest (loss : ℕ → Fl) (n j : ℕ) : Prop :=
  ∃ μ, IsMinLoss loss n μ ∧ j ≤ n ∧ loss j = .fin μ ∧ ∀ i < j, loss i ≠ .fin μ

/-- Losses of a training which does not diverge in its first epoch: later losses may be NaN or
infinite. -/
def StartsFinite (loss : ℕ → Fl) : Prop :=
  (∃ x, loss 0 = .fin x) ∧ ∀ i, loss i ≠ .inf true

/-- The epochs at which a state is saved every `k` epochs. -/
def SavedAt (saveEvery : Option ℕ) (e : ℕ) : Prop :=
  match saveEvery with
  | none => False
  | some k => e % k = 0

/-- The `i`-th value of `w` is a significant improvement: smaller than the smallest of the previous
values, by more than the relative tolerance. -/
def Significant (tol : ℝ) (w : ℕ → ℝ) (i : ℕ) : Prop :=
  ∃ m, IsLeast (w '' {j | j < i}) m ∧ w i < m ∧ tol * |m| < m - w i

/-- The first `m + 1` validations end with at least `t` validations which are no significant
improvement. -/
def Stalled (tol : ℝ) (w : ℕ → ℝ) (m t : ℕ) : Prop :=
  t ≤ m ∧ ∀ i, m < i + t → i ≤ m → ¬ Significant tol w i

/-- `k` is the first of the validations `0, …, m` with the smallest loss. -/
def FirstLeast (w : ℕ → ℝ) (m k : ℕ) : Prop :=
  k ≤ m ∧ (∀ i ≤ m, w k ≤ w i) ∧ ∀ i < k, w k < w i

/-- Training stops at epoch `e`: it is a validated epoch (`freq` divides it) and the
last `trigger` validations brought no significant improvement. -/
def StopsAt {σ : Type} (ec : EarlyCfg σ) (w : ℕ → ℝ) (e : ℕ) : Prop :=
  e % ec.freq = 0 ∧ Stalled ec.tol w (e / ec.freq) ec.trigger

end

end Hooke
