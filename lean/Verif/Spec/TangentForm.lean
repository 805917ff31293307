import Mathlib.Algebra.BigOperators.Fin
import Mathlib.Data.Real.Basic

/-! # Specification: symmetric and positive definite matrices -/

noncomputable section

namespace Hooke.Spec

/-- Symmetric square matrix. -/
def SymMatrix {n : ℕ} (T : Fin n → Fin n → ℝ) : Prop := ∀ i j, T i j = T j i

/-- The quadratic form `x · T x`: twice the second-order work density of a strain `x`. -/
def work2 {n : ℕ} (T : Fin n → Fin n → ℝ) (x : Fin n → ℝ) : ℝ := ∑ i, ∑ j, x i * T i j * x j

/-- No strain has a negative second-order work. -/
def PosSemidef {n : ℕ} (T : Fin n → Fin n → ℝ) : Prop := ∀ x, 0 ≤ work2 T x

/-- Every non-zero strain has a positive second-order work. -/
def PosDefinite {n : ℕ} (T : Fin n → Fin n → ℝ) : Prop := ∀ x, x ≠ 0 → 0 < work2 T x

end Hooke.Spec
