import Mathlib.Data.Real.Basic
import Mathlib.Data.Fintype.Prod
import Mathlib.Algebra.BigOperators.Group.Finset.Basic

/-! # Equilibrium of nodal forces -/

noncomputable section

namespace Hooke.Spec

variable {N n : ℕ}

/-- Internal forces balance external forces, and reactions where a degree of freedom is flagged `1`. -/
def Equilibrium (Fi Fe R : Fin N → Fin n → ℝ) (bc : Fin N → Fin n → ℤ) : Prop :=
  ∀ i j, (bc i j = 1 → Fi i j = Fe i j + R i j) ∧ (bc i j ≠ 1 → Fi i j = Fe i j)

/-- Sum of `f` over the degrees of freedom with a label. -/
def labelSum (bc : Fin N → Fin n → ℤ) (l : ℤ) (f : Fin N → Fin n → ℝ) : ℝ :=
  ∑ d ∈ Finset.univ.filter (fun d : Fin N × Fin n => bc d.1 d.2 = l), f d.1 d.2

/-- The labels in use. -/
def labels (bc : Fin N → Fin n → ℤ) : Finset ℤ := Finset.univ.image fun d : Fin N × Fin n => bc d.1 d.2

/-- The loss that groups reactions by label, with label `free` for free degrees of freedom: squared
residuals of the free degrees of freedom plus, for each other label, the square of the total
residual. -/
def groupedLoss (free : ℤ) (Fi Fe R : Fin N → Fin n → ℝ) (bc : Fin N → Fin n → ℤ) : ℝ :=
  labelSum bc free (fun i j => (Fi i j - Fe i j) ^ 2) +
    ∑ l ∈ (labels bc).erase free, labelSum bc l (fun i j => Fi i j - Fe i j - R i j) ^ 2

end Hooke.Spec
