import Verif.Spec.Lou
import Mathlib.Analysis.Convex.Basic

/-! # Specification: convexity of the yield surface in the space of principal stresses -/

noncomputable section

namespace Hooke.Spec

/-- Stress tensor with given principal stresses. -/
def principal (s : Fin 3 → ℝ) : T2 3 := fun i j => if i = j then s i else 0

/-- Principal stresses on and inside the yield surface for the yield parameters `c` and `d`
(`a = 1`, `b = 0`, unit yield stress). -/
def yieldDomain (c d : ℝ) : Set (Fin 3 → ℝ) :=
  {s | LzyDefined c d (principal s) ∧ lzyStress 1 0 c d (principal s) ≤ 1}

/-- The effective stress is defined and positive for all principal stresses which are not all
equal. -/
def YieldPositive (c d : ℝ) : Prop := ∀ s : Fin 3 → ℝ, ¬ (s 0 = s 1 ∧ s 1 = s 2) →
  LzyDefined c d (principal s) ∧ 0 < lzyStress 1 0 c d (principal s)

end Hooke.Spec
