import Verif.Model.Noise

/-!
# Specification of the noise of paths
-/

noncomputable section

namespace Hooke.Spec

/-- A path has `T` times and `F` features. -/
def HasShape (T F : ℕ) (p : List (List ℝ)) : Prop := p.length = T ∧ ∀ r ∈ p, r.length = F

/-- The value of a feature at a time. -/
def valueAt (p : List (List ℝ)) (t c : ℕ) : ℝ := (p.getD t []).getD c 0

/-- The uniform numbers are in the unit interval. -/
def UnitDraws (d : NoiseDraws) : Prop :=
  ∀ t c, 0 ≤ d.unit t c ∧ d.unit t c < 1 ∧ 0 ≤ d.unit' t c ∧ d.unit' t c < 1

/-- The two kinds of variability; weights, if any, are given for all times. -/
def Variability (variability : String) (weights : Option (List ℝ)) (T : ℕ) : Prop :=
  variability = "homoscedastic" ∨
    variability = "heteroscedastic" ∧ ∀ ws, weights = some ws → T ≤ ws.length

/-- The weight of the second part of the noise, which homoscedastic noise does not have. -/
def weightAt (variability : String) (weights : Option (List ℝ)) (t : ℕ) : ℝ :=
  if variability = "homoscedastic" then 0
  else match weights with
    | none => 1
    | some ws => ws.getD t 0

end Hooke.Spec
