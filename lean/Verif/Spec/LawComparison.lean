import Verif.Model.LawComparison

/-!
# What a comparison of hardening laws should show
-/

noncomputable section

namespace Hooke.Spec

/-- The law has a value at every accumulated plastic strain from 0 to 1. -/
def LawDefined (l : NamedLaw) : Prop := ∀ x, 0 ≤ x → x ≤ 1 → ∃ r, l.2 x = .ok r

/-- The curve is the yield stress of the law at `n` equally spaced strains from 0 to 1. -/
def ShowsYield (n : ℕ) (l : NamedLaw) (curve : List (Option ℝ × Option ℝ)) : Prop :=
  curve.length = n ∧ ∀ j < n, ∃ x y s : ℝ, curve[j]? = some (some x, some y) ∧ x * ((n : ℝ) - 1) = j ∧
    l.2 x = .ok (y, s)

end Hooke.Spec
