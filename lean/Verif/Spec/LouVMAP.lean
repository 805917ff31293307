import Verif.Spec.Lou

/-! # Specification: batched Lou-Zhang-Yoon model -/

noncomputable section

namespace Hooke.Spec

/-- The yield parameters do not harden: their slopes are zero. -/
def FixedYield (m : LouParams) : Prop :=
  ∀ x, (m.a x).2 = 0 ∧ (m.b x).2 = 0 ∧ (m.c x).2 = 0 ∧ (m.d x).2 = 0

/-- The parameters of the apex are above the lower bounds of the batched model. -/
def ApexBounds (m : LouParams) : Prop :=
  1e-6 ≤ 3 * (m.a 0).1 * (m.b 0).1 ∧ ∀ x, 1e-6 ≤ (m.b x).1

end Hooke.Spec
