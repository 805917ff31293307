import Verif.Model.Lou

/-!
# Specification: moving one unknown of the return mapping
-/

noncomputable section

namespace Hooke.Spec

/-- Value of an unknown of the return mapping: a component of the elastic strain (shear components times √2),
the accumulated plastic strain or the plastic multiplier. -/
def unknown (x : LouPoint) : LouIx → ℝ := Sum.elim (kel6 x.e) ![x.acc, x.inc]

/-- The symmetric tensor of unit norm with only one independent component. -/
def unitTensor (k : Fin 6) : T2 3 := unkel6 (Pi.single k 1)

/-- The state with the unknown `i` moved by `t`. -/
def movedUnknown (x : LouPoint) : LouIx → ℝ → LouPoint
  | .inl k, t => { x with e := fun p q => x.e p q + t * unitTensor k p q }
  | .inr 0, t => { x with acc := x.acc + t }
  | .inr 1, t => { x with inc := x.inc + t }

/-- One millionth of a value, of at least one millionth of a millionth. -/
def stepSize (v : ℝ) : ℝ := max (|v| / 10 ^ 6) (1 / 10 ^ 12)

end Hooke.Spec
