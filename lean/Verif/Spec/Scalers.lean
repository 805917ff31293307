import Mathlib.Algebra.BigOperators.Fin
import Verif.Model.Float

/-! # Specification vocabulary for data scalers -/

namespace Hooke

namespace FT

variable {α : Type} {n : ℕ}

/-- The value `v` occurs in feature `j` of the tensor. -/
def Has (t : FT α n) (j : Fin n) (v : α) : Prop :=
  match t with
  | d2 _ x => ∃ i, x i j = v
  | d3 _ _ x => ∃ k i, x k i j = v

/-- Number of values of each feature. -/
def count : FT α n → ℕ
  | d2 m _ => m
  | d3 l m _ => l * m

/-- Sum of `f v` over all values `v` of feature `j`. -/
def total (t : FT α n) (j : Fin n) (f : α → ℝ) : ℝ :=
  match t with
  | d2 _ x => ∑ i, f (x i j)
  | d3 _ _ x => ∑ k, ∑ i, f (x k i j)

/-- A tensor of real (finite) values seen as a floating point tensor. -/
def fl (t : FT ℝ n) : FT Fl n := t.mapF fun _ x => Fl.fin x

/-- Feature `j` takes at least two values. -/
def Varies (t : FT α n) (j : Fin n) : Prop := ∃ v w, t.Has j v ∧ t.Has j w ∧ v ≠ w

end FT

/-- A tensor of real values given to a scaler. -/
def FT.arg {n : ℕ} (t : FT ℝ n) : AnyTensor Fl := .feat n t.fl

end Hooke
