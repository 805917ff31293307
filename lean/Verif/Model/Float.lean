import Mathlib.Analysis.Real.Sqrt
import Mathlib.Data.List.OfFn
import Mathlib.Logic.Equiv.Fin.Basic
import Verif.Model.PyUtil

/-!
# Floating point values with infinities and NaN

`Fl` models the values of a `torch.Tensor` of floating point dtype where the code can produce
non-finite values: finite values are real numbers (no rounding), the two infinities and NaN follow
IEEE 754.  Signed zeros are not modelled: dividing a nonzero number by zero gives the infinity with
the sign of the numerator.
-/

namespace Hooke

noncomputable section

/-- A floating point value. -/
inductive Fl
  | fin (x : ℝ)
  | inf (neg : Bool)
  | nan

namespace Fl

/-- `-a`. -/
def neg : Fl → Fl
  | fin x => fin (-x)
  | inf s => inf !s
  | nan => nan

/-- `a + b`. -/
def add : Fl → Fl → Fl
  | fin x, fin y => fin (x + y)
  | fin _, inf s => inf s
  | inf s, fin _ => inf s
  | inf s, inf t => if s = t then inf s else nan
  | nan, _ => nan
  | _, nan => nan

/-- `a - b`. -/
def sub (a b : Fl) : Fl := add a (neg b)

/-- Infinity of sign `s` times (or divided by) a number `x`, `x ≠ 0`. -/
def infTimes (s : Bool) (x : ℝ) : Fl := inf (xor s (decide (x < 0)))

/-- `a * b`. -/
def mul : Fl → Fl → Fl
  | fin x, fin y => fin (x * y)
  | fin x, inf s => if x = 0 then nan else infTimes s x
  | inf s, fin x => if x = 0 then nan else infTimes s x
  | inf s, inf t => inf (xor s t)
  | nan, _ => nan
  | _, nan => nan

/-- `a / b`. -/
def div : Fl → Fl → Fl
  | fin x, fin y => if y = 0 then (if x = 0 then nan else inf (decide (x < 0))) else fin (x / y)
  | fin _, inf _ => fin 0
  | inf s, fin x => if x = 0 then inf s else infTimes s x
  | inf _, inf _ => nan
  | nan, _ => nan
  | _, nan => nan

/-- `abs(a)`. -/
def abs : Fl → Fl
  | fin x => fin |x|
  | inf _ => inf false
  | nan => nan

/-- `sqrt(a)`. -/
def sqrt : Fl → Fl
  | fin x => if x < 0 then nan else fin (√x)
  | inf s => if s then nan else inf false
  | nan => nan

/-- `a < b` (false when one of them is NaN). -/
def lt : Fl → Fl → Prop
  | fin x, fin y => x < y
  | fin _, inf s => s = false
  | inf s, fin _ => s = true
  | inf s, inf t => s = true ∧ t = false
  | nan, _ => False
  | _, nan => False

open Classical in
/-- `torch.minimum(a, b)` and the step of `torch.min` (NaN propagates). -/
def min (a b : Fl) : Fl :=
  match a, b with
  | nan, _ => nan
  | _, nan => nan
  | a, b => if lt b a then b else a

open Classical in
/-- `torch.maximum(a, b)` and the step of `torch.max` (NaN propagates). -/
def max (a b : Fl) : Fl :=
  match a, b with
  | nan, _ => nan
  | _, nan => nan
  | a, b => if lt a b then b else a

/-- `torch.sum` of a list of values. -/
def sum (l : List Fl) : Fl := l.foldl add (fin 0)

/-- `torch.mean` of a list of values (NaN for an empty list). -/
def mean (l : List Fl) : Fl := div (sum l) (fin l.length)

/-- `torch.isnan`. -/
def IsNan (a : Fl) : Prop := a = nan

end Fl

end

/-- A features tensor with `n` features: two dimensions `(n_samples, n_features)` or three
dimensions `(sequence_length, n_samples, n_features)`. -/
inductive FT (α : Type) (n : ℕ)
  | d2 (m : ℕ) (x : Fin m → Fin n → α)
  | d3 (l m : ℕ) (x : Fin l → Fin m → Fin n → α)

namespace FT

variable {α β : Type} {n : ℕ}

/-- Entry-wise map, which may depend on the feature. -/
def mapF (f : Fin n → α → β) : FT α n → FT β n
  | d2 m x => d2 m fun i j => f j (x i j)
  | d3 l m x => d3 l m fun t i j => f j (x t i j)

/-- `torch.reshape(tensor, (-1, n_features))` of a three-dimensional tensor (row-major). -/
def flat {l m : ℕ} (x : Fin l → Fin m → Fin n → α) : Fin (l * m) → Fin n → α :=
  fun r => x (finProdFinEquiv.symm r).1 (finProdFinEquiv.symm r).2

/-- `torch.reshape(tensor, input_shape)` back to three dimensions (row-major). -/
def unflat {l m : ℕ} (x : Fin (l * m) → Fin n → α) : Fin l → Fin m → Fin n → α :=
  fun t i => x (finProdFinEquiv (t, i))

end FT

/-- Any tensor passed to a data scaler: its last dimension need not match and the number of
dimensions may be wrong. -/
inductive AnyTensor (α : Type)
  | feat (n : ℕ) (t : FT α n)
  | otherDim
  | notTensor

end Hooke
