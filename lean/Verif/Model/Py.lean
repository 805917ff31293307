import Mathlib.Data.Real.Basic
import Mathlib.Data.List.Basic

/-!
# Python exceptions as values, dynamically shaped arrays

Shared vocabulary of the model.  A call that raises in Python is a value
`Except.error e`.  Floating point numbers are modelled by `ℝ`.
-/

namespace Hooke

/-- Kinds of Python exceptions raised by the modelled functions (explicit
`raise RuntimeError(...)` statements and the implicit ones of the interpreter). -/
inductive PyErr
  | runtimeError
  | valueError
  | indexError
  | keyError
  | typeError
  | attributeError
  | zeroDivision
  | unboundLocal
  | osError
  deriving DecidableEq, Repr

/-- Result of a Python call. -/
abbrev Py (α : Type*) := Except PyErr α

/-- A `torch.Tensor` of real numbers: its `shape` and its entries at index
tuples.  Entries outside the shape are irrelevant (never read by the code after
its shape checks). dtype, device and autograd are not modelled. -/
structure Tensor where
  shape : List ℕ
  val : List ℕ → ℝ

namespace Tensor

/-- `torch.zeros(shape)`. -/
def zeros (shape : List ℕ) : Tensor := ⟨shape, fun _ => 0⟩

/-- Item assignment `t[idx] = v`. -/
def set (t : Tensor) (idx : List ℕ) (v : ℝ) : Tensor :=
  ⟨t.shape, fun j => if j = idx then v else t.val j⟩

end Tensor

end Hooke
