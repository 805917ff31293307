import Mathlib.LinearAlgebra.Matrix.Trace
import Mathlib.LinearAlgebra.Matrix.Notation
import Mathlib.Data.Real.Basic

/-! # Components of a tensor in a given order -/

namespace Hooke.Spec

/-- The labels `'11'`, `'12'`, ... of a list of index pairs. -/
def digits {n : ℕ} (o : List (Fin n × Fin n)) : List (ℕ × ℕ) := o.map fun x => ((x.1 : ℕ) + 1, (x.2 : ℕ) + 1)

/-- The components of `T` in the order `o`. -/
def compsOf {n : ℕ} (o : List (Fin n × Fin n)) (T : Matrix (Fin n) (Fin n) ℝ) : List ℝ :=
  o.map fun x => T x.1 x.2

/-- The order `o` determines `T`: each component of `T` is listed, or its transposed component is and
equals it. -/
def Determines {n : ℕ} (o : List (Fin n × Fin n)) (T : Matrix (Fin n) (Fin n) ℝ) : Prop :=
  ∀ i j, (i, j) ∈ o ∨ ((j, i) ∈ o ∧ T i j = T j i)

/-- Deviatoric part. -/
noncomputable def deviatoricPart (T : Matrix (Fin 3) (Fin 3) ℝ) : Matrix (Fin 3) (Fin 3) ℝ :=
  T - (T.trace / 3) • 1

/-- Second principal invariant: the sum of the principal minors of size two. -/
def secondInvariant (T : Matrix (Fin 3) (Fin 3) ℝ) : ℝ :=
  (T 0 0 * T 1 1 - T 0 1 * T 1 0) + (T 0 0 * T 2 2 - T 0 2 * T 2 0) + (T 1 1 * T 2 2 - T 1 2 * T 2 1)

end Hooke.Spec
