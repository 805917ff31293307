import Verif.Model.LoadIncrements
import Verif.Spec.LinksFile
import Mathlib.Algebra.Polynomial.Degree.Definitions
import Mathlib.Algebra.Polynomial.Eval.Defs

/-!
# Specification of the loading incrementation
-/

noncomputable section

namespace Hooke.Spec

/-- Total load factor after `k` increments. -/
def totalFactor (fs : List ℝ) (k : ℕ) : ℝ := (fs.take k).sum

/-- The total load factors after 0, 1, ... increments. -/
def loadTotals (fs : List ℝ) : List ℝ := (List.range (fs.length + 1)).map (totalFactor fs)

/-- Number of reversals of a loading. -/
def reversals (loading : String) (nReverse : ℕ) : ℕ :=
  if loading = "proportional" then 0 else nReverse

/-- Between reversals the load factor changes by this number: from one to zero, or from one to minus
one. -/
def loadSpan (loading : String) : ℕ := if loading = "cyclic_sym" then 2 else 1

/-- Number of branches of length one. -/
def unitBranches (loading : String) (nReverse : ℕ) : ℕ :=
  loadSpan loading * reversals loading nReverse + 1

/-- The branch of increment `k`: the first has `m` increments, the others `span * m`. -/
def branchOf (span m k : ℕ) : ℕ := if k < m then 0 else (k - m) / (span * m) + 1

/-- Increment `k` of a cyclic loading: the load increases on even branches and decreases on odd ones,
and rests when the reversals are done. -/
def cyclicIncrement (span r m k : ℕ) : ℝ :=
  if branchOf span m k ≤ r then (-1) ^ branchOf span m k / m else 0

/-- The total load factor at the end of branch `j`. -/
def turningPoint (loading : String) (j : ℕ) : ℝ :=
  if Even j then 1 else if loading = "cyclic_sym" then -1 else 0

/-- The polynomial of lowest degree through the control points, which are equally spaced in time; the
first one is zero. -/
def LoadPolynomial (d : LoadDraws) (P : Polynomial ℝ) : Prop :=
  P.degree < d.nControl ∧ P.eval 0 = 0 ∧
    ∀ i, 0 < i → i < d.nControl → P.eval ((i : ℝ) / ((d.nControl : ℝ) - 1)) = d.tfact i

/-- The largest absolute value of the polynomial at the times of the increments. -/
def IsLargestLoad (nInc : ℕ) (P : Polynomial ℝ) (M : ℝ) : Prop :=
  (∃ k ≤ nInc, |P.eval ((k : ℝ) / nInc)| = M) ∧ ∀ k ≤ nInc, |P.eval ((k : ℝ) / nInc)| ≤ M

/-- The word "increments" does not occur, in upper or lower case. -/
def IncrementFree (s : Text) : Prop :=
  ¬ ∃ a w b, s = a ++ w ++ b ∧ w.map Char.toLower = "increments".toList

end Hooke.Spec
