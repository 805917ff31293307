import Verif.Model.DatasetFeatures
import Mathlib.Algebra.BigOperators.Group.List.Basic

/-!
# Specification vocabulary for the features of a data set
-/

namespace Hooke

/-- Row `i` of a tensor (empty outside). -/
def FTensor.row (t : FTensor) (i : ℕ) : List ℝ := t.rows.getD i []

/-- All rows have `cols` entries. -/
def FTensor.Rect (t : FTensor) : Prop := ∀ r ∈ t.rows, r.length = t.cols

/-- Entry `(i, j)` (zero outside). -/
noncomputable def FTensor.entry (t : FTensor) (i j : ℕ) : ℝ := (t.row i).getD j 0

/-- `t` is the concatenation of `ts` along the columns, all with `n` rows. -/
def IsConcat (t : FTensor) (ts : List FTensor) (n : ℕ) : Prop :=
  t.rows.length = n ∧ t.cols = (ts.map FTensor.cols).sum ∧
    ∀ i < n, t.row i = (ts.map fun u => u.row i).flatten

/-- `t` is the weighted sum of tensors with `n` rows and `m` columns. -/
def IsWeightedSum (t : FTensor) (ws : List (ℝ × FTensor)) (n m : ℕ) : Prop :=
  t.rows.length = n ∧ t.cols = m ∧ (∀ i < n, (t.row i).length = m) ∧
    ∀ i < n, ∀ j < m, t.entry i j = (ws.map fun p => p.1 * p.2.entry i j).sum

end Hooke
