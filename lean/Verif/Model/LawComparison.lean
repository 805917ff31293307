import Verif.Model.Dataset
import Mathlib.Data.Real.Basic

/-!
# Comparisons of hardening laws

`compare_hardening_laws` of `miscellaneous/materials/compare_hardening_laws.py:38-112`.  A hardening law with its
parameters is a function of the accumulated plastic strain that gives the yield stress and the hardening slope,
or raises.  The table that is printed and the formats of the plot are not modelled.
-/

noncomputable section

namespace Hooke

/-- A name of the dictionary of laws with its law. -/
abbrev NamedLaw := String × (ℝ → Py (ℝ × ℝ))

/-- `torch.linspace(0.0, 1.0, n)` (compare_hardening_laws.py:57-63). -/
def lawStrains (n : ℕ) : List ℝ := (List.range n).map fun (k : ℕ) => (k : ℝ) / ((n : ℝ) - 1)

/-- A row of `comparison_data` (compare_hardening_laws.py:71-85): for each law the strain, the yield stress and
the slope.  In the code the table is filled law by law, which shows only in which of several exceptions is
raised first. -/
def lawRow (laws : List NamedLaw) (x : ℝ) : Py (List ℝ) := do
  let cells ← laws.mapM fun l => do
    let r ← l.2 x
    return [x, r.1, r.2]
  return cells.flatten

/-- The columns that are plotted, `np.arange(n)[np.arange(n) % 3 != 2]` (compare_hardening_laws.py:95-97). -/
def selectCols (row : List ℝ) : List ℝ :=
  ((List.range row.length).filter fun k => k % 3 != 2).filterMap fun k => row[k]?

/-- The curves drawn by `plot_xy_data` (plots.py:203-226): the columns `2*i` and `2*i + 1` with the label `i`. -/
def xyCurves (labels : List String) (rows : List (List ℝ)) : List (String × List (Option ℝ × Option ℝ)) :=
  labels.mapIdx fun i l => (l, rows.map fun r => (r[2 * i]?, r[2 * i + 1]?))

/-- What is displayed and what is saved. -/
structure LawFigures where
  displayed : Option (List (String × List (Option ℝ × Option ℝ)))
  saved : Option (List (String × List (Option ℝ × Option ℝ)))

/-- `compare_hardening_laws` (compare_hardening_laws.py:57-112) with `n` points.  The figure is a local variable
that has a value only if it was displayed (91-99). -/
def compareLawsAt (n : ℕ) (laws : List NamedLaw) (isSave isDisplay : Bool) : Py LawFigures := do
  let rows ← (lawStrains n).mapM fun x => lawRow laws x
  let figure := if isDisplay then some (xyCurves (laws.map Prod.fst) (rows.map selectCols)) else none
  if isSave then do
    let f ← orRaise figure .unboundLocal
    return ⟨figure, some f⟩
  else return ⟨figure, none⟩

/-- `compare_hardening_laws` with its 10000 points (compare_hardening_laws.py:60). -/
def compareLaws (laws : List NamedLaw) (isSave isDisplay : Bool) : Py LawFigures :=
  compareLawsAt 10000 laws isSave isDisplay

end Hooke
