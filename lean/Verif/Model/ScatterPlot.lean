import Verif.Model.NoiseConvergence

/-!
# Scatter plots with a coefficient of determination

`scatter_xy_data` of `ioput/plots.py:1027-1398`.  What is plotted is modelled: the points with their labels,
the coefficient of determination, the error bars and the band of relative errors.  Its number is not
formatted here, and the drawing, the marginal distributions and the regression lines are not modelled.
-/

noncomputable section

open Classical

namespace Hooke

/-- The number of data sets (ioput/plots.py:1107-1112). -/
def scatterCount (nCol : ℕ) : Py ℕ := do
  raiseIf (nCol % 2 ≠ 0) .runtimeError
  return nCol / 2

/-- The labels of the data sets (ioput/plots.py:1115-1120). -/
def scatterLabels (n : ℕ) : Option (List String) → Py (List (Option String))
  | some l => do
    raiseIf (l.length ≠ n) .runtimeError
    return l.map some
  | none => .ok (List.replicate n none)

/-- A data set of a plot: its label and points. -/
structure ScatterSet where
  label : Option String
  points : List (ℝ × ℝ)

/-- The scattered data sets for an array of rows with `nCol` columns (ioput/plots.py:1107-1120, 1248-1255). -/
def scatterSets (nCol : ℕ) (labels : Option (List String)) (data : List (List ℝ)) : Py (List ScatterSet) := do
  let n ← scatterCount nCol
  let ls ← scatterLabels n labels
  (List.range n).mapM fun i => do
    let pts ← data.mapM fun row => do
      let x ← orRaise row[2 * i]? .indexError
      let y ← orRaise row[2 * i + 1]? .indexError
      return (x, y)
    let l ← orRaise ls[i]? .indexError
    return ⟨l, pts⟩

/-- `np.sum((ref_data - pred_data)**2)` (ioput/plots.py:1288). -/
def sumSqRes (pts : List (ℝ × ℝ)) : ℝ := (pts.map fun q => (q.1 - q.2) ^ 2).sum

/-- `np.sum((ref_data - data_mean)**2)` (ioput/plots.py:1286-1290). -/
def sumSqTot (pts : List (ℝ × ℝ)) : ℝ :=
  (pts.map fun q => (q.1 - sampleMean (pts.map Prod.fst)) ^ 2).sum

/-- The coefficient of determination (ioput/plots.py:1283-1296); `none` is not a number, the value of
`0.0/0.0`. -/
def r2Value (pts : List (ℝ × ℝ)) : Option ℝ :=
  let ssres := sumSqRes pts
  let sstot := if sumSqTot pts < 1 / 10 ^ 8 * ssres then 1 else sumSqTot pts
  if sstot = 0 then none else some (1 - ssres / sstot)

/-- The coefficient in a plot: it is shown for a single data set (ioput/plots.py:1281-1304). -/
def scatterR2 (isR2 : Bool) (sets : List ScatterSet) : Option (Option ℝ) :=
  match sets with
  | [s] => if isR2 then some (r2Value s.points) else none
  | _ => none

/-- A point with its error bar. -/
structure ScatterBar where
  x : ℝ
  mean : ℝ
  err : Option (ℝ × ℝ)

/-- The points with error bars (ioput/plots.py:1107-1120, 1215-1247): the columns `1::2` of a row. -/
def scatterBars (nCol : ℕ) (labels : Option (List String)) (range : String) (data : List (List ℝ)) :
    Py (List ScatterBar) := do
  let n ← scatterCount nCol
  let _ ← scatterLabels n labels
  data.mapM fun row => do
    let x ← orRaise row[0]? .indexError
    let l ← (List.range n).mapM fun i => orRaise row[2 * i + 1]? .indexError
    let err ← barErr range l
    return ⟨x, sampleMean l, err⟩

/-- The two edges of the band of relative errors at an abscissa (ioput/plots.py:1273-1278). -/
def identityBand (e x : ℝ) : ℝ × ℝ := ((1 + e) * x, (1 - e) * x)

end Hooke
