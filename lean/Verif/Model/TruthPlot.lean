import Verif.Model.ScatterPlot

/-!
# Plots of predictions against references

`plot_truth_vs_prediction` of `model_architectures/procedures/model_prediction.py:340-456`.  A prediction
process is a label with pairs of a reference and a prediction; its array is filled up with empty entries,
which are not plotted.
-/

noncomputable section

open Classical

namespace Hooke

/-- The numbers of an array with two columns, for `val.min()` and `val.max()`. -/
def pairValues (pts : List (ℝ × ℝ)) : List ℝ := pts.flatMap fun q => [q.1, q.2]

/-- `(val - val.min())/(val.max() - val.min())` (model_prediction.py:408-409); `none` is an array of values
that are not a number. -/
def normalizePairs (pts : List (ℝ × ℝ)) : Py (Option (List (ℝ × ℝ))) := do
  let mn ← npMin (pairValues pts)
  let mx ← npMax (pairValues pts)
  return if mx - mn = 0 then none
    else some (pts.map fun q => ((q.1 - mn) / (mx - mn), (q.2 - mn) / (mx - mn)))

/-- The labelled data sets that are plotted (model_prediction.py:397-414): the maximum of the numbers of
points requires a process. -/
def truthSets (isNormalize : Bool) (sets : List (String × List (ℝ × ℝ))) :
    Py (List (String × Option (List (ℝ × ℝ)))) := do
  raiseIf (sets = []) .valueError
  sets.mapM fun s => do
    let v ← if isNormalize then normalizePairs s.2 else .ok (some s.2)
    return (s.1, v)

/-- The coefficient of determination of the plot (ioput/plots.py:1281-1304).  The array of all the processes
is one of Python objects (model_prediction.py:397), so that a division by zero raises, unless the numbers are
not a number. -/
def truthR2 (isR2 : Bool) : List (String × Option (List (ℝ × ℝ))) → Py (Option (Option ℝ))
  | [s] => if isR2 then
      match s.2 with
      | none => .ok (some none)
      | some pts => do
        let r ← orRaise (r2Value pts) .zeroDivision
        return some (some r)
    else .ok none
  | _ => .ok none

end Hooke
