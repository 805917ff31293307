import Verif.Model.TruthPlot

/-!
# Plots of time series

`plot_time_series_prediction` of `model_architectures/procedures/model_prediction.py:183-338`.  A process is
a label with pairs of a time and a value; the array of all of them is filled up with `None`, which is not
plotted.
-/

noncomputable section

open Classical

namespace Hooke

/-- `np.linspace(0, 1.0, num=n)`. -/
def unitSteps (n : ℕ) : List ℝ := (List.range n).map fun (k : ℕ) => if n = 1 then 0 else (k : ℝ) / ((n : ℝ) - 1)

/-- The curves that are plotted (model_prediction.py:265-298).  The numbers of the array are Python objects:
`np.min` compares them with the `None` of a shorter process, and a division by zero raises.  The number of
times is the one of the last process (model_prediction.py:293), which is the one of all of them where this
line is reached. -/
def seriesCurves (isNormalize : Bool) (sets : List (String × List (ℝ × ℝ))) :
    Py (List (String × List (ℝ × ℝ))) := do
  raiseIf (sets = []) .valueError
  if isNormalize then do
    raiseIf (∃ s ∈ sets, ∃ s' ∈ sets, s.2.length ≠ s'.2.length) .typeError
    let mn ← npMin (sets.flatMap fun s => s.2.map Prod.snd)
    let mx ← npMax (sets.flatMap fun s => s.2.map Prod.snd)
    raiseIf (mx - mn = 0) .zeroDivision
    return sets.map fun s =>
      (s.1, (unitSteps s.2.length).zip (s.2.map fun q => (q.2 - mn) / (mx - mn)))
  else .ok sets

/-- The curves with an uncertainty (model_prediction.py:248-262): they are not normalized. -/
def seriesRanges (isNormalize : Bool) (sets : List (String × List (List ℝ))) :
    Py (List (String × List (List ℝ))) := do
  raiseIf (isNormalize = true) .runtimeError
  return sets

/-- The labels of the axes (model_prediction.py:309-311). -/
def seriesAxes (isNormalize : Bool) (x y : String) : String × String :=
  if isNormalize then (x ++ " (Normalized)", y ++ " (Normalized)") else (x, y)

end Hooke
