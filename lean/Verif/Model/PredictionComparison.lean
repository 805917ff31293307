import Verif.Model.SeriesPlot
import Verif.Model.PyDict

/-!
# Comparisons of the stress predictions of models

`plot_models_stress_prediction` of `miscellaneous/file_processing/plot_prediction_files.py:34-102`.  The arrays of
stresses are lists of rows, one for each time.  The drawing is `seriesCurves` without normalization
(`Model/SeriesPlot`).
-/

noncomputable section

open Classical

namespace Hooke

/-- The series of a stress component, `np.stack((time_hist.reshape(-1), path[:, i]), axis=1)`
(plot_prediction_files.py:75-76, 85-86). -/
def compSeries (times : List ℝ) (path : List (List ℝ)) (i : ℕ) : Py (List (ℝ × ℝ)) := do
  let col ← path.mapM fun row => orRaise row[i]? .indexError
  raiseIf (col.length ≠ times.length) .valueError
  return times.zip col

/-- The prediction sets of a component (plot_prediction_files.py:73-88), put into the dictionary of the previous
component.  The series are computed before the first is put, which shows only in the dictionary left behind by an
exception. -/
def compSets (d : KDict String (List (ℝ × ℝ))) (times : List ℝ) (truth : Option (List (List ℝ)))
    (models : List (String × List (List ℝ))) (i : ℕ) : Py (KDict String (List (ℝ × ℝ))) := do
  let entries ← ((truth.toList.map fun r => ("Ground-truth", r)) ++ models).mapM fun m => do
    let s ← compSeries times m.2 i
    return (m.1, s)
  return entries.foldl (fun d kv => d.put kv.1 kv.2) d

/-- The figures of the components from number `i` on (plot_prediction_files.py:71-102): the name of the file and
the curves. -/
def stressFiguresFrom (name : String) (times : List ℝ) (truth : Option (List (List ℝ)))
    (models : List (String × List (List ℝ))) :
    KDict String (List (ℝ × ℝ)) → ℕ → List String → Py (List (String × List (String × List (ℝ × ℝ))))
  | _, _, [] => .ok []
  | d, i, c :: cs => do
    let d' ← compSets d times truth models i
    let curves ← seriesCurves false d'
    let rest ← stressFiguresFrom name times truth models d' (i + 1) cs
    return (name ++ "_stress_" ++ c, curves) :: rest

/-- `plot_models_stress_prediction` (plot_prediction_files.py:60-102); `truth` is the stress path of the response
if the ground truth is to be plotted. -/
def stressFigures (name : String) (times : List ℝ) (truth : Option (List (List ℝ)))
    (models : List (String × List (List ℝ))) (comps : List String) :
    Py (List (String × List (String × List (ℝ × ℝ)))) :=
  stressFiguresFrom name times truth models [] 0 comps

/-- The label of the curve drawn as the reference: the first of the sets, since `is_reference_data=True`
(plot_prediction_files.py:97-98). -/
def referenceLabel (curves : List (String × List (ℝ × ℝ))) : Option String := (curves.map Prod.fst).head?

end Hooke
