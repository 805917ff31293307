import Verif.Model.StrainPath

/-!
# Plots of state variable histories

The class method `plot_state_history` of
`user_scripts/synthetic_data/gen_response_dataset.py:1593-1720`.  Times and states are given as lists, one entry
per path; a single path given as arrays is the list of that path (1658-1668).  Labels, units, the bins of the
histogram and the files are not modelled.
-/

noncomputable section

namespace Hooke

/-- A state path: an array with `cols` features, flattened (`state_path[k].reshape(-1)`,
gen_response_dataset.py:1674, 1684). -/
structure StateArray where
  cols : ℕ
  vals : List ℝ

/-- What is plotted (gen_response_dataset.py:1687-1705): the curves of the paths, the limits of the times and the
data of the histogram. -/
structure StatePlot where
  curves : List (List (ℝ × ℝ))
  limits : ℝ × ℝ
  histogram : List ℝ

/-- The curve of a path (gen_response_dataset.py:1681-1684).  numpy's assignment to a slice accepts as many values
as times, or a single value, which it repeats. -/
def stateCurve (t : List ℝ) (s : StateArray) : Py (List (ℝ × ℝ)) :=
  if s.vals.length = t.length then .ok (t.zip s.vals)
  else match s.vals with
    | [v] => .ok (t.map fun x => (x, v))
    | _ => .error .valueError

/-- `plot_state_history` (gen_response_dataset.py:1640-1713).  The paths are stacked for the histogram, which
needs the same number of features in all of them (1699). -/
def statePlot (times : List (List ℝ)) (states : List StateArray) : Py StatePlot := do
  raiseIf (times.length != states.length) .runtimeError
  let firsts ← times.mapM fun t => orRaise t.head? .indexError
  let tmin ← npMin firsts
  let lasts ← times.mapM fun t => orRaise t.getLast? .indexError
  let tmax ← npMax lasts
  let s0 ← orRaise states.head? .indexError
  raiseIf (s0.cols != 1) .runtimeError
  let curves ← (times.zip states).mapM fun p => stateCurve p.1 p.2
  raiseIf (!(states.all fun s => s.cols == 1)) .valueError
  return ⟨curves, (tmin, tmax), states.flatMap fun s => s.vals⟩

end Hooke
