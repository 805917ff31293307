import Verif.Model.PyUtil
import Verif.Model.Py
import Mathlib.Data.List.Sort
import Mathlib.Data.List.Infix
import Mathlib.Analysis.SpecialFunctions.Log.Basic

/-!
# Plots of optimization histories

`plot_optimization_history` of
`model_architectures/rnn_base_model/optimization/hydra_optimization_plots.py:36-261`.  A job is its number
with the lines of its summary file (`none` without a file); a line is its text with the number in its last
word (`none` if this is not a number).  Directories that are not named by a number are left out before.
-/

noncomputable section

open Classical

namespace Hooke

/-- The lines of a summary. -/
abbrev JobLines := List (List Char × Option ℝ)

/-- The metric of a job (hydra_optimization_plots.py:155-166): the first line with the name in it. -/
def jobMetric (name : List Char) (lines : JobLines) : Py ℝ := do
  let l ← orRaise (lines.find? fun l => decide (name <:+: l.1)) .runtimeError
  orRaise l.2 .valueError

/-- The metrics of sorted jobs, from the job number `k` (hydra_optimization_plots.py:127-169). -/
def jobMetrics (name : List Char) : ℕ → List (ℕ × Option JobLines) → Py (List ℝ)
  | _, [] => .ok []
  | k, (id, file) :: rest => do
    raiseIf (id ≠ k) .runtimeError
    let lines ← orRaise file .runtimeError
    let v ← jobMetric name lines
    let vs ← jobMetrics name (k + 1) rest
    return v :: vs

/-- The metrics of an optimization process (hydra_optimization_plots.py:111-169), whose directories are
listed in any order. -/
def processMetrics (name : List Char) (dirs : List (ℕ × Option JobLines)) : Py (List ℝ) := do
  raiseIf (dirs = []) .runtimeError
  jobMetrics name 0 (dirs.insertionSort fun a b => a.1 ≤ b.1)

/-- The lowest metrics of the jobs so far (hydra_optimization_plots.py:232-236). -/
def bestFrom : ℝ → List ℝ → List ℝ
  | _, [] => []
  | b, x :: xs => (if x < b then x else b) :: bestFrom (if x < b then x else b) xs

/-- `data_xy[:n_jobs, 2*i + 1] = tuple(metric_hist)` (hydra_optimization_plots.py:200-206): a single number
is repeated. -/
def assignMetrics (n : ℕ) (vs : List ℝ) : Py (List ℝ) :=
  match vs with
  | [v] => .ok (List.replicate n v)
  | vs => do
    raiseIf (vs.length ≠ n) .valueError
    return vs

/-- What is plotted: the points of every process, and the line of the best metrics so far. -/
structure OptimPlot where
  points : List (String × List (ℕ × ℝ))
  best : List ℝ

/-- The plot (hydra_optimization_plots.py:101-239): the numbers of jobs are those of the processes, the
metrics those of the last one (`metric_hist`, lines 204 and 206).  The best metrics are those of the first
process; `None` in its column cannot be compared.  The logarithm is that of a positive number. -/
def optimizationPlot (isLog : Bool) (name : List Char)
    (procs : List (String × List (ℕ × Option JobLines))) : Py OptimPlot := do
  let hist ← procs.mapM fun p => processMetrics name p.2
  let last ← orRaise hist.getLast? .indexError
  let shown := if isLog then last.map Real.log else last
  let cols ← hist.mapM fun h => assignMetrics h.length shown
  let first ← orRaise cols.head? .indexError
  raiseIf (∃ c ∈ cols, first.length < c.length) .typeError
  let b ← orRaise first.head? .indexError
  return ⟨(procs.map Prod.fst).zip (cols.map fun c => (List.range c.length).zip c), bestFrom b first⟩

end Hooke
