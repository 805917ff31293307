import Verif.Model.ConvergenceData
import Verif.Model.StrainPath

/-!
# Model of the convergence plots for several noise cases

`user_scripts/convergence_analyses/plot_noisy_convergence_analysis.py`.  The losses of the realizations of
the models are collected as in `plot_prediction_loss_convergence_uq` of the convergence plots (lines 139-240
are the same, `lossConvergenceUq`); here they are arranged by noise case and plotted with error bars.  What is
plotted is modelled, the plots are not.
-/

noncomputable section

namespace Hooke

/-- `np.split(rows, n, axis=0)` (plot_noisy_convergence_analysis.py:243): `n` blocks of the same length. -/
def npSplitRows {α : Type} (n : ℕ) (rows : List α) : Py (List (List α)) := do
  raiseIf (n = 0) .zeroDivision
  raiseIf (rows.length % n ≠ 0) .valueError
  let m := rows.length / n
  return (List.range n).map fun k => (rows.drop (k * m)).take m

/-- `np.hstack` of blocks with the same number of rows (plot_noisy_convergence_analysis.py:243). -/
def npHstack {α : Type} (blocks : List (List (List α))) : Py (List (List α)) := do
  let b ← orRaise blocks.head? .valueError
  (List.range b.length).mapM fun r => do
    let parts ← blocks.mapM fun b => orRaise b[r]? .valueError
    return parts.flatten

/-- `np.mean` along the realizations (plot_noisy_convergence_analysis.py:449). -/
def sampleMean (l : List ℝ) : ℝ := l.sum / l.length

/-- `np.std` along the realizations (plot_noisy_convergence_analysis.py:462-464). -/
def sampleStd (l : List ℝ) : ℝ := √((l.map fun x => (x - sampleMean l) ^ 2).sum / l.length)

/-- A point with its error bar: abscissa, mean and distances below and above. -/
structure BarPoint where
  x : ℕ
  mean : ℝ
  err : Option (ℝ × ℝ)

/-- The error bars (plot_noisy_convergence_analysis.py:452-470). -/
def barErr (range : String) (l : List ℝ) : Py (Option (ℝ × ℝ)) :=
  if range = "min-max" then do
    let mn ← npMin l
    let mx ← npMax l
    return some (|sampleMean l - mn|, |sampleMean l - mx|)
  else if range = "mean-std" then
    .ok (some (1.96 * sampleStd l, 1.96 * sampleStd l))
  else .ok none

/-- A curve: its label and points. -/
structure NoiseCurve where
  label : String
  points : List BarPoint

/-- `scatter_xy_data_noise_cases` with error bars (plot_noisy_convergence_analysis.py:273-491): a row has the
columns of size and loss of `n * K` data sets; the abscissae are those of column 0 (437). -/
def noiseCurves (n K : ℕ) (labels : List String) (range : String) (data : List (List (ℕ × ℝ))) :
    Py (List NoiseCurve) := do
  raiseIf (labels.length ≠ n) .runtimeError
  let xs ← data.mapM fun row => do
    let p ← orRaise row.head? .indexError
    return p.1
  (List.range n).mapM fun i => do
    let pts ← (xs.zip data).mapM fun q => do
      let l := ((q.2.drop (K * i)).take K).map fun p => p.2
      let err ← barErr range l
      return (⟨q.1, sampleMean l, err⟩ : BarPoint)
    let label ← orRaise labels[i]? .indexError
    return ⟨label, pts⟩

/-- The noise cases of the collected rows (plot_noisy_convergence_analysis.py:243-260). -/
def noiseFigure (n : ℕ) (labels : List String) (rows : List (List (ℕ × ℝ))) : Py (List NoiseCurve) := do
  let last ← orRaise rows.getLast? .unboundLocal
  let blocks ← npSplitRows n rows
  let data ← npHstack blocks
  noiseCurves n last.length labels "min-max" data

/-- `plot_prediction_loss_convergence_uq` (plot_noisy_convergence_analysis.py:97-271): the curves. -/
def noiseConvergence (n : ℕ) (labels : List String) (train : List (Option (KDict Text ℕ)))
    (types : List Text) (models : List (Option (List (Text × Realization)))) : Py (List NoiseCurve) := do
  let rows ← lossConvergenceUq train types models
  noiseFigure n labels rows

end Hooke
