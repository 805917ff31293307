import Verif.Model.ConvergencePaths
import Verif.Model.NoiseConvergence

/-!
# Time series plots of models with uncertainties

`plot_time_series_convergence_uq` of `model_architectures/procedures/convergence_plots.py:799-972`, with the
curves and bands of `plot_xny_data` (`ioput/plots.py:586-640`).  The files are not modelled: what is read from
them is part of `UqModel`.
-/

noncomputable section

open Classical

namespace Hooke

/-- A model that has been trained several times: the sizes of its data sets, and its paths (time, reference,
predictions) for a type, a component and a sample (convergence_plots.py:852-865, 875-905). -/
structure UqModel where
  trainSize : ℕ
  testSize : ℕ
  path : String → ℕ → ℕ → List (ℝ × ℝ × List ℝ)

/-- A point of a curve: abscissa, mean, and the ends of the band. -/
structure BandPoint where
  x : ℝ
  mean : ℝ
  band : Option (ℝ × ℝ)

/-- The curve of a data array with its band (ioput/plots.py:598-640). -/
def bandCurve (range : String) (rows : List (ℝ × List ℝ)) : Py (List BandPoint) :=
  rows.mapM fun r => do
    let e ← barErr range r.2
    return ⟨r.1, sampleMean r.2, e.map fun e => (sampleMean r.2 - e.1, sampleMean r.2 + e.2)⟩

/-- The reference curve (ioput/plots.py:591-595). -/
def referenceCurve (rows : List (ℝ × List ℝ)) : Py (List (ℝ × ℝ)) :=
  rows.mapM fun r => do
    let y ← orRaise r.2[0]? .indexError
    return (r.1, y)

/-- A figure: the reference and the curves of the models. -/
structure BandFigure where
  comp : String
  sample : ℕ
  reference : String × List (ℝ × ℝ)
  curves : List (String × List BandPoint)

/-- The figure of a component and a sample (convergence_plots.py:928-965, ioput/plots.py:586-640). -/
def bandFigure (m0 : UqModel) (models : List UqModel) (type : String) (comp : String × ℕ) (s : ℕ) :
    Py BandFigure :=
  match fillDict (("Ground-Truth", (m0.path type comp.2 s).map fun q => (q.1, [q.2.1])) ::
    models.map fun m => (convergenceLabel m.trainSize, (m.path type comp.2 s).map fun q => (q.1, q.2.2))) with
  | [] => .error .indexError
  | r :: rest => do
    let ref ← referenceCurve r.2
    let curves ← rest.mapM fun d => do
      let pts ← bandCurve "min-max" d.2
      return (d.1, pts)
    return ⟨comp.1, s, (r.1, ref), curves⟩

/-- The paths for one prediction type (convergence_plots.py:870-965), with the samples for the next one. -/
def bandType (models : List UqModel) (st : SampleIds) (t : String × List String) :
    Py (List BandFigure × SampleIds) := do
  models.forM fun m => checkSamples m.testSize st
  raiseIf ((models.map UqModel.testSize).dedup.length ≠ 1) .runtimeError
  let m0 ← orRaise models.head? .indexError
  let figs ← (t.2.zipIdx.flatMap fun c => (sampleNumbers m0.testSize st).map fun s => (c, s)).mapM
    fun q => bandFigure m0 models t.1 q.1 q.2
  return (figs, nextSamples m0.testSize t.2 st)

/-- The prediction types in order (convergence_plots.py:868-965). -/
def bandTypes (models : List UqModel) : SampleIds → List (String × List String) → Py (List BandFigure)
  | _, [] => .ok []
  | st, t :: ts => do
    let r ← bandType models st t
    let rest ← bandTypes models r.2 ts
    return r.1 ++ rest

/-- `plot_time_series_convergence_uq` (convergence_plots.py:845-965): scatter plots are not implemented
(895, 918). -/
def uqConvergence (plotType : String) (models : List UqModel) (st : SampleIds)
    (types : List (String × List String)) : Py (List BandFigure) := do
  checkPlotType plotType
  raiseIf (plotType = "time_series_scatter" ∧ types ≠ []) .runtimeError
  bandTypes models st types

end Hooke
