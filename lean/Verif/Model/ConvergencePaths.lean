import Verif.Model.PyDict
import Verif.Model.Py
import Mathlib.Data.Real.Basic
import Mathlib.Data.List.Dedup

/-!
# Time series plots of models with different training sets

`plot_time_series_convergence` of `model_architectures/procedures/convergence_plots.py:294-479`, with the
check of the samples in `build_time_series_predictions_data`
(`model_architectures/materials/process_predictions.py:300-306`).  The files are not modelled: what is read
from them is part of `ConvModel`.
-/

noncomputable section

open Classical

namespace Hooke

/-- A trained model: the sizes of its data sets, its paths (time, reference, prediction) for a type, a
component and a sample, and its pairs of references and predictions for a type and a component
(convergence_plots.py:341-354, 364-395). -/
structure ConvModel where
  trainSize : ℕ
  testSize : ℕ
  path : String → ℕ → ℕ → List (ℝ × ℝ × ℝ)
  pairs : String → ℕ → List (ℝ × ℝ)

/-- The argument `samples_ids`: `'all'`, a list, or the `range` it is replaced by
(convergence_plots.py:432-433). -/
inductive SampleIds where
  | all
  | listed (l : List ℕ)
  | range (n : ℕ)

/-- The check of the samples (process_predictions.py:300-306): a `range` is not a `list`, and `max` requires
an entry. -/
def checkSamples (size : ℕ) : SampleIds → Py Unit
  | .all => .ok ()
  | .range _ => .error .runtimeError
  | .listed [] => .error .valueError
  | .listed (x :: l) => raiseIf (∃ y ∈ x :: l, size ≤ y) .runtimeError

/-- The label of a model (convergence_plots.py:417, 451). -/
def convergenceLabel (n : ℕ) : String := "N = " ++ toString n

/-- A dictionary that is filled in order. -/
def fillDict {β : Type} (l : List (String × β)) : KDict String β :=
  l.foldl (fun (d : KDict String β) (kv : String × β) => d.put kv.1 kv.2) []

/-- A figure with the paths of a sample. -/
structure SamplePaths where
  comp : String
  sample : ℕ
  curves : KDict String (List (ℝ × ℝ))

/-- The figure of a component and a sample (convergence_plots.py:438-472). -/
def pathFigure (m0 : ConvModel) (models : List ConvModel) (type : String) (comp : String × ℕ) (s : ℕ) :
    SamplePaths :=
  ⟨comp.1, s, fillDict (("Ground-Truth", (m0.path type comp.2 s).map fun q => (q.1, q.2.1)) ::
    models.map fun m => (convergenceLabel m.trainSize, (m.path type comp.2 s).map fun q => (q.1, q.2.2)))⟩

/-- The samples after the first component (convergence_plots.py:432-433). -/
def nextSamples (n : ℕ) (comps : List String) : SampleIds → SampleIds
  | .all => if comps = [] then .all else .range n
  | s => s

/-- The samples in a loop (convergence_plots.py:436). -/
def sampleNumbers (n : ℕ) : SampleIds → List ℕ
  | .all => List.range n
  | .listed l => l
  | .range k => List.range k

/-- The paths for one prediction type (convergence_plots.py:359-472), with the samples for the next one. -/
def pathType (models : List ConvModel) (st : SampleIds) (t : String × List String) :
    Py (List SamplePaths × SampleIds) := do
  models.forM fun m => checkSamples m.testSize st
  raiseIf ((models.map ConvModel.testSize).dedup.length ≠ 1) .runtimeError
  let m0 ← orRaise models.head? .indexError
  return (t.2.zipIdx.flatMap fun c => (sampleNumbers m0.testSize st).map fun s => pathFigure m0 models t.1 c s,
    nextSamples m0.testSize t.2 st)

/-- The plots of paths (convergence_plots.py:357-472). -/
def convergencePaths (models : List ConvModel) : SampleIds → List (String × List String) →
    Py (List SamplePaths)
  | _, [] => .ok []
  | st, t :: ts => do
    let r ← pathType models st t
    let rest ← convergencePaths models r.2 ts
    return r.1 ++ rest

/-- The plots of predictions against references (convergence_plots.py:357-428). -/
def convergenceScatter (models : List ConvModel) (types : List (String × List String)) :
    Py (List (String × KDict String (List (ℝ × ℝ)))) := do
  raiseIf (types ≠ [] ∧ (models.map ConvModel.testSize).dedup.length ≠ 1) .runtimeError
  return types.flatMap fun t => t.2.zipIdx.map fun c =>
    (c.1, fillDict (models.map fun m => (convergenceLabel m.trainSize, m.pairs t.1 c.2)))

/-- `plot_time_series_convergence` for a plot type (convergence_plots.py:334-335, 405-472): the refusal of
another plot type. -/
def checkPlotType (plotType : String) : Py Unit :=
  raiseIf (plotType ≠ "time_series_scatter" ∧ plotType ≠ "time_series_path") .runtimeError

end Hooke
