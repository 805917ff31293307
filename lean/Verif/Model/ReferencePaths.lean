import Verif.Model.UniaxialPath
import Verif.Model.SpecimenHistory
import Verif.Model.TextFile
import Verif.Model.PyDict

/-!
# Reference stress paths at temperatures and compositions

`user_scripts/complete_pipelines/evaluate_gru_model.py:68-102, 543-872`.  The material models are given
by functions of the temperature and composition; printing, the plots of the reference paths and the
files of figures are not modelled, except for the names and curves of the figures.
-/

noncomputable section

open Classical

namespace Hooke

/-- `int(composition*100)` (evaluate_gru_model.py:618, 822). -/
def percentOf (c : ℝ) : ℤ := truncInt (c * 100)

/-- The key of a temperature and a composition, `f'T_{temperature}_C_{int(composition*100)}'`
(evaluate_gru_model.py:618, 697, 822). -/
def conditionKey (T : ℤ) (c : ℝ) : Text :=
  "T_".toList ++ textOfInt T ++ "_C_".toList ++ textOfInt (percentOf c)

/-- The temperatures and compositions of `get_dataset_file_paths`; the path of a file that it returns
too is used nowhere (evaluate_gru_model.py:68-102). -/
def testCaseGrid (testCase : ℕ) : Py (List ℤ × List ℝ) :=
  if testCase = 1 then .ok ([25, 325, 625], [0, 0.25, 0.5, 0.75, 1])
  else if testCase = 2 then .ok ([25, 125, 225, 325, 425, 525, 625], [0, 0.5, 1])
  else .error .valueError

/-- A strain path and its stress path. -/
abbrev PathPair := List (List ℝ) × List (List ℝ)

/-- The reference path of a temperature and a composition: that of the von Mises model set for them
(evaluate_gru_model.py:825-835). -/
def referencePath (vm : ℤ → ℝ → Py PathModel) (prescribed : List ℝ) (T : ℤ) (c : ℝ) : Py PathPair := do
  let m ← vm T c
  uniaxialPath "von_mises" m T c (1 / 10 ^ 8) 30 prescribed

/-- The loops of `build_uniaxial_stress_dataset` (evaluate_gru_model.py:804-841). -/
def buildReference (vm : ℤ → ℝ → Py PathModel) (prescribed : List ℝ) (temps : List ℤ) (comps : List ℝ) :
    Py (KDict Text PathPair) :=
  (temps.flatMap fun T => comps.map fun c => (T, c)).foldlM
    (fun (d : KDict Text PathPair) q => do
      let v ← referencePath vm prescribed q.1 q.2
      return d.put (conditionKey q.1 q.2) v) []

/-- `path[:, 2]`: component 33 is the third one (evaluate_gru_model.py:576-580, 654-662). -/
def axialColumn (path : List (List ℝ)) : Py (List ℝ) := path.mapM fun r => orRaise r[2]? .indexError

/-- A curve of a figure. -/
structure PathCurve where
  label : Text
  strain : List ℝ
  stress : List ℝ

/-- A figure and the name of its file. -/
structure PathFigure where
  title : Text
  file : Text
  curves : List PathCurve

/-- The body of the inner loops of `evaluate_gru_material_model`: the curve of the model for the strain
path of the data set, and the curve of the data set (evaluate_gru_model.py:618-664, 697-743). -/
def conditionCurves (name : String) (getModel : ℤ → ℝ → Py PathModel) (data : KDict Text PathPair)
    (label : Text) (T : ℤ) (c : ℝ) : Py (List PathCurve) := do
  let p ← orRaise (data.get? (conditionKey T c)) .keyError
  let m ← getModel T c
  let stress ← forwardMaterial name m T c p.1
  let x ← axialColumn p.1
  let y ← axialColumn stress
  let r ← axialColumn p.2
  return [⟨label, x, y⟩, ⟨label ++ " (J2)".toList, x, r⟩]

/-- The figures of the first test case, one for each temperature (evaluate_gru_model.py:604-681). -/
def figuresByTemperature (name : String) (getModel : ℤ → ℝ → Py PathModel) (data : KDict Text PathPair)
    (temps : List ℤ) (comps : List ℝ) : Py (List PathFigure) :=
  temps.mapM fun T => do
    let cs ← comps.mapM fun c =>
      conditionCurves name getModel data (textOfInt (percentOf c) ++ "\\%".toList) T c
    return ⟨"T = ".toList ++ textOfInt T ++ " °C".toList, "stress_vs_strain_T_".toList ++ textOfInt T,
      cs.flatten⟩

/-- The figures of the second test case, one for each composition (evaluate_gru_model.py:683-760). -/
def figuresByComposition (name : String) (getModel : ℤ → ℝ → Py PathModel) (data : KDict Text PathPair)
    (temps : List ℤ) (comps : List ℝ) : Py (List PathFigure) :=
  comps.mapM fun c => do
    let cs ← temps.mapM fun T =>
      conditionCurves name getModel data (textOfInt T ++ "°C".toList) T c
    return ⟨"C = ".toList ++ textOfInt (percentOf c) ++ "\\%".toList,
      "stress_vs_strain_C_".toList ++ textOfInt (percentOf c), cs.flatten⟩

/-- `evaluate_gru_material_model` with a test case, a name and models of materials
(evaluate_gru_model.py:583-760). -/
def evaluateReference (testCase : ℕ) (name : String) (getModel : ℤ → ℝ → Py PathModel)
    (data : KDict Text PathPair) : Py (List PathFigure) := do
  let g ← testCaseGrid testCase
  if testCase = 1 then figuresByTemperature name getModel data g.1 g.2
  else figuresByComposition name getModel data g.1 g.2

end Hooke
