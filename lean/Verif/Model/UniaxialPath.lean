import Verif.Model.PyUtil
import Mathlib.Analysis.Calculus.Deriv.Basic
import Mathlib.Analysis.Real.Sqrt

/-!
# Uniaxial stress paths

`user_scripts/complete_pipelines/evaluate_gru_model.py:185-493`.  A path is the list of its rows.  The
material model is given by the function that it computes for a whole path; floats are reals, and
automatic differentiation is the derivative.
-/

noncomputable section

open Classical

namespace Hooke

/-- A material model of the script: the recurrent constitutive model of a von Mises material, which
maps strain paths, or a recurrent network with the scalings of its features
(evaluate_gru_model.py:223-262, 312-332). -/
inductive PathModel where
  | vonMises (f : List (List ℝ) → List (List ℝ))
  | gru (isInNormalized isOutNormalized : Bool) (normIn denormOut net : List (List ℝ) → List (List ℝ))

/-- `build_gru_features_in` (evaluate_gru_model.py:185-221). -/
def gruFeatures (temperature composition : ℝ) (strain : List (List ℝ)) : List (List ℝ) :=
  strain.map fun row => row ++ [temperature, composition]

/-- `forward_gru_material_model` (evaluate_gru_model.py:223-262). -/
def gruForwardPath (isIn isOut : Bool) (normIn denormOut net : List (List ℝ) → List (List ℝ))
    (features : List (List ℝ)) : List (List ℝ) :=
  let x := if isIn then normIn features else features
  let y := net x
  if isOut then denormOut y else y

/-- The shapes of two paths agree: `stress_path.shape != strain_path.shape` is false
(evaluate_gru_model.py:378). -/
def sameShape (a b : List (List ℝ)) : Prop := a.map List.length = b.map List.length

/-- The model that a name selects: `'von_mises'` calls the model, `'gru'` calls the functions of the
network; a model of another kind has other attributes (evaluate_gru_model.py:361-373). -/
def callMaterial (name : String) (m : PathModel) (strain : List (List ℝ)) (temperature composition : ℝ) :
    Py (List (List ℝ)) :=
  if name = "von_mises" then
    match m with
    | .vonMises f => .ok (f strain)
    | .gru .. => .error .typeError
  else if name = "gru" then
    match m with
    | .gru isIn isOut normIn denormOut net =>
        .ok ((gruForwardPath isIn isOut normIn denormOut net
          (gruFeatures temperature composition strain)).map (List.take 6))
    | .vonMises _ => .error .attributeError
  else .error .valueError

/-- `forward_material_model` (evaluate_gru_model.py:334-381). -/
def forwardMaterial (name : String) (m : PathModel) (temperature composition : ℝ)
    (strain : List (List ℝ)) : Py (List (List ℝ)) := do
  let stress ← callMaterial name m strain temperature composition
  raiseIf (¬ sameShape stress strain) .valueError
  .ok stress

/-- The strain of a trial: the lateral strains, the prescribed strain and no shear
(evaluate_gru_model.py:429-434). -/
def trialStrain (x : ℝ × ℝ) (e : ℝ) : List ℝ := [x.1, x.2, e, 0, 0, 0]

/-- `residual` of `get_uniaxial_stress_path`: the lateral stresses of the last time, for the path up to
the time and a trial (evaluate_gru_model.py:426-447). -/
def lateralResidual (fwd : List (List ℝ) → Py (List (List ℝ))) (path : List (List ℝ)) (e : ℝ)
    (x : ℝ × ℝ) : Py (ℝ × ℝ) := do
  let stress ← fwd (path ++ [trialStrain x e])
  let row ← orRaise stress.getLast? .indexError
  let s0 ← orRaise row[0]? .indexError
  let s1 ← orRaise row[1]? .indexError
  .ok (s0, s1)

/-- A component of the residual as a function of the trial, for its derivative.  Trials differ by their
values only, so the shape errors of `lateralResidual` do not occur when it did not raise them before. -/
def residualValue (fwd : List (List ℝ) → Py (List (List ℝ))) (path : List (List ℝ)) (e : ℝ)
    (x : ℝ × ℝ) : ℝ × ℝ :=
  match lateralResidual fwd path e x with
  | .ok r => r
  | .error _ => (0, 0)

/-- `torch.autograd.functional.jacobian` of a map of the plane, by rows
(evaluate_gru_model.py:470-473). -/
def jacobian2 (g : ℝ × ℝ → ℝ × ℝ) (x : ℝ × ℝ) : (ℝ × ℝ) × (ℝ × ℝ) :=
  ((deriv (fun t => (g (t, x.2)).1) x.1, deriv (fun t => (g (x.1, t)).1) x.2),
   (deriv (fun t => (g (t, x.2)).2) x.1, deriv (fun t => (g (x.1, t)).2) x.2))

/-- `torch.linalg.solve` for two unknowns, which fails for a singular matrix
(evaluate_gru_model.py:475). -/
def solve2 (J : (ℝ × ℝ) × (ℝ × ℝ)) (b : ℝ × ℝ) : Py (ℝ × ℝ) := do
  let d := J.1.1 * J.2.2 - J.1.2 * J.2.1
  raiseIf (d = 0) .runtimeError
  .ok ((J.2.2 * b.1 - J.1.2 * b.2) / d, (J.1.1 * b.2 - J.2.1 * b.1) / d)

/-- The test of an iteration.  A division by a zero strain is infinite or not a number, and the test
fails (evaluate_gru_model.py:467). -/
def uniaxialConverged (tol e : ℝ) (r : ℝ × ℝ) : Prop :=
  |e| ≠ 0 ∧ Real.sqrt (r.1 ^ 2 + r.2 ^ 2) / |e| < tol

/-- The iterations of a time step (evaluate_gru_model.py:462-477). -/
def uniaxialNewton (fwd : List (List ℝ) → Py (List (List ℝ))) (tol : ℝ) (path : List (List ℝ)) (e : ℝ) :
    ℕ → ℝ × ℝ → Py (ℝ × ℝ)
  | 0, x => .ok x
  | n + 1, x => do
    let r ← lateralResidual fwd path e x
    if uniaxialConverged tol e r then .ok x else do
      let dx ← solve2 (jacobian2 (residualValue fwd path e) x) (-r.1, -r.2)
      uniaxialNewton fwd tol path e n (x.1 + dx.1, x.2 + dx.2)

/-- A time step: the iterations start from no lateral strain, and the last iterate is stored
(evaluate_gru_model.py:453-481). -/
def uniaxialStep (fwd : List (List ℝ) → Py (List (List ℝ))) (tol : ℝ) (maxIter : ℕ)
    (path : List (List ℝ)) (e : ℝ) : Py (List (List ℝ)) := do
  let x ← uniaxialNewton fwd tol path e maxIter (0, 0)
  .ok (path ++ [trialStrain x e])

/-- `get_uniaxial_stress_path` (evaluate_gru_model.py:383-493): the first strain is zero, whatever is
prescribed; rows after the current time are zero in the code and are not read before they are set. -/
def uniaxialPath (name : String) (m : PathModel) (temperature composition tol : ℝ) (maxIter : ℕ)
    (prescribed : List ℝ) : Py (List (List ℝ) × List (List ℝ)) := do
  let start := (prescribed.take 1).map fun _ => trialStrain (0, 0) 0
  let strain ← prescribed.tail.foldlM
    (uniaxialStep (forwardMaterial name m temperature composition) tol maxIter) start
  let stress ← forwardMaterial name m temperature composition strain
  .ok (strain, stress)

end Hooke
