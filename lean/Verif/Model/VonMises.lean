import Verif.Model.Elastic
import Verif.Model.Hardening

/-!
# Model of `simulators/fetorch/material/models/standard/von_mises.py`

Floating-point numbers are reals.  Two facts about IEEE arithmetic matter for the
control flow and are kept: a comparison with an infinite or NaN ratio is false, so
a zero yield stress is never within the tolerance; and a zero Jacobian makes the
iterate infinite or NaN for good, so that the loop ends without convergence.
-/

noncomputable section

namespace Hooke

/-- `su_conv_tol`, von_mises.py:296. -/
def suTol : ℝ := 1e-6
/-- `su_max_n_iterations`, von_mises.py:298. -/
def suMaxIter : ℕ := 20
/-- `small`, von_mises.py:300. -/
def suSmall : ℝ := 1e-8

/-- What one iteration of a return-mapping loop evaluates: residual, the yield stress by which
the residual is normalised, and the Jacobian. -/
structure NewtonEval where
  residual : ℝ
  scale : ℝ
  jacobian : ℝ

/-- `error < su_conv_tol`, von_mises.py:421-422; false for a zero `scale`. -/
def NewtonEval.small (e : NewtonEval) (tol : ℝ) : Prop := e.scale ≠ 0 ∧ |e.residual / e.scale| < tol

instance (e : NewtonEval) (tol : ℝ) : Decidable (e.small tol) := Classical.propDecidable _

/-- The loop `while True`, von_mises.py:414-441.  `fuel` is `su_max_n_iterations - nr_iter`. -/
def newtonLoop (f : ℝ → NewtonEval) (tol : ℝ) : (fuel nrIter : ℕ) → ℝ → Option ℝ
  | fuel, nrIter, x =>
    let e := f x
    if e.small tol ∧ nrIter > 0 then some x
    else match fuel with
      | 0 => none
      | fuel + 1 =>
        if e.jacobian = 0 then none
        else newtonLoop f tol fuel (nrIter + 1) (x + -e.residual / e.jacobian)

/-- Residual, yield stress and Jacobian of the von Mises return mapping, von_mises.py:416-437. -/
def vmEval (G q accOld : ℝ) (law : HardLaw) (inc : ℝ) : NewtonEval :=
  { residual := q - 3 * G * inc - (law (accOld + inc)).1
    scale := (law (accOld + inc)).1
    jacobian := -3 * G - (law (accOld + inc)).2 }

/-- 3D result of the return mapping. -/
structure VMReturn where
  eStrain : V6
  stress : V6
  acc : ℝ
  isPlast : Bool
  tangent : M6

/-- The 3D part of `state_update`, von_mises.py:353-461 and 502-527; `none` is a state update
failure. -/
def vmReturn (E v : ℝ) (law : HardLaw) (eTrial : V6) (accOld : ℝ) : Option VMReturn :=
  let G := E / (2 * (1 + v))
  let eTangent := isoTensor (lamOf E v) (miuOf E v)
  let D := kel66 eTangent
  let trial := mv6 D eTrial
  let devTrial := mv6 (kel66 (getIdOperators 3).fodevprojsym) trial
  let normDiv := if norm6 devTrial > suSmall then 1 / norm6 devTrial else 0
  let flow : V6 := fun k => √(3 / 2) * normDiv * devTrial k
  let q := √(3 / 2) * norm6 devTrial
  let sy := (law accOld).1
  if sy ≠ 0 ∧ (q - sy) / sy ≤ suTol then
    some { eStrain := eTrial, stress := trial, acc := accOld, isPlast := false, tangent := D }
  else
    match newtonLoop (vmEval G q accOld law) suTol suMaxIter 0 0 with
    | none => none
    | some inc =>
      let e : V6 := fun k => eTrial k - inc * flow k
      let H := (law (accOld + inc)).2
      let factor1 := (inc * 6 * G ^ 2) / q
      let factor2 := (6 * G ^ 2) * ((inc / q) - (1 / (3 * G + H)))
      let unit : T2 3 := fun i j => √(2 / 3) * unkel6 flow i j
      let tangent : T4 3 := fun i j k l => eTangent i j k l
        - factor1 * (getIdOperators 3).fodevprojsym i j k l + factor2 * dyad22_1 unit unit i j k l
      some { eStrain := e, stress := mv6 D e, acc := accOld + inc, isPlast := true
             tangent := kel66 tangent }

/-- State variables, von_mises.py:223-257; `e33`, `s33` only exist for problem type 1. -/
structure VMState (p : PType) where
  eStrain : Vmf p
  strain : Vmf p
  stress : Vmf p
  acc : ℝ
  isPlast : Bool
  isSuFail : Bool
  e33 : ℝ
  s33 : ℝ

/-- State variables together with the failure marks of von_mises.py:450-461, 502-505: after a
failure the elastic strain, the stress, the accumulated plastic strain and the tangent are NaN
and `is_su_fail` is set, but the total strain of the failed step is still stored (`some`).  When
a NaN state is updated again every value is NaN (`none`). -/
inductive VMVars (p : PType)
  | good (s : VMState p)
  | nan (strain : Option (Vmf p))

/-- `state_init`, von_mises.py:163-257 (infinitesimal strains). -/
def vmInit (p : PType) : VMState p := ⟨0, 0, 0, 0, false, false, 0, 0⟩

/-- `state_update`, von_mises.py:259-547, without the precision conversion (281-293, 538-545);
returns the state and the tangent (`none` for a tangent of NaN). -/
def vmUpdate (p : PType) (E v : ℝ) (law : HardLaw) (inc : T2 p.dim) (old : VMState p) :
    VMVars p × Option (Fin p.len → Fin p.len → ℝ) :=
  let inc6 := to3D p (mf p inc) 0
  let pOld : Vmf p := old.strain - old.eStrain
  let eOld := to3D p old.eStrain old.e33
  let eTrial := eOld + inc6
  let strain := to2D p eTrial + pOld
  match vmReturn E v law eTrial old.acc with
  | none => (.nan (some strain), none)
  | some r =>
    (.good { eStrain := to2D p r.eStrain, strain := strain, stress := to2D p r.stress, acc := r.acc
             isPlast := r.isPlast, isSuFail := false
             e33 := get33 p r.eStrain, s33 := get33 p r.stress }, some (to2DM p r.tangent))

/-- `state_update` of any state variables: with NaN state variables every comparison on lines
398, 421-423 is false, so the loop ends in a failure with NaN everywhere. -/
def vmStep (p : PType) (E v : ℝ) (law : HardLaw) (st : VMVars p) (inc : T2 p.dim) : VMVars p :=
  match st with
  | .good s => (vmUpdate p E v law inc s).1
  | .nan _ => .nan none

/-- Repeated `state_update` from the initial state. -/
def vmRun (p : PType) (E v : ℝ) (law : HardLaw) (incs : List (T2 p.dim)) : VMVars p :=
  incs.foldl (vmStep p E v law) (.good (vmInit p))

end Hooke
