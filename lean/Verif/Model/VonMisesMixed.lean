import Verif.Model.VonMises

/-!
# Model of `simulators/fetorch/material/models/standard/von_mises_mixed.py`
-/

noncomputable section

namespace Hooke

/-- Residual, yield stress and Jacobian of the mixed hardening return mapping,
von_mises_mixed.py:425-435, 451. -/
def mixEval (G q accOld : ℝ) (law kin : HardLaw) (inc : ℝ) : NewtonEval :=
  { residual := q - 3 * G * inc - (kin (accOld + inc)).1 + (kin accOld).1 - (law (accOld + inc)).1
    scale := (law (accOld + inc)).1
    jacobian := -3 * G - (kin (accOld + inc)).2 - (law (accOld + inc)).2 }

/-- 3D result of the mixed hardening return mapping. -/
structure MixReturn where
  eStrain : V6
  stress : V6
  acc : ℝ
  back : V6
  isPlast : Bool
  tangent : M6

/-- The 3D part of `state_update`, von_mises_mixed.py:354-481, 527-552; `none` is a state update
failure. -/
def mixReturn (E v : ℝ) (law kin : HardLaw) (eTrial : V6) (accOld : ℝ) (backOld : V6) :
    Option MixReturn :=
  let G := E / (2 * (1 + v))
  let eTangent := isoTensor (lamOf E v) (miuOf E v)
  let D := kel66 eTangent
  let trial := mv6 D eTrial
  let devTrial := mv6 (kel66 (getIdOperators 3).fodevprojsym) trial
  let rel : V6 := fun k => devTrial k - backOld k
  let normDiv := if norm6 rel > suSmall then 1 / norm6 rel else 0
  let flow : V6 := fun k => √(3 / 2) * normDiv * rel k
  let q := √(3 / 2) * norm6 rel
  let sy := (law accOld).1
  if sy ≠ 0 ∧ (q - sy) / sy ≤ suTol then
    some { eStrain := eTrial, stress := trial, acc := accOld, back := backOld, isPlast := false
           tangent := D }
  else
    match newtonLoop (mixEval G q accOld law kin) suTol suMaxIter 0 0 with
    | none => none
    | some inc =>
      let e : V6 := fun k => eTrial k - inc * flow k
      let H := (law (accOld + inc)).2
      let slope := (kin (accOld + inc)).2
      let factor1 := (inc * 6 * G ^ 2) / q
      let factor2 := (6 * G ^ 2) * ((inc / q) - (1 / (3 * G + slope + H)))
      let unit : T2 3 := fun i j => √(2 / 3) * unkel6 flow i j
      let tangent : T4 3 := fun i j k l => eTangent i j k l
        - factor1 * (getIdOperators 3).fodevprojsym i j k l + factor2 * dyad22_1 unit unit i j k l
      some { eStrain := e, stress := mv6 D e, acc := accOld + inc
             back := fun k => backOld k + ((kin (accOld + inc)).1 - (kin accOld).1) * flow k
             isPlast := true, tangent := kel66 tangent }

/-- State variables, von_mises_mixed.py:215-247. -/
structure MixState (p : PType) extends VMState p where
  back : Vmf p
  b33 : ℝ

/-- State variables with the failure marks of von_mises_mixed.py:467-481 (see `VMVars`). -/
inductive MixVars (p : PType)
  | good (s : MixState p)
  | nan (strain : Option (Vmf p))

/-- `state_init`, von_mises_mixed.py:162-247. -/
def mixInit (p : PType) : MixState p := { vmInit p with back := 0, b33 := 0 }

/-- `state_update`, von_mises_mixed.py:249-572, without the precision conversion (271-283,
563-570). -/
def mixUpdate (p : PType) (E v : ℝ) (law kin : HardLaw) (inc : T2 p.dim) (old : MixState p) :
    MixVars p × Option (Fin p.len → Fin p.len → ℝ) :=
  let inc6 := to3D p (mf p inc) 0
  let pOld : Vmf p := old.strain - old.eStrain
  let eOld := to3D p old.eStrain old.e33
  let backOld := to3D p old.back old.b33
  let eTrial := eOld + inc6
  let strain := to2D p eTrial + pOld
  match mixReturn E v law kin eTrial old.acc backOld with
  | none => (.nan (some strain), none)
  | some r =>
    (.good { eStrain := to2D p r.eStrain, strain := strain, stress := to2D p r.stress, acc := r.acc
             isPlast := r.isPlast, isSuFail := false
             e33 := get33 p r.eStrain, s33 := get33 p r.stress
             back := to2D p r.back, b33 := get33 p r.back }, some (to2DM p r.tangent))

/-- `state_update` of any state variables (see `vmStep`). -/
def mixStep (p : PType) (E v : ℝ) (law kin : HardLaw) (st : MixVars p) (inc : T2 p.dim) :
    MixVars p :=
  match st with
  | .good s => (mixUpdate p E v law kin inc s).1
  | .nan _ => .nan none

/-- Repeated `state_update` from the initial state. -/
def mixRun (p : PType) (E v : ℝ) (law kin : HardLaw) (incs : List (T2 p.dim)) : MixVars p :=
  incs.foldl (mixStep p E v law kin) (.good (mixInit p))

end Hooke
