import Verif.Model.VonMisesMixed
import Verif.Model.VonMisesVMAP

/-!
# Model of `simulators/fetorch/material/models/vmap/von_mises_mixed.py`

As in `Model/VonMisesVMAP.lean`: the function of one sample of a batch.
-/

noncomputable section

namespace Hooke

/-- What `_elastic_step` and `_plastic_step` return (the concatenated vector). -/
structure MixStepOutput where
  eStrain : V6
  stress : V6
  acc : ℝ
  back : V6
  incPMult : ℝ
  isPlast : Bool

/-- `_elastic_step`, vmap/von_mises_mixed.py:563-611. -/
def mixVmapElasticStep (eTrial trial : V6) (accOld : ℝ) (backOld : V6) : MixStepOutput :=
  ⟨eTrial, trial, accOld, backOld, 0, false⟩

/-- `_plastic_step`, vmap/von_mises_mixed.py:613-724 with the masked loop of
`Model/VonMisesVMAP.lean` (674-699, 726-754 are the same statements); `none`: NaN output with
`is_converged` unset.  `kin_hard_stress` is that of the last iterate (679-681); as the loop holds
a converged iterate it is evaluated at the returned multiplier. -/
def mixVmapPlasticStep (isElastic : Bool) (eTrial : V6) (f : ℝ → NewtonEval) (D : M6) (flow : V6)
    (accOld : ℝ) (backOld : V6) (kin : HardLaw) (tol : ℝ) (maxIter : ℕ) : Option MixStepOutput :=
  let (x, isConverged) := maskedLoop f tol isElastic maxIter
  let inc := if isConverged then x else none
  match inc with
  | none => none
  | some inc =>
    let e : V6 := fun k => eTrial k - inc * flow k
    some ⟨e, mv6 D e, accOld + inc,
      fun k => backOld k + ((kin (accOld + inc)).1 - (kin accOld).1) * flow k, inc, true⟩

/-- The 3D part of the batched `state_update`, vmap/von_mises_mixed.py:394-472 and 517-541.  The
tangent (524-532) has no kinematic hardening slope.  `su_max_n_iterations` is 20 (326), as in the
standard model. -/
def mixVmapReturn (E v : ℝ) (law kin : HardLaw) (eTrial : V6) (accOld : ℝ) (backOld : V6) :
    Option MixReturn :=
  let G := E / (2 * (1 + v))
  let eTangent := isoTensor (lamOf E v) (miuOf E v)
  let D := kel66 eTangent
  let trial := mv6 D eTrial
  let devTrial := mv6 (kel66 (getIdOperators 3).fodevprojsym) trial
  let rel : V6 := fun k => devTrial k - backOld k
  let q := √(3 / 2) * norm6 rel
  let sy := (law accOld).1
  let flow := vmapFlow suSmall rel
  let isElastic : Bool := decide (sy ≠ 0 ∧ (q - sy) / sy ≤ suTol)
  let out :=
    if isElastic then some (mixVmapElasticStep eTrial trial accOld backOld)
    else mixVmapPlasticStep isElastic eTrial (mixEval G q accOld law kin) D flow accOld backOld kin
      suTol suMaxIter
  match out with
  | none => none
  | some o =>
    let H := (law o.acc).2
    let factor1 := (o.incPMult * 6 * G ^ 2) / q
    let factor2 := (6 * G ^ 2) * ((o.incPMult / q) - (1 / (3 * G + H)))
    let unit : T2 3 := fun i j => √(2 / 3) * unkel6 flow i j
    let pTangent : T4 3 := fun i j k l => eTangent i j k l
      - factor1 * (getIdOperators 3).fodevprojsym i j k l + factor2 * dyad22_1 unit unit i j k l
    some { eStrain := o.eStrain, stress := o.stress, acc := o.acc, back := o.back
           isPlast := o.isPlast, tangent := kel66 (if o.isPlast then pTangent else eTangent) }

/-- The batched `state_update`, vmap/von_mises_mixed.py:287-561 without the precision conversion
(309-321, 552-559).  After a failure the back stress is not NaN in the code; the other state
variables are, so that every later state is NaN as well (`mixVmapStep`). -/
def mixVmapUpdate (p : PType) (E v : ℝ) (law kin : HardLaw) (inc : T2 p.dim) (old : MixState p) :
    MixVars p × Option (Fin p.len → Fin p.len → ℝ) :=
  let inc6 := to3D p (mf p inc) 0
  let pOld : Vmf p := old.strain - old.eStrain
  let eOld := to3D p old.eStrain old.e33
  let backOld := to3D p old.back old.b33
  let eTrial := eOld + inc6
  let strain := to2D p eTrial + pOld
  match mixVmapReturn E v law kin eTrial old.acc backOld with
  | none => (.nan (some strain), none)
  | some r =>
    (.good { eStrain := to2D p r.eStrain, strain := strain, stress := to2D p r.stress, acc := r.acc
             isPlast := r.isPlast, isSuFail := false
             e33 := get33 p r.eStrain, s33 := get33 p r.stress
             back := to2D p r.back, b33 := get33 p r.back }, some (to2DM p r.tangent))

/-- `state_update` of any state variables (see `mixStep`). -/
def mixVmapStep (p : PType) (E v : ℝ) (law kin : HardLaw) (st : MixVars p) (inc : T2 p.dim) :
    MixVars p :=
  match st with
  | .good s => (mixVmapUpdate p E v law kin inc s).1
  | .nan _ => .nan none

/-- Repeated `state_update` from the initial state. -/
def mixVmapRun (p : PType) (E v : ℝ) (law kin : HardLaw) (incs : List (T2 p.dim)) : MixVars p :=
  incs.foldl (mixVmapStep p E v law kin) (.good (mixInit p))

end Hooke
