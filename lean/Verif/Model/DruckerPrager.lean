import Verif.Model.VonMises

/-!
# Model of `simulators/fetorch/material/models/standard/drucker_prager.py`

Floating-point numbers are reals; a zero Jacobian ends in a failure as in `Model/VonMises.lean`.
-/

noncomputable section

namespace Hooke

/-- Elastic constants and the three parameters of the yield function and flow potential,
drucker_prager.py:317-321. -/
structure DPParams where
  E : ℝ
  v : ℝ
  xi : ℝ
  etay : ℝ
  etaf : ℝ

/-- Bulk modulus, drucker_prager.py:327. -/
def DPParams.K (m : DPParams) : ℝ := m.E / (3 * (1 - 2 * m.v))
/-- Shear modulus, drucker_prager.py:328. -/
def DPParams.G (m : DPParams) : ℝ := m.E / (2 * (1 + m.v))

/-- Residual against a cohesion: absolute when the cohesion is nearly zero, relative otherwise,
drucker_prager.py:458-461, 535-538. -/
def NewtonEval.dpNorm (e : NewtonEval) : ℝ :=
  if |e.scale| < suSmall then |e.residual| else |e.residual / e.scale|

/-- The loops `while True`, drucker_prager.py:443-476 and 520-554 (the same control flow): the
iterate is updated first and the convergence of the new iterate is checked afterwards.  `fuel` is
`su_max_n_iterations - nr_iter`. -/
def dpLoop (f : ℝ → NewtonEval) (tol : ℝ) : (fuel nrIter : ℕ) → ℝ → Option ℝ
  | fuel, nrIter, x =>
    if (f x).jacobian = 0 then none
    else
      let y := x + -(f x).residual / (f x).jacobian
      if (f y).dpNorm < tol ∧ nrIter > 0 then some y
      else match fuel with
        | 0 => none
        | fuel + 1 => dpLoop f tol fuel (nrIter + 1) y

/-- Cone: residual, cohesion and Jacobian, drucker_prager.py:434-440, 445, 451-456. -/
def dpConeEval (m : DPParams) (law : HardLaw) (sqrtJ2 pTrial accOld : ℝ) (x : ℝ) : NewtonEval :=
  let c := law (accOld + m.xi * x)
  { residual := sqrtJ2 - m.G * x + m.etay * (pTrial - m.K * m.etaf * x) - m.xi * c.1
    scale := c.1
    jacobian := -m.G - m.K * m.etaf * m.etay - m.xi ^ 2 * c.2 }

/-- Apex: residual, cohesion and Jacobian, drucker_prager.py:511-517, 522, 528-533. -/
def dpApexEval (m : DPParams) (law : HardLaw) (pTrial accOld : ℝ) (x : ℝ) : NewtonEval :=
  let alpha := m.xi / m.etaf
  let beta := m.xi / m.etay
  let c := law (accOld + alpha * x)
  { residual := c.1 * beta - (pTrial - m.K * x)
    scale := c.1
    jacobian := alpha * beta * c.2 + m.K }

/-- 3D result of the return mapping. -/
structure DPReturn where
  eStrain : V6
  stress : V6
  acc : ℝ
  isPlast : Bool
  isApex : Bool
  tangent : M6

/-- `soid_mf`, drucker_prager.py:371-374. -/
def soid6 : V6 := kel6 (getIdOperators 3).soid

/-- Elastic strain of a stress given by pressure and deviator, drucker_prager.py:567-568. -/
def dpElastic (m : DPParams) (pressure : ℝ) (dev : V6) : V6 :=
  fun k => 1 / (3 * m.K) * pressure * soid6 k + 1 / (2 * m.G) * dev k

/-- `norm_div_factor` of the cone tangent, drucker_prager.py:615-618: the norm is that of the full
elastic trial strain. -/
def dpNormDiv (eTrial : V6) : ℝ := if norm6 eTrial > suSmall then 1 / norm6 eTrial else 0

/-- `trial_unit`, drucker_prager.py:609-611, 620. -/
def dpTrialUnit (eTrial : V6) : T2 3 := fun i j =>
  dpNormDiv eTrial * unkel6 (mv6 (kel66 (getIdOperators 3).fodevprojsym) eTrial) i j

/-- Consistent tangent of a return to the cone, drucker_prager.py:609-631. -/
def dpConeTangent (m : DPParams) (eTrial : V6) (inc H : ℝ) : T4 3 :=
  let soid := (getIdOperators 3).soid
  let unit := dpTrialUnit eTrial
  let s1 := dpNormDiv eTrial * (inc / √2)
  let s2 := 1 / (m.G + m.K * m.etay * m.etaf + H * m.xi ^ 2)
  fun i j k l => 2 * m.G * (1 - s1) * (getIdOperators 3).fodevprojsym i j k l
    + 2 * m.G * (s1 - m.G * s2) * dyad22_1 unit unit i j k l
    - √2 * m.G * s2 * m.K * (m.etay * dyad22_1 unit soid i j k l
      + m.etaf * dyad22_1 soid unit i j k l)
    + m.K * (1 - m.K * m.etay * m.etaf * s2) * dyad22_1 soid soid i j k l

/-- Consistent tangent of a return to the apex, drucker_prager.py:605-606. -/
def dpApexTangent (m : DPParams) (H : ℝ) : T4 3 :=
  let soid := (getIdOperators 3).soid
  fun i j k l => m.K * (1 - m.K / (m.K + m.xi / m.etaf * (m.xi / m.etay) * H)) *
    dyad22_1 soid soid i j k l

/-- The plastic branch after the cone loop has converged with multiplier `inc`,
drucker_prager.py:479-568.  A zero `etaf` or `etay` makes `alpha` or `beta` infinite or NaN, so
that the apex loop cannot converge. -/
def dpPlastic (m : DPParams) (law : HardLaw) (eTrial devTrial : V6) (sqrtJ2 pTrial accOld inc : ℝ) :
    Option DPReturn :=
  if sqrtJ2 - m.G * inc ≥ 0 then
    let pressure := pTrial - m.K * m.etaf * inc
    let factor := if sqrtJ2 > suSmall then 1 - m.G * inc / sqrtJ2 else 0
    let dev : V6 := fun k => factor * devTrial k
    some { eStrain := dpElastic m pressure dev, stress := fun k => pressure * soid6 k + dev k
           acc := accOld + m.xi * inc, isPlast := true, isApex := false
           tangent := kel66 (dpConeTangent m eTrial inc (law (accOld + m.xi * inc)).2) }
  else if m.etaf = 0 ∨ m.etay = 0 then none
  else
    match dpLoop (dpApexEval m law pTrial accOld) suTol suMaxIter 0 0 with
    | none => none
    | some vol =>
      let pressure := pTrial - m.K * vol
      let acc := accOld + m.xi / m.etaf * vol
      some { eStrain := dpElastic m pressure 0, stress := fun k => pressure * soid6 k
             acc := acc, isPlast := true, isApex := true
             tangent := kel66 (dpApexTangent m (law acc).2) }

/-- The 3D part of `state_update`, drucker_prager.py:371-637; `none` is a state update failure. -/
def dpReturn (m : DPParams) (law : HardLaw) (eTrial : V6) (accOld : ℝ) : Option DPReturn :=
  let eTangent := isoTensor (lamOf m.E m.v) (miuOf m.E m.v)
  let trial := mv6 (kel66 eTangent) eTrial
  let pTrial := 1 / 3 * ∑ i, unkel6 trial i i
  let devTrial := mv6 (kel66 (getIdOperators 3).fodevprojsym) trial
  let j2 := 1 / 2 * norm6 devTrial ^ 2
  let c := (law accOld).1
  let yieldFunction := √j2 + m.etay * pTrial - m.xi * c
  let consistency := if |c| < suSmall then yieldFunction else yieldFunction / |c|
  if consistency ≤ suTol then
    some { eStrain := eTrial, stress := trial, acc := accOld, isPlast := false, isApex := false
           tangent := kel66 eTangent }
  else
    match dpLoop (dpConeEval m law (√j2) pTrial accOld) suTol suMaxIter 0 0 with
    | none => none
    | some inc => dpPlastic m law eTrial devTrial (√j2) pTrial accOld inc

/-- State variables, drucker_prager.py:230-266 (infinitesimal strains). -/
structure DPState (p : PType) extends VMState p where
  isApex : Bool

/-- State variables with the failure marks of drucker_prager.py:571-582 (see `VMVars`). -/
inductive DPVars (p : PType)
  | good (s : DPState p)
  | nan (strain : Option (Vmf p))

/-- `state_init`, drucker_prager.py:166-266. -/
def dpInit (p : PType) : DPState p := { vmInit p with isApex := false }

/-- `state_update`, drucker_prager.py:268-688, without the precision conversion (290-302,
679-686). -/
def dpUpdate (p : PType) (m : DPParams) (law : HardLaw) (inc : T2 p.dim) (old : DPState p) :
    DPVars p × Option (Fin p.len → Fin p.len → ℝ) :=
  let inc6 := to3D p (mf p inc) 0
  let pOld : Vmf p := old.strain - old.eStrain
  let eOld := to3D p old.eStrain old.e33
  let eTrial := eOld + inc6
  let strain := to2D p eTrial + pOld
  match dpReturn m law eTrial old.acc with
  | none => (.nan (some strain), none)
  | some r =>
    (.good { eStrain := to2D p r.eStrain, strain := strain, stress := to2D p r.stress, acc := r.acc
             isPlast := r.isPlast, isSuFail := false, isApex := r.isApex
             e33 := get33 p r.eStrain, s33 := get33 p r.stress }, some (to2DM p r.tangent))

/-- `state_update` of any state variables (see `vmStep`). -/
def dpStep (p : PType) (m : DPParams) (law : HardLaw) (st : DPVars p) (inc : T2 p.dim) :
    DPVars p :=
  match st with
  | .good s => (dpUpdate p m law inc s).1
  | .nan _ => .nan none

/-- Repeated `state_update` from the initial state. -/
def dpRun (p : PType) (m : DPParams) (law : HardLaw) (incs : List (T2 p.dim)) : DPVars p :=
  incs.foldl (dpStep p m law) (.good (dpInit p))

end Hooke
