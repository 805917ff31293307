import Verif.Model.DruckerPrager
import Verif.Model.VonMisesVMAP

/-!
# Model of `simulators/fetorch/material/models/vmap/drucker_prager.py`

As in `Model/VonMisesVMAP.lean`: the function of one sample of a batch.
-/

noncomputable section

namespace Hooke

/-- Body of the masked loops, vmap/drucker_prager.py:703-728 with `_nr_iteration_surface` (791-827)
and 893-917 with `_nr_iteration_apex` (946-979); the two have the same control flow. -/
def dpMaskStep (f : ℝ → NewtonEval) (tol : ℝ) (isElastic : Bool) (x : Option ℝ) (nrIter : ℕ) :
    Option ℝ × Bool :=
  let convCond : Bool := match x with
    | none => false
    | some x => decide ((f x).dpNorm < tol) && decide (nrIter > 0)
  let isConverged := if isElastic then isElastic else convCond
  let next : Option ℝ := match x with
    | none => none
    | some x => if (f x).jacobian = 0 then none else some (x + -(f x).residual / (f x).jacobian)
  (if isConverged then x else next, isConverged)

/-- The masked loops, vmap/drucker_prager.py:698-728 and 888-917. -/
def dpMaskedLoop (f : ℝ → NewtonEval) (tol : ℝ) (isElastic : Bool) (n : ℕ) : Option ℝ × Bool :=
  (List.range (n + 1)).foldl (fun s nrIter => dpMaskStep f tol isElastic s.1 nrIter)
    (some 0, false)

/-- `su_max_n_iterations`, vmap/drucker_prager.py:339. -/
def dpVmapMaxIter : ℕ := 10

/-- What the steps return (the concatenated vector). -/
structure DPStepOutput where
  eStrain : V6
  stress : V6
  acc : ℝ
  incPMult : ℝ
  isPlast : Bool
  isApex : Bool

/-- `_elastic_step`, vmap/drucker_prager.py:582-628. -/
def dpVmapElasticStep (eTrial trial : V6) (accOld : ℝ) : DPStepOutput :=
  ⟨eTrial, trial, accOld, 0, false, false⟩

/-- `_plastic_step_apex`, vmap/drucker_prager.py:829-944; `none`: NaN output with `is_converged`
unset.  A zero `etaf` or `etay` makes `alpha` or `beta` infinite or NaN, so that the loop cannot
converge. -/
def dpVmapApexStep (m : DPParams) (law : HardLaw) (isElastic : Bool) (pTrial accOld tol : ℝ)
    (maxIter : ℕ) : Option DPStepOutput :=
  if m.etaf = 0 ∨ m.etay = 0 then none
  else
    let (x, isConverged) := dpMaskedLoop (dpApexEval m law pTrial accOld) tol isElastic maxIter
    let vol := if isConverged then x else none
    match vol with
    | none => none
    | some vol =>
      let pressure := pTrial - m.K * vol
      some ⟨dpElastic m pressure 0, fun k => pressure * soid6 k, accOld + m.xi / m.etaf * vol, 0,
        true, true⟩

/-- `_plastic_step`, vmap/drucker_prager.py:630-789: the square root in the factor of the deviator
is that of `J2` clamped to at least `small` (744). -/
def dpVmapPlasticStep (m : DPParams) (law : HardLaw) (isElastic : Bool) (devTrial : V6)
    (j2 pTrial accOld tol small : ℝ) (maxIter : ℕ) : Option DPStepOutput :=
  let (x, isConverged) :=
    dpMaskedLoop (dpConeEval m law (√j2) pTrial accOld) tol isElastic maxIter
  let inc := if isConverged then x else none
  match inc with
  | none => none
  | some inc =>
    if √j2 - m.G * inc < 0 then
      dpVmapApexStep m law (isElastic || false) pTrial accOld tol maxIter
    else
      let pressure := pTrial - m.K * m.etaf * inc
      let dev : V6 := fun k => (1 - m.G * inc / √(max j2 small)) * devTrial k
      some ⟨dpElastic m pressure dev, fun k => pressure * soid6 k + dev k, accOld + m.xi * inc, inc,
        true, false⟩

/-- `norm_div_factor` of the cone tangent, vmap/drucker_prager.py:499-505: Frobenius norm of the
deviator, to every component of which `small` is added. -/
def dpVmapNormDiv (eTrial : V6) : ℝ :=
  let dev := unkel6 (mv6 (kel66 (getIdOperators 3).fodevprojsym) eTrial)
  if √(∑ i, ∑ j, dev i j ^ 2) > suSmall then 1 / √(∑ i, ∑ j, (dev i j + suSmall) ^ 2) else 0

/-- Consistent tangent of a return to the cone, vmap/drucker_prager.py:498-513. -/
def dpVmapConeTangent (m : DPParams) (eTrial : V6) (inc H : ℝ) : T4 3 :=
  let soid := (getIdOperators 3).soid
  let unit : T2 3 := fun i j =>
    dpVmapNormDiv eTrial * unkel6 (mv6 (kel66 (getIdOperators 3).fodevprojsym) eTrial) i j
  let s1 := dpVmapNormDiv eTrial * (inc / √2)
  let s2 := 1 / (m.G + m.K * m.etay * m.etaf + H * m.xi ^ 2)
  fun i j k l => 2 * m.G * (1 - s1) * (getIdOperators 3).fodevprojsym i j k l
    + 2 * m.G * (s1 - m.G * s2) * dyad22_1 unit unit i j k l
    - √2 * m.G * s2 * m.K * (m.etay * dyad22_1 unit soid i j k l
      + m.etaf * dyad22_1 soid unit i j k l)
    + m.K * (1 - m.K * m.etay * m.etaf * s2) * dyad22_1 soid soid i j k l

/-- The 3D part of the batched `state_update`, vmap/drucker_prager.py:405-529.  The yield check
divides by the absolute cohesion without a guard (445, 459): with zero cohesion the quotient is
infinite or NaN, and not above the tolerance only if the yield function is negative.  The apex
tangent (516-517) is that of the standard model. -/
def dpVmapReturn (m : DPParams) (law : HardLaw) (eTrial : V6) (accOld : ℝ) : Option DPReturn :=
  let eTangent := isoTensor (lamOf m.E m.v) (miuOf m.E m.v)
  let trial := mv6 (kel66 eTangent) eTrial
  let pTrial := 1 / 3 * ∑ i, unkel6 trial i i
  let devTrial := mv6 (kel66 (getIdOperators 3).fodevprojsym) trial
  let j2 := 1 / 2 * norm6 devTrial ^ 2
  let c := (law accOld).1
  let yieldFunction := √j2 + m.etay * pTrial - m.xi * c
  let isElastic : Bool :=
    decide (if c = 0 then yieldFunction < 0 else yieldFunction / |c| ≤ suTol)
  let out :=
    if isElastic then some (dpVmapElasticStep eTrial trial accOld)
    else dpVmapPlasticStep m law isElastic devTrial j2 pTrial accOld suTol suSmall dpVmapMaxIter
  match out with
  | none => none
  | some o =>
    let H := (law o.acc).2
    let tangent :=
      if o.isPlast then
        if o.isApex then dpApexTangent m H else dpVmapConeTangent m eTrial o.incPMult H
      else eTangent
    some { eStrain := o.eStrain, stress := o.stress, acc := o.acc, isPlast := o.isPlast
           isApex := o.isApex, tangent := kel66 tangent }

/-- The batched `state_update`, vmap/drucker_prager.py:300-580 without the precision conversion
(322-334, 571-578). -/
def dpVmapUpdate (p : PType) (m : DPParams) (law : HardLaw) (inc : T2 p.dim) (old : DPState p) :
    DPVars p × Option (Fin p.len → Fin p.len → ℝ) :=
  let inc6 := to3D p (mf p inc) 0
  let pOld : Vmf p := old.strain - old.eStrain
  let eOld := to3D p old.eStrain old.e33
  let eTrial := eOld + inc6
  let strain := to2D p eTrial + pOld
  match dpVmapReturn m law eTrial old.acc with
  | none => (.nan (some strain), none)
  | some r =>
    (.good { eStrain := to2D p r.eStrain, strain := strain, stress := to2D p r.stress, acc := r.acc
             isPlast := r.isPlast, isSuFail := false, isApex := r.isApex
             e33 := get33 p r.eStrain, s33 := get33 p r.stress }, some (to2DM p r.tangent))

/-- `state_update` of any state variables (see `vmStep`). -/
def dpVmapStep (p : PType) (m : DPParams) (law : HardLaw) (st : DPVars p) (inc : T2 p.dim) :
    DPVars p :=
  match st with
  | .good s => (dpVmapUpdate p m law inc s).1
  | .nan _ => .nan none

/-- Repeated `state_update` from the initial state. -/
def dpVmapRun (p : PType) (m : DPParams) (law : HardLaw) (incs : List (T2 p.dim)) : DPVars p :=
  incs.foldl (dpVmapStep p m law) (.good (dpInit p))

end Hooke
