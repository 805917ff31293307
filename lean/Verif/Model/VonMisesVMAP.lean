import Verif.Model.VonMises

/-!
# Model of `simulators/fetorch/material/models/vmap/von_mises.py`

`torch.vmap` applies the function to every sample of a batch; what is modelled is the function
of one sample.  `torch.where` evaluates both branches and selects; an iterate which is NaN or
infinite is `none`.
-/

noncomputable section

namespace Hooke

/-- `su_max_n_iterations` of the batched model, vmap/von_mises.py:334. -/
def vmapMaxIter : ℕ := 10

/-- Body of the masked loop, vmap/von_mises.py:643-663 with `_nr_iteration` (686-713). -/
def maskStep (f : ℝ → NewtonEval) (tol : ℝ) (isElastic : Bool) (x : Option ℝ) (nrIter : ℕ) :
    Option ℝ × Bool :=
  let convCond : Bool := match x with
    | none => false
    | some x => decide ((f x).small tol) && decide (nrIter > 0)
  let isConverged := if isElastic then isElastic else convCond
  let next : Option ℝ := match x with
    | none => none
    | some x => if (f x).jacobian = 0 then none else some (x + -(f x).residual / (f x).jacobian)
  (if isConverged then x else next, isConverged)

/-- The masked loop: `n + 1` iterations whatever happens, vmap/von_mises.py:640-663. -/
def maskedLoop (f : ℝ → NewtonEval) (tol : ℝ) (isElastic : Bool) (n : ℕ) : Option ℝ × Bool :=
  (List.range (n + 1)).foldl (fun s nrIter => maskStep f tol isElastic s.1 nrIter) (some 0, false)

/-- `norm_div_factor` and `flow_vector_mf`, vmap/von_mises.py:421-426: `small` is added to every
component of the deviator under the norm. -/
def vmapFlow (small : ℝ) (dev : V6) : V6 :=
  let normDiv := if norm6 dev > small then 1 / norm6 (fun k => dev k + small) else 0
  fun k => √(3 / 2) * normDiv * dev k

/-- What `_elastic_step` and `_plastic_step` return (the concatenated vector). -/
structure StepOutput where
  eStrain : V6
  stress : V6
  acc : ℝ
  incPMult : ℝ
  isPlast : Bool

/-- `_elastic_step`, vmap/von_mises.py:549-592. -/
def vmapElasticStep (eTrial trial : V6) (accOld : ℝ) : StepOutput :=
  ⟨eTrial, trial, accOld, 0, false⟩

/-- `_plastic_step`, vmap/von_mises.py:594-684; `none`: NaN output with `is_converged` unset. -/
def vmapPlasticStep (isElastic : Bool) (eTrial : V6) (f : ℝ → NewtonEval) (D : M6) (flow : V6)
    (accOld tol : ℝ) (maxIter : ℕ) : Option StepOutput :=
  let (x, isConverged) := maskedLoop f tol isElastic maxIter
  let inc := if isConverged then x else none
  match inc with
  | none => none
  | some inc =>
    let e : V6 := fun k => eTrial k - inc * flow k
    some ⟨e, mv6 D e, accOld + inc, inc, true⟩

/-- The 3D part of the batched `state_update`, vmap/von_mises.py:386-463 and 503-527. -/
def vmapReturn (E v : ℝ) (law : HardLaw) (eTrial : V6) (accOld : ℝ) : Option VMReturn :=
  let G := E / (2 * (1 + v))
  let eTangent := isoTensor (lamOf E v) (miuOf E v)
  let D := kel66 eTangent
  let trial := mv6 D eTrial
  let devTrial := mv6 (kel66 (getIdOperators 3).fodevprojsym) trial
  let q := √(3 / 2) * norm6 devTrial
  let sy := (law accOld).1
  let flow := vmapFlow suSmall devTrial
  let isElastic : Bool := decide (sy ≠ 0 ∧ (q - sy) / sy ≤ suTol)
  let out :=
    if isElastic then some (vmapElasticStep eTrial trial accOld)
    else vmapPlasticStep isElastic eTrial (vmEval G q accOld law) D flow accOld suTol vmapMaxIter
  match out with
  | none => none
  | some o =>
    let H := (law o.acc).2
    let factor1 := (o.incPMult * 6 * G ^ 2) / q
    let factor2 := (6 * G ^ 2) * ((o.incPMult / q) - (1 / (3 * G + H)))
    let unit : T2 3 := fun i j => √(2 / 3) * unkel6 flow i j
    let pTangent : T4 3 := fun i j k l => eTangent i j k l
      - factor1 * (getIdOperators 3).fodevprojsym i j k l + factor2 * dyad22_1 unit unit i j k l
    some { eStrain := o.eStrain, stress := o.stress, acc := o.acc, isPlast := o.isPlast
           tangent := kel66 (if o.isPlast then pTangent else eTangent) }

/-- The batched `state_update`, vmap/von_mises.py:295-547 without the precision conversion
(317-329, 538-545). -/
def vmapUpdate (p : PType) (E v : ℝ) (law : HardLaw) (inc : T2 p.dim) (old : VMState p) :
    VMVars p × Option (Fin p.len → Fin p.len → ℝ) :=
  let inc6 := to3D p (mf p inc) 0
  let pOld : Vmf p := old.strain - old.eStrain
  let eOld := to3D p old.eStrain old.e33
  let eTrial := eOld + inc6
  let strain := to2D p eTrial + pOld
  match vmapReturn E v law eTrial old.acc with
  | none => (.nan (some strain), none)
  | some r =>
    (.good { eStrain := to2D p r.eStrain, strain := strain, stress := to2D p r.stress, acc := r.acc
             isPlast := r.isPlast, isSuFail := false
             e33 := get33 p r.eStrain, s33 := get33 p r.stress }, some (to2DM p r.tangent))

end Hooke
