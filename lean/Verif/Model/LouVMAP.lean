import Verif.Model.Lou

/-!
# Model of `simulators/fetorch/material/models/vmap/lou.py` (state update)

As in `Model/VonMisesVMAP.lean`: the function of one sample of a batch.  Both branches of every
`torch.where` are computed; values which are not finite are `none`, and `torch.inverse` and
`torch.linalg.solve` raise an error for a singular matrix whether or not the result is used.  In a
batch one such sample makes the call for the whole batch fail.
-/

noncomputable section

namespace Hooke

/-- Options of the model, vmap/lou.py:200-202. -/
structure LouOptions where
  isApexHandling : Bool
  isFixedYield : Bool

/-- The Jacobian, vmap/lou.py:1340, 1350, 1359-1435; the terms of the hardening of the yield
parameters are left out if they are fixed (1305, 1342, 1353, 1362-1365, 1388-1393, 1402-1405). -/
def louVmapJacobian (m : LouParams) (fixed : Bool) (x : LouPoint) (k : LouCtx) :
    Matrix LouIx LouIx ℝ :=
  let C := m.tangent
  let dflowE := ddot44_1 k.dflow C
  let deffE := ddot24_1 k.flow C
  let y0 := (m.y 0).1
  let hy := (m.y x.acc).2
  let dr1e : T4 3 := fun i j p q => (getIdOperators 3).fosym i j p q + x.inc * dflowE i j p q
  let dr1acc : T2 3 := if fixed then 0 else fun i j => x.inc * k.dflowAcc i j
  let dr2acc : ℝ := if fixed then 1 else louDr2acc m.assoc x k.flow k.dflowAcc
  let dr3e : T2 3 := fun i j => 1 / y0 * deffE i j
  let dr3acc : ℝ := if fixed then -hy / y0 else 1 / y0 * (k.deffAcc - hy)
  Matrix.fromBlocks (Matrix.of (kel66 dr1e))
    (Matrix.of fun i => ![kel6 dr1acc i, kel6 k.flow i])
    (Matrix.of ![kel6 (louDr2e m.assoc x k.flow dflowE), kel6 dr3e])
    (Matrix.of ![![dr2acc, louDr2inc m.assoc k.flow], ![dr3acc, 0]])

/-- `_get_residual_and_jacobian`, vmap/lou.py:1173-1437: the invariants, their derivatives, the
effective stress, the flow vector and the residuals (643-717, 1257-1338) are the formulas of the
standard model. -/
def louVmapEval (m : LouParams) (fixed : Bool) (eTrial : T2 3) (accOld : ℝ) (x : LouPoint) :
    Py (Option LouEval) :=
  (louCtx m x).map fun k =>
    if k.finite (m.y 0).1 then
      some { r1 := louR1 eTrial x k.flow
             r2 := louR2 m.assoc accOld x k.flow
             r3 := louR3 k.effective (m.y x.acc).1 (m.y 0).1
             jac := if louJacFinite m k then some (louVmapJacobian m fixed x k) else none }
    else none

/-- `conv_diter_norm`, vmap/lou.py:1118-1125. -/
def louVmapStepNorm (eTrial : T2 3) (accOld : ℝ) (d : LouIx → ℝ) : ℝ :=
  let d1 : Fin 6 → ℝ := fun i =>
    if normT2 eTrial > suSmall then d (.inl i) / normT2 eTrial else d (.inl i)
  let d2 : Fin 2 → ℝ := fun i => if accOld > suSmall then d (.inr i) / accOld else d (.inr i)
  √(∑ i, d1 i ^ 2 + ∑ i, d2 i ^ 2)

/-- State of the masked loops: unknowns and `conv_diter_norm` (`none`: not finite), and
`is_converged`. -/
abbrev LouMask (α : Type) := Option (α × ℝ) × Bool

/-- `is_converged`, vmap/lou.py:1084-1108 (the norms of the residual are those of the standard
model). -/
def louVmapConverged (eTrial : T2 3) (accOld : ℝ) (avoid : Bool) (r : LouEval) (dn : ℝ)
    (nrIter : ℕ) : Bool :=
  if avoid then avoid
  else decide (r.convNorm eTrial accOld < suTol ∧ dn < suTol ∧ nrIter > 0)

/-- The update, vmap/lou.py:1111-1136, when the residual is finite; `d` is the solution of the
linear system. -/
def louVmapAdvance (eTrial : T2 3) (accOld : ℝ) (conv : Bool) (x : LouPoint)
    (d : Option (LouIx → ℝ)) : LouMask LouPoint :=
  if conv then (some (x, 0), conv)
  else (d.map fun d => (x.add d, louVmapStepNorm eTrial accOld d), conv)

/-- Body of the loop, vmap/lou.py:1061-1136. -/
def louVmapConeStep (m : LouParams) (fixed : Bool) (eTrial : T2 3) (accOld : ℝ) (avoid : Bool)
    (s : LouMask LouPoint) (nrIter : ℕ) : Py (LouMask LouPoint) :=
  match s.1 with
  | none => .ok (none, avoid)
  | some (x, dn) =>
    (louVmapEval m fixed eTrial accOld x).bind fun r =>
      match r with
      | none => .ok (if avoid then (some (x, 0), avoid) else (none, avoid))
      | some r => (louSolve r).map fun d =>
        louVmapAdvance eTrial accOld (louVmapConverged eTrial accOld avoid r dn nrIter) x d

/-- `su_max_n_iterations`, vmap/lou.py:387. -/
def louVmapMaxIter : ℕ := 10

/-- `_plastic_step_cone`, vmap/lou.py:967-1171; `none`: NaN output. -/
def louVmapCone (m : LouParams) (fixed : Bool) (eTrial : T2 3) (accOld : ℝ) (avoid : Bool) :
    Py (Option LouReturn) :=
  ((List.range (louVmapMaxIter + 1)).foldlM (louVmapConeStep m fixed eTrial accOld avoid)
    (some (⟨eTrial, accOld, 0⟩, 0), false)).map fun s =>
      if s.2 then s.1.map fun x => louPlasticResult m x.1.e x.1.acc else none

/-- `alpha`, vmap/lou.py:1518-1531; `none` if it is not finite. -/
def louVmapAlpha (a0 b0 : ℝ) : Option ℝ :=
  let etay := 3 * a0 * b0
  let q := 1 - 1 / 3 * etay ^ 2
  if q < 0 then none else some (2 * √3 / 3 * √q / max |etay| 1e-6)

/-- Residual and Jacobian of the return to the apex, vmap/lou.py:1561-1579; `none` if they are not
finite. -/
def louVmapApexEval (m : LouParams) (alpha pTrial accOld x : ℝ) : Option NewtonEval :=
  let acc := accOld + alpha * x
  if (m.a acc).1 = 0 then none
  else
    let beta := 1 / (3 * (m.a acc).1 * max |(m.b acc).1| 1e-6)
    some { residual := (m.y acc).1 * beta - (pTrial - m.K * x)
           scale := (m.y acc).1
           jacobian := alpha * beta * (m.y acc).2 + m.K }

/-- `conv_diter_norm`, vmap/lou.py:1605-1609. -/
def louVmapApexStepNorm (accOld d : ℝ) : ℝ := |if accOld > suSmall then d / accOld else d|

/-- The step, vmap/lou.py:1594-1612 with `_nr_iteration_apex` (1652-1669), when the residual is
finite. -/
def louVmapApexAdvance (accOld : ℝ) (conv : Bool) (e : NewtonEval) (x : ℝ) : LouMask ℝ :=
  if conv then (some (x, 0), conv)
  else if e.jacobian = 0 then (none, conv)
  else
    let d := -e.residual / e.jacobian
    (some (x + d, louVmapApexStepNorm accOld d), conv)

/-- Body of the loop of the return to the apex, vmap/lou.py:1559-1612, for a sample to be returned
to the apex (`is_avoid_return_mapping` unset: otherwise the result is not used and no error can
occur). -/
def louVmapApexStep (f : ℝ → Option NewtonEval) (accOld : ℝ) (s : LouMask ℝ) (nrIter : ℕ) :
    LouMask ℝ :=
  match s.1 with
  | none => (none, false)
  | some (x, dn) =>
    match f x with
    | none => (none, false)
    | some e =>
      louVmapApexAdvance accOld
        (decide (louApexNorm e < suTol ∧ dn < suTol ∧ nrIter > 0)) e x

/-- `_plastic_step_apex`, vmap/lou.py:1460-1649. -/
def louVmapApex (m : LouParams) (pTrial accOld : ℝ) : Option LouReturn :=
  (louVmapAlpha (m.a 0).1 (m.b 0).1).bind fun alpha =>
    let s := (List.range (louVmapMaxIter + 1)).foldl
      (louVmapApexStep (louVmapApexEval m alpha pTrial accOld) accOld) (some (0, 0), false)
    if s.2 then s.1.map fun x =>
      let pressure := pTrial - m.K * x.1
      { eStrain := fun k => 1 / (3 * m.K) * pressure * kel6 (getIdOperators 3).soid k
        stress := fun k => pressure * kel6 (getIdOperators 3).soid k
        acc := accOld + alpha * x.1, isPlast := true }
    else none

/-- The 3D part of the batched `state_update`, vmap/lou.py:461-525, with `_elastic_step` (754-800)
and `_plastic_step` (802-965): the return to the surface is computed for every sample. -/
def louVmapReturn (m : LouParams) (o : LouOptions) (eTrial : V6) (accOld : ℝ) :
    Py (Option LouReturn) :=
  let trialMf := mv6 (kel66 m.tangent) eTrial
  let trial := unkel6 trialMf
  let y := (m.y accOld).1
  let a := (m.a accOld).1
  let b := (m.b accOld).1
  let c := (m.c accOld).1
  let d := (m.d accOld).1
  let isElastic : Bool := decide (louElastic (louEffective trial a b c d) y)
  let pTrial := 1 / 3 * ∑ i, trial i i
  let isApex : Bool := if o.isApexHandling then decide (louApexReturn pTrial a b y) else false
  (louVmapCone m o.isFixedYield (unkel6 eTrial) accOld (isElastic || isApex)).map fun cone =>
    if isElastic then
      some { eStrain := eTrial, stress := trialMf, acc := accOld, isPlast := false }
    else if isApex then louVmapApex m pTrial accOld
    else cone

/-- The batched `state_update`, vmap/lou.py:348-600 without the precision conversion (370-382,
593-598); the returned tangent is always `None` (582). -/
def louVmapUpdate (p : PType) (m : LouParams) (o : LouOptions) (inc : T2 p.dim) (old : VMState p) :
    Py (VMVars p) :=
  let eTrial := to3D p old.eStrain old.e33 + to3D p (mf p inc) 0
  (louVmapReturn m o eTrial old.acc).map (louState p eTrial (old.strain - old.eStrain))

end Hooke
