import Verif.Model.VonMises
import Verif.Model.PyUtil
import Mathlib.Analysis.SpecialFunctions.Pow.Real
import Mathlib.LinearAlgebra.Matrix.NonsingularInverse

/-!
# Model of `simulators/fetorch/material/models/standard/lou.py` (state update)

Floating-point numbers are reals; a value which is infinite or NaN is `none`.  A quantity
computed from a value which is not finite is not finite, and a comparison with it is false.
`torch.inverse` and `torch.linalg.solve` raise an error (a subclass of `RuntimeError`) for a
singular matrix.  Verbose output (325, 531-534, 563-565 and so on) and the precision conversion
(331-343, 805-810) are not modelled.
-/

noncomputable section

namespace Hooke

/-- `x**e` for a fixed exponent which is not an integer: NaN for negative `x`, infinite for a
negative power of zero. -/
def fpow (x e : ℝ) : Option ℝ := if x < 0 ∨ (x = 0 ∧ e < 0) then none else some (x ^ e)

/-- Frobenius norm, `torch.linalg.norm` of a second-order tensor. -/
def normT2 (t : T2 3) : ℝ := √(∑ i, ∑ j, t i j ^ 2)

/-- Outputs of `get_stress_invariants`. -/
structure LouInvariants where
  i1 : ℝ
  i2 : ℝ
  i3 : ℝ
  j2 : ℝ
  j3 : ℝ

/-- `get_stress_invariants`, lou.py:814-852 (`j1` equals `i1`). -/
def louInvariants (s : T2 3) : LouInvariants :=
  let i1 := ∑ i, s i i
  let i2 := 0.5 * (i1 ^ 2 - ∑ i, ∑ k, s i k * s k i)
  let i3 := Matrix.det (Matrix.of s)
  ⟨i1, i2, i3, 1 / 3 * i1 ^ 2 - i2, 2 / 27 * i1 ^ 3 - 1 / 3 * i1 * i2 + i3⟩

/-- `get_effective_stress`, lou.py:926-960. -/
def louEffective (s : T2 3) (a b c d : ℝ) : Option ℝ :=
  let v := louInvariants s
  let w1 := b * v.i1
  let w2 := c * v.j3 ^ 2
  let w3 := d * v.j3
  let w4 := v.j2 ^ 3 - w2
  (fpow w4 (1 / 2)).bind fun r => (fpow (r - w3) (1 / 3)).map fun q => a * (w1 + q)

/-- Derivatives returned by `get_stress_invariants_and_derivatives`. -/
structure LouGrad where
  di1 : T2 3
  dj2 : T2 3
  dj3 : T2 3
  d2j2 : T4 3
  d2j3 : T4 3

/-- `get_stress_invariants_and_derivatives`, lou.py:854-924 (the invariants themselves are
`louInvariants`); `torch.inverse` on line 903. -/
def louDerivatives (s : T2 3) : Py LouGrad := do
  let dev := ddot42_1 (getIdOperators 3).fodevprojsym s
  let det := Matrix.det (Matrix.of dev)
  raiseIf (det = 0) .runtimeError
  let inv : Matrix (Fin 3) (Fin 3) ℝ := (Matrix.of dev)⁻¹
  let w6 := ddot24_1 inv (getIdOperators 3).fodevprojsym
  let dw6 := ddot44_1 (ddot44_1 (getIdOperators 3).fodevprojsym (foDinvSym inv))
    (getIdOperators 3).fodevprojsym
  let dj3 : T2 3 := fun i j => det * w6 i j
  return { di1 := (getIdOperators 3).soid
           dj2 := dev
           dj3 := dj3
           d2j2 := (getIdOperators 3).fodevprojsym
           d2j3 := fun i j k l => dyad22_1 w6 dj3 i j k l + det * dw6 i j k l }

/-- What the formulas for the residual and the Jacobian depend on: the stress invariants and their
derivatives, the yield parameters and their hardening slopes. -/
structure LouCtx where
  i1 : ℝ
  j2 : ℝ
  j3 : ℝ
  g : LouGrad
  a : ℝ
  b : ℝ
  c : ℝ
  d : ℝ
  ha : ℝ
  hb : ℝ
  hc : ℝ
  hd : ℝ

namespace LouCtx
variable (x : LouCtx)

/-- lou.py:1056. -/
def w1 : ℝ := x.b * x.i1
/-- lou.py:1057, 1059. -/
def w4 : ℝ := x.j2 ^ 3 - x.c * x.j3 ^ 2
/-- lou.py:1058, 1060. -/
def w5 : ℝ := x.w4 ^ (1 / 2 : ℝ) - x.d * x.j3
/-- lou.py:1062. -/
def dw1 : T2 3 := fun i j => x.b * x.g.di1 i j
/-- lou.py:1063. -/
def dw2 : T2 3 := fun i j => 2 * x.c * x.j3 * x.g.dj3 i j
/-- lou.py:1064. -/
def dw3 : T2 3 := fun i j => x.d * x.g.dj3 i j
/-- lou.py:1065. -/
def dw4 : T2 3 := fun i j => 3 * x.j2 ^ 2 * x.g.dj2 i j - x.dw2 i j
/-- lou.py:1066. -/
def dw5 : T2 3 := fun i j => 1 / 2 * x.w4 ^ (-1 / 2 : ℝ) * x.dw4 i j - x.dw3 i j
/-- lou.py:1068-1069. -/
def d2w2 : T4 3 := fun i j k l =>
  2 * x.c * (dyad22_1 x.g.dj3 x.g.dj3 i j k l + x.j3 * x.g.d2j3 i j k l)
/-- lou.py:1070. -/
def d2w3 : T4 3 := fun i j k l => x.d * x.g.d2j3 i j k l
/-- lou.py:1071-1072. -/
def d2w4 : T4 3 := fun i j k l => 6 * x.j2 * dyad22_1 x.g.dj2 x.g.dj2 i j k l
  + 3 * x.j2 ^ 2 * x.g.d2j2 i j k l - x.d2w2 i j k l
/-- lou.py:1073-1074. -/
def d2w5 : T4 3 := fun i j k l => -(1 / 4) * x.w4 ^ (-3 / 2 : ℝ) * dyad22_1 x.dw4 x.dw4 i j k l
  + 1 / 2 * x.w4 ^ (-1 / 2 : ℝ) * x.d2w4 i j k l - x.d2w3 i j k l
/-- lou.py:1076. -/
def dw1acc : ℝ := x.i1 * x.hb
/-- lou.py:1077, 1079. -/
def dw4acc : ℝ := -(x.j3 ^ 2 * x.hc)
/-- lou.py:1078, 1080. -/
def dw5acc : ℝ := 1 / 2 * x.w4 ^ (-1 / 2 : ℝ) * x.dw4acc - x.j3 * x.hd
/-- lou.py:1083. -/
def d2w1acc : T2 3 := fun i j => x.hb * (getIdOperators 3).soid i j
/-- lou.py:1084, 1086. -/
def d2w4acc : T2 3 := fun i j => -(2 * x.j3 * x.hc * x.g.dj3 i j)
/-- lou.py:1085, 1087-1089. -/
def d2w5acc : T2 3 := fun i j => -(1 / 4) * x.w4 ^ (-3 / 2 : ℝ) * x.dw4acc * x.dw4 i j
  + 1 / 2 * x.w4 ^ (-1 / 2 : ℝ) * x.d2w4acc i j - x.hd * x.g.dj3 i j
/-- `effective_stress`, lou.py:1092. -/
def effective : ℝ := x.a * (x.w1 + x.w5 ^ (1 / 3 : ℝ))
/-- `flow_vector`, lou.py:1095. -/
def flow : T2 3 := fun i j => x.a * (x.dw1 i j + 1 / 3 * x.w5 ^ (-2 / 3 : ℝ) * x.dw5 i j)
/-- `dflow_dstress`, lou.py:1112-1114. -/
def dflow : T4 3 := fun i j k l => 1 / 3 * x.a *
  (-(2 / 3) * x.w5 ^ (-5 / 3 : ℝ) * dyad22_1 x.dw5 x.dw5 i j k l
    + x.w5 ^ (-2 / 3 : ℝ) * x.d2w5 i j k l)
/-- `dflow_daccpstr`, lou.py:1118-1122. -/
def dflowAcc : T2 3 := fun i j =>
  x.ha * (x.dw1 i j + 1 / 3 * x.w5 ^ (-2 / 3 : ℝ) * x.dw5 i j)
    + x.a * (x.d2w1acc i j - 2 / 9 * x.w5 ^ (-5 / 3 : ℝ) * x.dw5acc * x.dw5 i j
      + 1 / 3 * x.w5 ^ (-2 / 3 : ℝ) * x.d2w5acc i j)
/-- `deff_daccpstr`, lou.py:1128-1130. -/
def deffAcc : ℝ := x.ha * (x.w1 + x.w5 ^ (1 / 3 : ℝ))
  + x.a * (x.dw1acc + 1 / 3 * x.w5 ^ (-2 / 3 : ℝ) * x.dw5acc)

end LouCtx

/-- Material parameters, lou.py:360-375: elastic constants, the laws of the yield stress and of
the yield parameters, and `is_associative_hardening`. -/
structure LouParams where
  E : ℝ
  v : ℝ
  y : HardLaw
  a : HardLaw
  b : HardLaw
  c : HardLaw
  d : HardLaw
  assoc : Bool

/-- Bulk modulus, lou.py:378. -/
def LouParams.K (m : LouParams) : ℝ := m.E / (3 * (1 - 2 * m.v))
/-- `e_consistent_tangent`, lou.py:380-381, 426-427. -/
def LouParams.tangent (m : LouParams) : T4 3 := isoTensor (lamOf m.E m.v) (miuOf m.E m.v)

/-- Unknowns of the return mapping to the surface: elastic strain, accumulated plastic strain and
plastic multiplier. -/
structure LouPoint where
  e : T2 3
  acc : ℝ
  inc : ℝ

/-- Index of the residual of eight components: six components of a symmetric tensor and two
scalars. -/
abbrev LouIx := Fin 6 ⊕ Fin 2

/-- Outputs of `get_residual_and_jacobian`; `jac` is `none` when it is not finite. -/
structure LouEval where
  r1 : T2 3
  r2 : ℝ
  r3 : ℝ
  jac : Option (Matrix LouIx LouIx ℝ)

/-- `get_stress_invariants_and_derivatives` and the hardening laws, lou.py:1036-1053. -/
def louCtx (m : LouParams) (x : LouPoint) : Py LouCtx :=
  let s := ddot42_1 m.tangent x.e
  let v := louInvariants s
  (louDerivatives s).map fun g =>
    { i1 := v.i1, j2 := v.j2, j3 := v.j3, g := g
      a := (m.a x.acc).1, b := (m.b x.acc).1, c := (m.c x.acc).1, d := (m.d x.acc).1
      ha := (m.a x.acc).2, hb := (m.b x.acc).2, hc := (m.c x.acc).2, hd := (m.d x.acc).2 }

/-- `residual_1`, lou.py:1100. -/
def louR1 (eTrial : T2 3) (x : LouPoint) (flow : T2 3) : T2 3 := fun i j =>
  x.e i j - eTrial i j + x.inc * flow i j

/-- `residual_2`, lou.py:1029, 1097, 1102-1107. -/
def louR2 (assoc : Bool) (accOld : ℝ) (x : LouPoint) (flow : T2 3) : ℝ :=
  if assoc then x.acc - accOld - 1 * x.inc
  else x.acc - accOld - x.inc * √(2 / 3) * normT2 flow

/-- `residual_3`, lou.py:1109. -/
def louR3 (effective y y0 : ℝ) : ℝ := (effective - y) / y0

/-- `dr2_destrain`, lou.py:1142-1144, 1154-1156. -/
def louDr2e (assoc : Bool) (x : LouPoint) (flow : T2 3) (dflowE : T4 3) : T2 3 :=
  if assoc then 0 else fun i j =>
    -x.inc * √(2 / 3) * (1 / normT2 flow) * ddot24_1 flow dflowE i j

/-- `dr2_daccpstr`, lou.py:1147, 1159-1161. -/
def louDr2acc (assoc : Bool) (x : LouPoint) (flow dflowAcc : T2 3) : ℝ :=
  if assoc then 1 else
    1 - x.inc * √(2 / 3) * (1 / normT2 flow) * ddot22_1 flow dflowAcc

/-- `dr2_dincpm`, lou.py:1150-1151, 1164. -/
def louDr2inc (assoc : Bool) (flow : T2 3) : ℝ :=
  if assoc then -1 * 1 else -√(2 / 3) * normT2 flow

/-- The Jacobian, lou.py:1116, 1125, 1133-1200. -/
def louJacobian (m : LouParams) (x : LouPoint) (k : LouCtx) : Matrix LouIx LouIx ℝ :=
  let C := m.tangent
  let dflowE := ddot44_1 k.dflow C
  let deffE := ddot24_1 k.flow C
  let y0 := (m.y 0).1
  let hy := (m.y x.acc).2
  let dr1e : T4 3 := fun i j p q => (getIdOperators 3).fosym i j p q + x.inc * dflowE i j p q
  let dr1acc : T2 3 := fun i j => x.inc * k.dflowAcc i j
  let dr3e : T2 3 := fun i j => 1 / y0 * deffE i j
  let dr3acc := 1 / y0 * (k.deffAcc - hy)
  Matrix.fromBlocks (Matrix.of (kel66 dr1e))
    (Matrix.of fun i => ![kel6 dr1acc i, kel6 k.flow i])
    (Matrix.of ![kel6 (louDr2e m.assoc x k.flow dflowE), kel6 dr3e])
    (Matrix.of ![![louDr2acc m.assoc x k.flow k.dflowAcc, louDr2inc m.assoc k.flow],
      ![dr3acc, 0]])

/-- Every value of the residual is finite: positive radicands (they occur with negative powers)
and an initial yield stress different from zero. -/
def LouCtx.finite (k : LouCtx) (y0 : ℝ) : Prop := 0 < k.w4 ∧ 0 < k.w5 ∧ y0 ≠ 0

instance (k : LouCtx) (y0 : ℝ) : Decidable (k.finite y0) := Classical.propDecidable _

/-- The Jacobian is finite: without associative hardening it is divided by the norm of the flow
vector (1155, 1160). -/
def louJacFinite (m : LouParams) (k : LouCtx) : Prop := m.assoc = true ∨ normT2 k.flow ≠ 0

instance (m : LouParams) (k : LouCtx) : Decidable (louJacFinite m k) := Classical.propDecidable _

/-- Residuals and Jacobian from the derivatives, lou.py:1056-1202; `none` if a residual is not
finite. -/
def louAssemble (m : LouParams) (eTrial : T2 3) (accOld : ℝ) (x : LouPoint) (k : LouCtx) :
    Option LouEval :=
  if k.finite (m.y 0).1 then
    some { r1 := louR1 eTrial x k.flow
           r2 := louR2 m.assoc accOld x k.flow
           r3 := louR3 k.effective (m.y x.acc).1 (m.y 0).1
           jac := if louJacFinite m k then some (louJacobian m x k) else none }
  else none

/-- `get_residual_and_jacobian`, lou.py:962-1202. -/
def louEval (m : LouParams) (eTrial : T2 3) (accOld : ℝ) (x : LouPoint) : Py (Option LouEval) :=
  (louCtx m x).map (louAssemble m eTrial accOld x)

/-- The residual vector, lou.py:650-656. -/
def LouEval.residual (r : LouEval) : LouIx → ℝ := Sum.elim (kel6 r.r1) ![r.r2, r.r3]

/-- `conv_norm_residual`, lou.py:659-673. -/
def LouEval.convNorm (r : LouEval) (eTrial : T2 3) (accOld : ℝ) : ℝ :=
  let n1 := if normT2 eTrial < suSmall then normT2 r.r1 else normT2 r.r1 / normT2 eTrial
  let n2 := if |accOld| < suSmall then |r.r2| else |r.r2 / accOld|
  (n1 + n2 + |r.r3|) / 3

/-- `conv_diter_norm`, lou.py:710-720. -/
def louStepNorm (eTrial : T2 3) (accOld : ℝ) (d : LouIx → ℝ) : ℝ :=
  let d1 : Fin 6 → ℝ := fun i =>
    if normT2 eTrial > suSmall then d (.inl i) / normT2 eTrial else d (.inl i)
  let d2 : Fin 2 → ℝ := fun i => if |accOld| > suSmall then d (.inr i) / accOld else d (.inr i)
  √(∑ i, d1 i ^ 2 + ∑ i, d2 i ^ 2)

/-- `torch.linalg.solve`, lou.py:707; the solution is not finite if the Jacobian is not. -/
def louSolve (r : LouEval) : Py (Option (LouIx → ℝ)) :=
  match r.jac with
  | none => .ok none
  | some J => if J.det = 0 then .error .runtimeError else .ok (some (J⁻¹.mulVec (-r.residual)))

/-- Update of the unknowns, lou.py:723-731. -/
def LouPoint.add (x : LouPoint) (d : LouIx → ℝ) : LouPoint :=
  { e := fun i j => x.e i j + unkel6 (fun k => d (.inl k)) i j
    acc := x.acc + d (.inr 0)
    inc := x.inc + d (.inr 1) }

/-- The loop `while True`, lou.py:635-731; `fuel` is `su_max_n_iterations - nr_iter`.  Unknowns
which are not finite stay so, and the loop ends without convergence. -/
def louConeLoop (m : LouParams) (eTrial : T2 3) (accOld : ℝ) :
    (fuel nrIter : ℕ) → LouPoint → ℝ → Py (Option LouPoint)
  | fuel, nrIter, x, dn =>
    (louEval m eTrial accOld x).bind fun r =>
      match r with
      | none => .ok none
      | some r =>
        if r.convNorm eTrial accOld < suTol ∧ dn < suTol ∧ nrIter > 0 then .ok (some x)
        else match fuel with
          | 0 => .ok none
          | fuel + 1 => (louSolve r).bind fun d =>
            match d with
            | none => .ok none
            | some d =>
              louConeLoop m eTrial accOld fuel (nrIter + 1) (x.add d) (louStepNorm eTrial accOld d)

/-- `alpha`, lou.py:480-485, 501-506; `none` if it is not finite. -/
def louAlpha (a0 b0 : ℝ) : Option ℝ :=
  let etay := 3 * a0 * b0
  let q := 1 - 1 / 3 * etay ^ 2
  if q < 0 ∨ etay = 0 then none else some (2 * √3 / 3 * √q / etay)

/-- One evaluation of the return mapping to the apex, lou.py:539-553, 592; `none` if it is not
finite. -/
def louApexEval (m : LouParams) (alpha pTrial accOld x : ℝ) : Option NewtonEval :=
  let acc := accOld + alpha * x
  if 3 * (m.a acc).1 * (m.b acc).1 = 0 then none
  else
    let beta := 1 / (3 * (m.a acc).1 * (m.b acc).1)
    some { residual := (m.y acc).1 * beta - (pTrial - m.K * x)
           scale := (m.y acc).1
           jacobian := alpha * beta * (m.y acc).2 + m.K }

/-- `conv_norm_res`, lou.py:556-560. -/
def louApexNorm (e : NewtonEval) : ℝ :=
  if |e.scale| < suSmall then |e.residual| else |e.residual| / |e.scale|

/-- `conv_diter_norm` of the return to the apex, lou.py:597-600. -/
def louApexStepNorm (accOld d : ℝ) : ℝ := |if |accOld| > suSmall then d / accOld else d|

/-- The loop `while True`, lou.py:537-603. -/
def louApexLoop (f : ℝ → Option NewtonEval) (accOld : ℝ) :
    (fuel nrIter : ℕ) → (x dn : ℝ) → Option ℝ
  | fuel, nrIter, x, dn =>
    match f x with
    | none => none
    | some e =>
      if louApexNorm e < suTol ∧ dn < suTol ∧ nrIter > 0 then some x
      else match fuel with
        | 0 => none
        | fuel + 1 =>
          if e.jacobian = 0 then none
          else
            let d := -e.residual / e.jacobian
            louApexLoop f accOld fuel (nrIter + 1) (x + d) (louApexStepNorm accOld d)

/-- `yield_function/yield_stress <= su_conv_tol`, lou.py:457-463. -/
def louElastic (effective : Option ℝ) (y : ℝ) : Prop :=
  ∃ q, effective = some q ∧ ((y ≠ 0 ∧ (q - y) / y ≤ suTol) ∨ (y = 0 ∧ q - y < 0))

instance (effective : Option ℝ) (y : ℝ) : Decidable (louElastic effective y) :=
  Classical.propDecidable _

/-- `is_apex_return`, lou.py:350, 488-495; `pressure_apex` is infinite or NaN for `yield_a = 0`. -/
def louApexReturn (pTrial a b y : ℝ) : Prop :=
  if a = 0 then y < 0
  else pTrial > (1 - 0.05) * (1 / (3 * a * max |b| 1e-6) * y)

instance (pTrial a b y : ℝ) : Decidable (louApexReturn pTrial a b y) := Classical.propDecidable _

/-- 3D result of the return mapping. -/
structure LouReturn where
  eStrain : V6
  stress : V6
  acc : ℝ
  isPlast : Bool

/-- Result of a plastic step for an elastic strain, lou.py:734-738. -/
def louPlasticResult (m : LouParams) (e : T2 3) (acc : ℝ) : LouReturn :=
  { eStrain := kel6 e, stress := mv6 (kel66 m.tangent) (kel6 e), acc := acc, isPlast := true }

/-- Return to the apex, lou.py:498-612. -/
def louApex (m : LouParams) (pTrial accOld : ℝ) : Option LouReturn :=
  (louAlpha (m.a 0).1 (m.b 0).1).bind fun alpha =>
    (louApexLoop (louApexEval m alpha pTrial accOld) accOld suMaxIter 0 0 0).map fun x =>
      let pressure := pTrial - m.K * x
      louPlasticResult m (fun i j => 1 / (3 * m.K) * pressure * (getIdOperators 3).soid i j)
        (accOld + alpha * x)

/-- Return to the surface, lou.py:613-731. -/
def louCone (m : LouParams) (eTrial : T2 3) (accOld : ℝ) : Py (Option LouReturn) :=
  (louConeLoop m eTrial accOld suMaxIter 0 ⟨eTrial, accOld, 0⟩ 0).map fun r =>
    r.map fun x => louPlasticResult m x.e x.acc

/-- The 3D part of `state_update`, lou.py:433-752; `none` is a state update failure. -/
def louReturn (m : LouParams) (eTrial : V6) (accOld : ℝ) : Py (Option LouReturn) :=
  let trialMf := mv6 (kel66 m.tangent) eTrial
  let trial := unkel6 trialMf
  let y := (m.y accOld).1
  let a := (m.a accOld).1
  let b := (m.b accOld).1
  let c := (m.c accOld).1
  let d := (m.d accOld).1
  if louElastic (louEffective trial a b c d) y then
    .ok (some { eStrain := eTrial, stress := trialMf, acc := accOld, isPlast := false })
  else
    let pTrial := 1 / 3 * ∑ i, trial i i
    if louApexReturn pTrial a b y then .ok (louApex m pTrial accOld)
    else louCone m (unkel6 eTrial) accOld

/-- New state variables, lou.py:755-787. -/
def louState (p : PType) (eTrial : V6) (pOld : Vmf p) : Option LouReturn → VMVars p
  | none => .nan (some (to2D p eTrial + pOld))
  | some r => .good { eStrain := to2D p r.eStrain, strain := to2D p eTrial + pOld
                      stress := to2D p r.stress, acc := r.acc, isPlast := r.isPlast
                      isSuFail := false, e33 := get33 p r.eStrain, s33 := get33 p r.stress }

/-- `state_update`, lou.py:306-812; the returned tangent is always `None` (794). -/
def louUpdate (p : PType) (m : LouParams) (inc : T2 p.dim) (old : VMState p) : Py (VMVars p) :=
  let eTrial := to3D p old.eStrain old.e33 + to3D p (mf p inc) 0
  (louReturn m eTrial old.acc).map (louState p eTrial (old.strain - old.eStrain))

/-- `state_update` of any state variables; with NaN state variables every comparison is false, so
that the loop of the return to the surface ends in a failure with NaN everywhere. -/
def louStep (p : PType) (m : LouParams) (st : VMVars p) (inc : T2 p.dim) : Py (VMVars p) :=
  match st with
  | .good s => louUpdate p m inc s
  | .nan _ => .ok (.nan none)

/-- Repeated `state_update` from the initial state (`state_init`, lou.py:231-304, is that of the
von Mises model). -/
def louRun (p : PType) (m : LouParams) (incs : List (T2 p.dim)) : Py (VMVars p) :=
  incs.foldlM (louStep p m) (.good (vmInit p))

end Hooke
