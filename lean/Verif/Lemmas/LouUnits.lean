import Verif.Spec.LouUnits
import Verif.Lemmas.Units

/-!
# The Lou-Zhang-Yoon model with stresses in another unit
-/

noncomputable section

namespace Hooke

open Spec

/-- The derivatives of the stress invariants in another unit. -/
def unitGrad (k : ℝ) (g : LouGrad) : LouGrad where
  di1 := g.di1
  dj2 := fun i j => k * g.dj2 i j
  dj3 := fun i j => k ^ 2 * g.dj3 i j
  d2j2 := g.d2j2
  d2j3 := fun i j p q => k * g.d2j3 i j p q

/-- The context in another unit. -/
def unitCtx (k : ℝ) (x : LouCtx) : LouCtx :=
  { x with i1 := k * x.i1, j2 := k ^ 2 * x.j2, j3 := k ^ 3 * x.j3, g := unitGrad k x.g }

variable {k : ℝ}

theorem pow_rpow_eq (hk : 0 < k) {n m : ℕ} {e : ℝ} (h : (n : ℝ) * e = m) : (k ^ n) ^ e = k ^ m := by
  rw [← Real.rpow_natCast, ← Real.rpow_mul hk.le, h, Real.rpow_natCast]

theorem pow_rpow_neg (hk : 0 < k) {n m : ℕ} {e : ℝ} (h : (n : ℝ) * e = -m) : (k ^ n) ^ e = (k ^ m)⁻¹ := by
  rw [← Real.rpow_natCast, ← Real.rpow_mul hk.le, h, Real.rpow_neg hk.le, Real.rpow_natCast]

section ctx
variable (hk : 0 < k) (x : LouCtx)
include hk

omit hk in
theorem unit_w1 : (unitCtx k x).w1 = k * x.w1 := by
  simp only [LouCtx.w1, unitCtx]; ring

omit hk in
theorem unit_w4 : (unitCtx k x).w4 = k ^ 6 * x.w4 := by
  simp only [LouCtx.w4, unitCtx]; ring

theorem unit_w4_half (h4 : 0 < x.w4) : (unitCtx k x).w4 ^ (1 / 2 : ℝ) = k ^ 3 * x.w4 ^ (1 / 2 : ℝ) := by
  rw [unit_w4, Real.mul_rpow (by positivity) h4.le, pow_rpow_eq (m := 3) hk (by norm_num)]

theorem unit_w4_mhalf (h4 : 0 < x.w4) :
    (unitCtx k x).w4 ^ (-1 / 2 : ℝ) = (k ^ 3)⁻¹ * x.w4 ^ (-1 / 2 : ℝ) := by
  rw [unit_w4, Real.mul_rpow (by positivity) h4.le, pow_rpow_neg (m := 3) hk (by norm_num)]

theorem unit_w4_m3half (h4 : 0 < x.w4) :
    (unitCtx k x).w4 ^ (-3 / 2 : ℝ) = (k ^ 9)⁻¹ * x.w4 ^ (-3 / 2 : ℝ) := by
  rw [unit_w4, Real.mul_rpow (by positivity) h4.le, pow_rpow_neg (m := 9) hk (by norm_num)]

theorem unit_w5 (h4 : 0 < x.w4) : (unitCtx k x).w5 = k ^ 3 * x.w5 := by
  unfold LouCtx.w5
  rw [unit_w4_half hk x h4]
  simp only [unitCtx]
  ring

theorem unit_w5_third (h4 : 0 < x.w4) (h5 : 0 < x.w5) :
    (unitCtx k x).w5 ^ (1 / 3 : ℝ) = k * x.w5 ^ (1 / 3 : ℝ) := by
  rw [unit_w5 hk x h4, Real.mul_rpow (by positivity) h5.le, pow_rpow_eq (m := 1) hk (by norm_num), pow_one]

theorem unit_w5_m2 (h4 : 0 < x.w4) (h5 : 0 < x.w5) :
    (unitCtx k x).w5 ^ (-2 / 3 : ℝ) = (k ^ 2)⁻¹ * x.w5 ^ (-2 / 3 : ℝ) := by
  rw [unit_w5 hk x h4, Real.mul_rpow (by positivity) h5.le, pow_rpow_neg (m := 2) hk (by norm_num)]

theorem unit_w5_m5 (h4 : 0 < x.w4) (h5 : 0 < x.w5) :
    (unitCtx k x).w5 ^ (-5 / 3 : ℝ) = (k ^ 5)⁻¹ * x.w5 ^ (-5 / 3 : ℝ) := by
  rw [unit_w5 hk x h4, Real.mul_rpow (by positivity) h5.le, pow_rpow_neg (m := 5) hk (by norm_num)]

omit hk in
theorem unit_dw1 : (unitCtx k x).dw1 = x.dw1 := rfl

omit hk in
theorem unit_dw4 (i j : Fin 3) : (unitCtx k x).dw4 i j = k ^ 5 * x.dw4 i j := by
  simp only [LouCtx.dw4, LouCtx.dw2, unitCtx, unitGrad]; ring

theorem unit_dw5 (h4 : 0 < x.w4) (i j : Fin 3) : (unitCtx k x).dw5 i j = k ^ 2 * x.dw5 i j := by
  have := hk.ne'
  unfold LouCtx.dw5
  rw [unit_w4_mhalf hk x h4, unit_dw4]
  simp only [LouCtx.dw3, unitCtx, unitGrad]
  field_simp

omit hk in
theorem unit_d2w4 (i j p q : Fin 3) : (unitCtx k x).d2w4 i j p q = k ^ 4 * x.d2w4 i j p q := by
  simp only [LouCtx.d2w4, LouCtx.d2w2, unitCtx, unitGrad, dyad22_1]; ring

theorem unit_d2w5 (h4 : 0 < x.w4) (i j p q : Fin 3) : (unitCtx k x).d2w5 i j p q = k * x.d2w5 i j p q := by
  have := hk.ne'
  unfold LouCtx.d2w5
  rw [unit_w4_mhalf hk x h4, unit_w4_m3half hk x h4, unit_d2w4]
  simp only [dyad22_1, unit_dw4]
  simp only [LouCtx.d2w3, unitCtx, unitGrad]
  field_simp

omit hk in
theorem unit_dw4acc : (unitCtx k x).dw4acc = k ^ 6 * x.dw4acc := by
  simp only [LouCtx.dw4acc, unitCtx]; ring

theorem unit_dw5acc (h4 : 0 < x.w4) : (unitCtx k x).dw5acc = k ^ 3 * x.dw5acc := by
  have := hk.ne'
  unfold LouCtx.dw5acc
  rw [unit_w4_mhalf hk x h4, unit_dw4acc]
  simp only [unitCtx]
  field_simp

omit hk in
theorem unit_d2w4acc (i j : Fin 3) : (unitCtx k x).d2w4acc i j = k ^ 5 * x.d2w4acc i j := by
  simp only [LouCtx.d2w4acc, unitCtx, unitGrad]; ring

theorem unit_d2w5acc (h4 : 0 < x.w4) (i j : Fin 3) : (unitCtx k x).d2w5acc i j = k ^ 2 * x.d2w5acc i j := by
  have := hk.ne'
  unfold LouCtx.d2w5acc
  rw [unit_w4_mhalf hk x h4, unit_w4_m3half hk x h4, unit_dw4acc, unit_dw4, unit_d2w4acc]
  simp only [unitCtx, unitGrad]
  field_simp

theorem unit_effective (h4 : 0 < x.w4) (h5 : 0 < x.w5) : (unitCtx k x).effective = k * x.effective := by
  unfold LouCtx.effective
  rw [unit_w1, unit_w5_third hk x h4 h5]
  simp only [unitCtx]
  ring

theorem unit_flow (h4 : 0 < x.w4) (h5 : 0 < x.w5) : (unitCtx k x).flow = x.flow := by
  have := hk.ne'
  funext i j
  unfold LouCtx.flow
  rw [unit_w5_m2 hk x h4 h5, unit_dw5 hk x h4, unit_dw1]
  simp only [unitCtx]
  field_simp

theorem unit_dflow (h4 : 0 < x.w4) (h5 : 0 < x.w5) (i j p q : Fin 3) :
    (unitCtx k x).dflow i j p q = k⁻¹ * x.dflow i j p q := by
  have := hk.ne'
  unfold LouCtx.dflow
  rw [unit_w5_m2 hk x h4 h5, unit_w5_m5 hk x h4 h5, unit_d2w5 hk x h4]
  simp only [dyad22_1, unit_dw5 hk x h4]
  simp only [unitCtx]
  field_simp

theorem unit_dflowAcc (h4 : 0 < x.w4) (h5 : 0 < x.w5) : (unitCtx k x).dflowAcc = x.dflowAcc := by
  have := hk.ne'
  funext i j
  unfold LouCtx.dflowAcc
  rw [unit_w5_m2 hk x h4 h5, unit_w5_m5 hk x h4 h5, unit_dw5 hk x h4, unit_dw1, unit_dw5acc hk x h4,
    unit_d2w5acc hk x h4]
  simp only [LouCtx.d2w1acc, unitCtx]
  field_simp

theorem unit_deffAcc (h4 : 0 < x.w4) (h5 : 0 < x.w5) : (unitCtx k x).deffAcc = k * x.deffAcc := by
  have := hk.ne'
  unfold LouCtx.deffAcc
  rw [unit_w5_m2 hk x h4 h5, unit_w5_third hk x h4 h5, unit_w1, unit_dw5acc hk x h4]
  simp only [LouCtx.dw1acc, unitCtx]
  field_simp

theorem unit_finite (y0 : ℝ) : (unitCtx k x).finite (k * y0) ↔ x.finite y0 := by
  unfold LouCtx.finite
  rw [unit_w4]
  have h6 : 0 < k ^ 6 := by positivity
  have h3 : 0 < k ^ 3 := by positivity
  constructor
  · rintro ⟨h4, h5, h0⟩
    have h4 := (mul_pos_iff_of_pos_left h6).1 h4
    rw [unit_w5 hk x h4] at h5
    exact ⟨h4, (mul_pos_iff_of_pos_left h3).1 h5, right_ne_zero_of_mul h0⟩
  · rintro ⟨h4, h5, h0⟩
    rw [unit_w5 hk x h4]
    exact ⟨mul_pos h6 h4, mul_pos h3 h5, mul_ne_zero hk.ne' h0⟩

end ctx

/-! ## Invariants, residuals and return mappings -/

theorem unit_K (m : LouParams) : (unitLou k m).K = k * m.K := by
  simp only [LouParams.K, unitLou, mul_div_assoc]

theorem unit_tangent (m : LouParams) :
    (unitLou k m).tangent = fun a b c d => k * m.tangent a b c d := by
  funext a b c d
  simp only [LouParams.tangent, unitLou, lamOf_mul, miuOf_mul, isoTensor_mul]

theorem unit_stress (m : LouParams) (e : T2 3) :
    ddot42_1 (unitLou k m).tangent e = fun i j => k * ddot42_1 m.tangent e i j := by
  funext i j
  simp only [unit_tangent, ddot42_1, Finset.mul_sum, mul_assoc]

theorem det_mul3 (s : T2 3) :
    Matrix.det (Matrix.of fun i j => k * s i j) = k ^ 3 * Matrix.det (Matrix.of s) := by
  have : (Matrix.of fun i j => k * s i j) = k • Matrix.of s := rfl
  rw [this, Matrix.det_smul, Fintype.card_fin]

theorem unit_invariants (s : T2 3) : louInvariants (fun i j => k * s i j) =
    ⟨k * (louInvariants s).i1, k ^ 2 * (louInvariants s).i2, k ^ 3 * (louInvariants s).i3,
      k ^ 2 * (louInvariants s).j2, k ^ 3 * (louInvariants s).j3⟩ := by
  have h1 : ∑ i, k * s i i = k * ∑ i, s i i := (Finset.mul_sum _ _ _).symm
  have h2 : ∑ i, ∑ l, k * s i l * (k * s l i) = k ^ 2 * ∑ i, ∑ l, s i l * s l i := by
    simp only [Finset.mul_sum]
    exact Finset.sum_congr rfl fun i _ => Finset.sum_congr rfl fun l _ => by ring
  simp only [louInvariants, h1, h2, det_mul3, LouInvariants.mk.injEq]
  refine ⟨trivial, ?_, trivial, ?_, ?_⟩ <;> ring

theorem unit_derivatives (hk : 0 < k) (s : T2 3) :
    louDerivatives (fun i j => k * s i j) = (louDerivatives s).map (unitGrad k) := by
  have hk0 := hk.ne'
  have hdev : ddot42_1 (getIdOperators 3).fodevprojsym (fun i j => k * s i j) =
      fun i j => k * ddot42_1 (getIdOperators 3).fodevprojsym s i j := by
    funext i j
    simp only [ddot42_1, Finset.mul_sum]
    exact Finset.sum_congr rfl fun a _ => Finset.sum_congr rfl fun b _ => by ring
  unfold louDerivatives
  rw [hdev]
  set dev := ddot42_1 (getIdOperators 3).fodevprojsym s with hd
  by_cases h0 : Matrix.det (Matrix.of dev) = 0
  · simp only [det_mul3, h0, mul_zero, raiseIf, if_true]
    rfl
  · have h0' : ¬ (k ^ 3 * Matrix.det (Matrix.of dev) = 0) := mul_ne_zero (pow_ne_zero _ hk0) h0
    have hinv : (Matrix.of fun i j => k * dev i j)⁻¹ = k⁻¹ • (Matrix.of dev)⁻¹ := by
      refine Matrix.inv_eq_right_inv ?_
      have : (Matrix.of fun i j => k * dev i j) = k • Matrix.of dev := rfl
      rw [this, Matrix.smul_mul, Matrix.mul_smul, smul_smul, mul_inv_cancel₀ hk0, one_smul]
      exact Matrix.mul_nonsing_inv _ (Ne.isUnit h0)
    have hw6 : ∀ i j, ddot24_1 (k⁻¹ • (Matrix.of dev)⁻¹ : Matrix _ _ ℝ) (getIdOperators 3).fodevprojsym i j =
        k⁻¹ * ddot24_1 ((Matrix.of dev)⁻¹ : Matrix _ _ ℝ) (getIdOperators 3).fodevprojsym i j := by
      intro i j
      simp only [ddot24_1, Matrix.smul_apply, smul_eq_mul, Finset.mul_sum, mul_assoc]
    have hdi : foDinvSym (k⁻¹ • (Matrix.of dev)⁻¹ : Matrix _ _ ℝ) =
        fun a b c d => k⁻¹ ^ 2 * foDinvSym ((Matrix.of dev)⁻¹ : Matrix _ _ ℝ) a b c d := by
      funext a b c d
      simp only [foDinvSym, Matrix.smul_apply, smul_eq_mul]
      ring
    have h44 : ∀ (c : ℝ) (A B : T4 3), ddot44_1 A (fun a b e f => c * B a b e f) =
        fun a b e f => c * ddot44_1 A B a b e f := by
      intro c A B
      funext a b e f
      simp only [ddot44_1, Finset.mul_sum]
      exact Finset.sum_congr rfl fun _ _ => Finset.sum_congr rfl fun _ _ => by ring
    have h44' : ∀ (c : ℝ) (A B : T4 3), ddot44_1 (fun a b e f => c * A a b e f) B =
        fun a b e f => c * ddot44_1 A B a b e f := by
      intro c A B
      funext a b e f
      simp only [ddot44_1, Finset.mul_sum]
      exact Finset.sum_congr rfl fun _ _ => Finset.sum_congr rfl fun _ _ => by ring
    simp only [det_mul3, raiseIf, if_neg h0, if_neg h0', hinv, hdi, h44, h44', hw6, dyad22_1]
    show Except.ok _ = Except.ok _
    simp only [unitGrad, Except.ok.injEq, LouGrad.mk.injEq, true_and]
    refine ⟨?_, ?_⟩
    · funext i j
      field_simp
    · funext i j p q
      field_simp

theorem unit_louCtx (hk : 0 < k) (m : LouParams) (x : LouPoint) :
    louCtx (unitLou k m) x = (louCtx m x).map (unitCtx k) := by
  unfold louCtx
  simp only [unit_stress, unit_derivatives hk, unit_invariants]
  cases louDerivatives (ddot42_1 m.tangent x.e) <;> rfl

theorem unit_dflowE (hk : 0 < k) (m : LouParams) (x : LouCtx) (h4 : 0 < x.w4) (h5 : 0 < x.w5) :
    ddot44_1 (unitCtx k x).dflow (unitLou k m).tangent = ddot44_1 x.dflow m.tangent := by
  have := hk.ne'
  funext a b e f
  simp only [ddot44_1, unit_tangent, unit_dflow hk x h4 h5]
  exact Finset.sum_congr rfl fun _ _ => Finset.sum_congr rfl fun _ _ => by field_simp

theorem unit_deffE (m : LouParams) (f : T2 3) (i j : Fin 3) :
    ddot24_1 f (unitLou k m).tangent i j = k * ddot24_1 f m.tangent i j := by
  simp only [ddot24_1, unit_tangent, Finset.mul_sum]
  exact Finset.sum_congr rfl fun _ _ => Finset.sum_congr rfl fun _ _ => by ring

theorem unit_r3 (hk : 0 < k) (q y y0 : ℝ) : louR3 (k * q) (k * y) (k * y0) = louR3 q y y0 := by
  unfold louR3
  rw [← mul_sub, mul_div_mul_left _ _ hk.ne']

theorem unit_jacobian (hk : 0 < k) (m : LouParams) (p : LouPoint) (x : LouCtx) (h4 : 0 < x.w4)
    (h5 : 0 < x.w5) : louJacobian (unitLou k m) p (unitCtx k x) = louJacobian m p x := by
  have hk0 := hk.ne'
  have e1 : ∀ y0 z : ℝ, 1 / (k * y0) * (k * z) = 1 / y0 * z := by
    intro y0 z
    rw [one_div, mul_inv, one_div]
    field_simp
  unfold louJacobian
  simp only [unit_dflowE hk m x h4 h5, unit_deffE, unit_flow hk x h4 h5, unit_dflowAcc hk x h4 h5,
    unit_deffAcc hk x h4 h5]
  simp only [unitLou, unitLaw, ← mul_sub, e1]

theorem unit_vmapJacobian (hk : 0 < k) (m : LouParams) (fixed : Bool) (p : LouPoint) (x : LouCtx)
    (h4 : 0 < x.w4) (h5 : 0 < x.w5) :
    louVmapJacobian (unitLou k m) fixed p (unitCtx k x) = louVmapJacobian m fixed p x := by
  have hk0 := hk.ne'
  have e1 : ∀ y0 z : ℝ, 1 / (k * y0) * (k * z) = 1 / y0 * z := by
    intro y0 z
    rw [one_div, mul_inv, one_div]
    field_simp
  have e2 : ∀ y0 z : ℝ, -(k * z) / (k * y0) = -z / y0 := by
    intro y0 z
    rw [← mul_neg, mul_div_mul_left _ _ hk0]
  unfold louVmapJacobian
  simp only [unit_dflowE hk m x h4 h5, unit_deffE, unit_flow hk x h4 h5, unit_dflowAcc hk x h4 h5,
    unit_deffAcc hk x h4 h5]
  simp only [unitLou, unitLaw, ← mul_sub, e1, e2]

theorem unit_assemble (hk : 0 < k) (m : LouParams) (eTrial : T2 3) (accOld : ℝ) (p : LouPoint) (x : LouCtx) :
    louAssemble (unitLou k m) eTrial accOld p (unitCtx k x) = louAssemble m eTrial accOld p x := by
  unfold louAssemble
  have hf : (unitCtx k x).finite ((unitLou k m).y 0).1 ↔ x.finite (m.y 0).1 := unit_finite hk x _
  by_cases h : x.finite (m.y 0).1
  · obtain ⟨h4, h5, -⟩ := id h
    rw [if_pos h, if_pos (hf.2 h), unit_flow hk x h4 h5, unit_effective hk x h4 h5,
      unit_jacobian hk m p x h4 h5]
    have hj : louJacFinite (unitLou k m) (unitCtx k x) ↔ louJacFinite m x := by
      unfold louJacFinite
      rw [unit_flow hk x h4 h5]
      rfl
    have h3 : louR3 (k * x.effective) ((unitLou k m).y p.acc).1 ((unitLou k m).y 0).1 =
        louR3 x.effective (m.y p.acc).1 (m.y 0).1 := unit_r3 hk _ _ _
    simp only [hj, h3]
    rfl
  · rw [if_neg h, if_neg (fun hc => h (hf.1 hc))]

theorem unit_eval (hk : 0 < k) (m : LouParams) (eTrial : T2 3) (accOld : ℝ) (p : LouPoint) :
    louEval (unitLou k m) eTrial accOld p = louEval m eTrial accOld p := by
  unfold louEval
  rw [unit_louCtx hk]
  cases louCtx m p with
  | error e => rfl
  | ok x => exact congrArg Except.ok (unit_assemble hk m eTrial accOld p x)

theorem unit_vmapEval (hk : 0 < k) (m : LouParams) (fixed : Bool) (eTrial : T2 3) (accOld : ℝ) (p : LouPoint) :
    louVmapEval (unitLou k m) fixed eTrial accOld p = louVmapEval m fixed eTrial accOld p := by
  unfold louVmapEval
  rw [unit_louCtx hk]
  cases louCtx m p with
  | error e => rfl
  | ok x =>
    refine congrArg Except.ok ?_
    beta_reduce
    have hf : (unitCtx k x).finite ((unitLou k m).y 0).1 ↔ x.finite (m.y 0).1 := unit_finite hk x _
    by_cases h : x.finite (m.y 0).1
    · obtain ⟨h4, h5, -⟩ := id h
      rw [if_pos h, if_pos (hf.2 h), unit_flow hk x h4 h5, unit_effective hk x h4 h5,
        unit_vmapJacobian hk m fixed p x h4 h5]
      have hj : louJacFinite (unitLou k m) (unitCtx k x) ↔ louJacFinite m x := by
        unfold louJacFinite
        rw [unit_flow hk x h4 h5]
        rfl
      have h3 : louR3 (k * x.effective) ((unitLou k m).y p.acc).1 ((unitLou k m).y 0).1 =
          louR3 x.effective (m.y p.acc).1 (m.y 0).1 := unit_r3 hk _ _ _
      simp only [hj, h3]
      rfl
    · rw [if_neg h, if_neg (fun hc => h (hf.1 hc))]

theorem unit_coneLoop (hk : 0 < k) (m : LouParams) (eTrial : T2 3) (accOld : ℝ) (fuel : ℕ) :
    ∀ n x dn, louConeLoop (unitLou k m) eTrial accOld fuel n x dn = louConeLoop m eTrial accOld fuel n x dn := by
  induction fuel with
  | zero =>
    intro n x dn
    unfold louConeLoop
    rw [unit_eval hk]
  | succ fuel ih =>
    intro n x dn
    unfold louConeLoop
    rw [unit_eval hk]
    simp only [ih]

theorem unit_coneStep (hk : 0 < k) (m : LouParams) (fixed : Bool) (eTrial : T2 3) (accOld : ℝ) (avoid : Bool) :
    louVmapConeStep (unitLou k m) fixed eTrial accOld avoid = louVmapConeStep m fixed eTrial accOld avoid := by
  funext s n
  unfold louVmapConeStep
  simp only [unit_vmapEval hk]

/-- A return mapping of the Lou-Zhang-Yoon model in another unit. -/
def unitLouReturn (k : ℝ) (r : LouReturn) : LouReturn := { r with stress := fun i => k * r.stress i }

theorem unit_mv6 (m : LouParams) (e : V6) :
    mv6 (kel66 (unitLou k m).tangent) e = fun i => k * mv6 (kel66 m.tangent) e i := by
  simp only [LouParams.tangent, unitLou, mv6_iso, lamOf_mul, miuOf_mul, hooke6_mul]

theorem unit_plasticResult (m : LouParams) (e : T2 3) (acc : ℝ) :
    louPlasticResult (unitLou k m) e acc = unitLouReturn k (louPlasticResult m e acc) := by
  simp only [louPlasticResult, unitLouReturn, unit_mv6]

theorem unit_fpow {n : ℕ} {w e : ℝ} {c : ℝ} (hk : 0 < k) (hc : (k ^ n) ^ e = c) :
    fpow (k ^ n * w) e = (fpow w e).map fun r => c * r := by
  have hp : 0 < k ^ n := by positivity
  unfold fpow
  have h1 : k ^ n * w < 0 ↔ w < 0 := by
    constructor
    · intro h
      by_contra hw
      exact absurd h (not_lt.2 (mul_nonneg hp.le (not_lt.1 hw)))
    · exact fun h => mul_neg_of_pos_of_neg hp h
  have h2 : k ^ n * w = 0 ↔ w = 0 := by simp [hp.ne']
  simp only [h1, h2]
  split
  · rfl
  · rename_i h
    have hw : 0 ≤ w := not_lt.1 fun hc => h (.inl hc)
    rw [Real.mul_rpow hp.le hw, hc]
    rfl

theorem unit_louEffective (hk : 0 < k) (s : T2 3) (a b c d : ℝ) :
    louEffective (fun i j => k * s i j) a b c d = (louEffective s a b c d).map fun q => k * q := by
  unfold louEffective
  simp only [unit_invariants]
  set v := louInvariants s
  have e1 : (k ^ 2 * v.j2) ^ 3 - c * (k ^ 3 * v.j3) ^ 2 = k ^ 6 * (v.j2 ^ 3 - c * v.j3 ^ 2) := by ring
  rw [e1, unit_fpow (c := k ^ 3) hk (pow_rpow_eq hk (by norm_num))]
  cases fpow (v.j2 ^ 3 - c * v.j3 ^ 2) (1 / 2) with
  | none => rfl
  | some r =>
    have e2 : k ^ 3 * r - d * (k ^ 3 * v.j3) = k ^ 3 * (r - d * v.j3) := by ring
    simp only [Option.map_some, Option.bind_some, e2]
    rw [unit_fpow (c := k) hk (by rw [pow_rpow_eq (m := 1) hk (by norm_num), pow_one])]
    cases fpow (r - d * v.j3) (1 / 3) with
    | none => rfl
    | some q =>
      simp only [Option.map_some, Option.some.injEq]
      ring

theorem unit_louElastic (hk : 0 < k) (q : Option ℝ) (y : ℝ) :
    louElastic (q.map fun q => k * q) (k * y) ↔ louElastic q y := by
  have hk0 := hk.ne'
  have hlt : ∀ q : ℝ, k * q - k * y < 0 ↔ q - y < 0 := by
    intro q
    rw [← mul_sub]
    constructor
    · intro h
      by_contra hw
      exact absurd h (not_lt.2 (mul_nonneg hk.le (not_lt.1 hw)))
    · exact fun h => mul_neg_of_pos_of_neg hk h
  unfold louElastic
  cases q with
  | none => simp
  | some q =>
    simp only [Option.map_some, Option.some.injEq, exists_eq_left', ne_eq, mul_eq_zero, hk0, false_or, hlt]
    rw [← mul_sub, mul_div_mul_left _ _ hk0]

theorem unit_apexReturn (hk : 0 < k) (pT a b y : ℝ) :
    louApexReturn (k * pT) a b (k * y) ↔ louApexReturn pT a b y := by
  unfold louApexReturn
  split
  · constructor
    · intro h
      by_contra hw
      exact absurd h (not_lt.2 (mul_nonneg hk.le (not_lt.1 hw)))
    · exact fun h => mul_neg_of_pos_of_neg hk h
  · rw [show (1 - 0.05) * (1 / (3 * a * max |b| 1e-6) * (k * y)) =
      k * ((1 - 0.05) * (1 / (3 * a * max |b| 1e-6) * y)) by ring]
    exact mul_lt_mul_iff_right₀ hk

theorem unit_apexNorm (hk : 0 < k) (e : NewtonEval) (h1 : suSmall ≤ |e.scale|) (h2 : suSmall ≤ |k * e.scale|) :
    louApexNorm ⟨k * e.residual, k * e.scale, k * e.jacobian⟩ = louApexNorm e := by
  unfold louApexNorm
  rw [if_neg (not_lt.2 h1), if_neg (not_lt.2 h2), abs_mul, abs_mul, mul_div_mul_left _ _ (abs_pos.2 hk.ne').ne']

/-- The function of the iterations in another unit. -/
def UnitEval (k : ℝ) (f f' : ℝ → Option NewtonEval) : Prop :=
  (∀ x, f' x = (f x).map fun e => ⟨k * e.residual, k * e.scale, k * e.jacobian⟩) ∧
    ∀ x e, f x = some e → suSmall ≤ |e.scale| ∧ suSmall ≤ |k * e.scale|

theorem unit_apexLoop (hk : 0 < k) {f f' : ℝ → Option NewtonEval} (h : UnitEval k f f') (accOld : ℝ) (fuel : ℕ) :
    ∀ n x dn, louApexLoop f' accOld fuel n x dn = louApexLoop f accOld fuel n x dn := by
  have hk0 := hk.ne'
  induction fuel with
  | zero =>
    intro n x dn
    unfold louApexLoop
    rw [h.1]
    cases hf : f x with
    | none => rfl
    | some e =>
      obtain ⟨h1, h2⟩ := h.2 x e hf
      simp only [Option.map_some, unit_apexNorm hk e h1 h2]
  | succ fuel ih =>
    intro n x dn
    unfold louApexLoop
    rw [h.1]
    cases hf : f x with
    | none => rfl
    | some e =>
      obtain ⟨h1, h2⟩ := h.2 x e hf
      have hr : -(k * e.residual) / (k * e.jacobian) = -e.residual / e.jacobian := by
        rw [← mul_neg, mul_div_mul_left _ _ hk0]
      simp only [Option.map_some, unit_apexNorm hk e h1 h2, mul_eq_zero, hk0, false_or, hr, ih]

theorem unit_apexStep (hk : 0 < k) {f f' : ℝ → Option NewtonEval} (h : UnitEval k f f') (accOld : ℝ) :
    louVmapApexStep f' accOld = louVmapApexStep f accOld := by
  have hk0 := hk.ne'
  funext s n
  unfold louVmapApexStep
  rcases s with ⟨_ | ⟨x, dn⟩, c⟩
  · rfl
  · simp only [h.1]
    cases hf : f x with
    | none => rfl
    | some e =>
      obtain ⟨h1, h2⟩ := h.2 x e hf
      have hr : -(k * e.residual) / (k * e.jacobian) = -e.residual / e.jacobian := by
        rw [← mul_neg, mul_div_mul_left _ _ hk0]
      simp only [Option.map_some, unit_apexNorm hk e h1 h2, louVmapApexAdvance, mul_eq_zero, hk0, false_or, hr]

theorem wellAbove_small {y : ℝ} (h : WellAbove k y) : suSmall ≤ |y| ∧ suSmall ≤ |k * y| := by
  have hs : suSmall = 1e-8 := rfl
  exact ⟨le_trans (by rw [hs]; linarith [h.1]) (le_abs_self _),
    le_trans (by rw [hs]; linarith [h.2]) (le_abs_self _)⟩

theorem unit_apexEval (m : LouParams) (hw : ∀ x, WellAbove k (m.y x).1) (alpha pT accOld : ℝ) :
    UnitEval k (louApexEval m alpha pT accOld) (louApexEval (unitLou k m) alpha (k * pT) accOld) := by
  constructor
  · intro x
    unfold louApexEval
    simp only [unit_K]
    by_cases h0 : 3 * (m.a (accOld + alpha * x)).1 * (m.b (accOld + alpha * x)).1 = 0
    · have h0' : 3 * ((unitLou k m).a (accOld + alpha * x)).1 * ((unitLou k m).b (accOld + alpha * x)).1 = 0 := h0
      rw [if_pos h0, if_pos h0']
      rfl
    · have h0' : ¬ (3 * ((unitLou k m).a (accOld + alpha * x)).1 * ((unitLou k m).b (accOld + alpha * x)).1 = 0) := h0
      rw [if_neg h0, if_neg h0']
      simp only [unitLou, unitLaw, Option.map_some, Option.some.injEq, NewtonEval.mk.injEq, true_and]
      constructor <;> ring
  · intro x e h
    unfold louApexEval at h
    simp only at h
    split at h
    · cases h
    · cases h
      exact wellAbove_small (hw _)

theorem unit_vmapApexEval (m : LouParams) (hw : ∀ x, WellAbove k (m.y x).1) (alpha pT accOld : ℝ) :
    UnitEval k (louVmapApexEval m alpha pT accOld) (louVmapApexEval (unitLou k m) alpha (k * pT) accOld) := by
  constructor
  · intro x
    unfold louVmapApexEval
    simp only [unit_K]
    by_cases h0 : (m.a (accOld + alpha * x)).1 = 0
    · have h0' : ((unitLou k m).a (accOld + alpha * x)).1 = 0 := h0
      rw [if_pos h0, if_pos h0']
      rfl
    · have h0' : ¬ (((unitLou k m).a (accOld + alpha * x)).1 = 0) := h0
      rw [if_neg h0, if_neg h0']
      simp only [unitLou, unitLaw, Option.map_some, Option.some.injEq, NewtonEval.mk.injEq, true_and]
      constructor <;> ring
  · intro x e h
    unfold louVmapApexEval at h
    simp only at h
    split at h
    · cases h
    · cases h
      exact wellAbove_small (hw _)

theorem unit_pressure (hk : 0 < k) (K pT x : ℝ) : 1 / (3 * (k * K)) * (k * pT - k * K * x) =
    1 / (3 * K) * (pT - K * x) := by
  have hk0 := hk.ne'
  rw [show k * pT - k * K * x = k * (pT - K * x) by ring, show 3 * (k * K) = k * (3 * K) by ring, one_div,
    mul_inv, one_div]
  field_simp

theorem unit_apex (hk : 0 < k) (m : LouParams) (hw : ∀ x, WellAbove k (m.y x).1) (pT accOld : ℝ) :
    louApex (unitLou k m) (k * pT) accOld = (louApex m pT accOld).map (unitLouReturn k) := by
  unfold louApex
  show (louAlpha (m.a 0).1 (m.b 0).1).bind _ = _
  cases louAlpha (m.a 0).1 (m.b 0).1 with
  | none => rfl
  | some alpha =>
    simp only [Option.bind_some, unit_apexLoop hk (unit_apexEval m hw alpha pT accOld), unit_K,
      unit_pressure hk, unit_plasticResult, Option.map_map]
    rfl

theorem unit_vmapApex (hk : 0 < k) (m : LouParams) (hw : ∀ x, WellAbove k (m.y x).1) (pT accOld : ℝ) :
    louVmapApex (unitLou k m) (k * pT) accOld = (louVmapApex m pT accOld).map (unitLouReturn k) := by
  unfold louVmapApex
  show (louVmapAlpha (m.a 0).1 (m.b 0).1).bind _ = _
  cases louVmapAlpha (m.a 0).1 (m.b 0).1 with
  | none => rfl
  | some alpha =>
    simp only [Option.bind_some, unit_apexStep hk (unit_vmapApexEval m hw alpha pT accOld), unit_K,
      unit_pressure hk]
    split
    · rw [Option.map_map]
      refine congrArg (fun f => Option.map f _) ?_
      funext x
      simp only [Function.comp_apply, unitLouReturn, LouReturn.mk.injEq, true_and, and_true]
      funext i
      ring
    · rfl

theorem unit_unkel6 (x : V6) : unkel6 (fun i => k * x i) = fun i j => k * unkel6 x i j := by
  funext i j
  simp only [unkel6]
  ring

theorem unit_louReturn (hk : 0 < k) (m : LouParams) (hw : ∀ x, WellAbove k (m.y x).1) (e : V6) (accOld : ℝ) :
    louReturn (unitLou k m) e accOld = (louReturn m e accOld).map (Option.map (unitLouReturn k)) := by
  unfold louReturn
  have ht : (1 / 3 : ℝ) * ∑ i, k * unkel6 (mv6 (kel66 m.tangent) e) i i =
      k * (1 / 3 * ∑ i, unkel6 (mv6 (kel66 m.tangent) e) i i) := by
    rw [← Finset.mul_sum]
    ring
  have hy : ((unitLou k m).y accOld).1 = k * (m.y accOld).1 := rfl
  simp only [unit_mv6, unit_unkel6, unit_louEffective hk, ht, hy, unit_louElastic hk]
  have ha : (unitLou k m).a = m.a := rfl
  have hb : (unitLou k m).b = m.b := rfl
  have hc : (unitLou k m).c = m.c := rfl
  have hd : (unitLou k m).d = m.d := rfl
  simp only [ha, hb, hc, hd, unit_louElastic hk, unit_apexReturn hk, unit_apex hk m hw]
  split
  · rfl
  · split
    · rfl
    · unfold louCone
      rw [unit_coneLoop hk]
      cases louConeLoop m (unkel6 e) accOld suMaxIter 0 ⟨unkel6 e, accOld, 0⟩ 0 with
      | error e => rfl
      | ok r =>
        refine congrArg Except.ok ?_
        cases r with
        | none => rfl
        | some x => exact congrArg some (unit_plasticResult m _ _)

theorem unit_vmapCone (hk : 0 < k) (m : LouParams) (fixed : Bool) (e : T2 3) (accOld : ℝ) (avoid : Bool) :
    louVmapCone (unitLou k m) fixed e accOld avoid =
      (louVmapCone m fixed e accOld avoid).map (Option.map (unitLouReturn k)) := by
  unfold louVmapCone
  rw [unit_coneStep hk]
  cases (List.range (louVmapMaxIter + 1)).foldlM (louVmapConeStep m fixed e accOld avoid)
      (some (⟨e, accOld, 0⟩, 0), false) with
  | error e => rfl
  | ok s =>
    refine congrArg Except.ok ?_
    rcases s with ⟨_ | x, _ | _⟩
    · rfl
    · rfl
    · rfl
    · exact congrArg some (unit_plasticResult m _ _)

theorem unit_louVmapReturn (hk : 0 < k) (m : LouParams) (o : LouOptions) (hw : ∀ x, WellAbove k (m.y x).1)
    (e : V6) (accOld : ℝ) :
    louVmapReturn (unitLou k m) o e accOld = (louVmapReturn m o e accOld).map (Option.map (unitLouReturn k)) := by
  unfold louVmapReturn
  have ht : (1 / 3 : ℝ) * ∑ i, k * unkel6 (mv6 (kel66 m.tangent) e) i i =
      k * (1 / 3 * ∑ i, unkel6 (mv6 (kel66 m.tangent) e) i i) := by
    rw [← Finset.mul_sum]
    ring
  have hy : ((unitLou k m).y accOld).1 = k * (m.y accOld).1 := rfl
  have ha : (unitLou k m).a = m.a := rfl
  have hb : (unitLou k m).b = m.b := rfl
  have hc : (unitLou k m).c = m.c := rfl
  have hd : (unitLou k m).d = m.d := rfl
  simp only [unit_mv6, unit_unkel6, unit_louEffective hk, ht, hy, ha, hb, hc, hd, unit_louElastic hk,
    unit_apexReturn hk, unit_vmapApex hk m hw, unit_vmapCone hk]
  generalize louVmapCone m _ _ _ _ = c
  cases c with
  | error e => rfl
  | ok c =>
    refine congrArg Except.ok ?_
    simp only
    split
    · rfl
    · split_ifs <;> rfl

theorem unit_louState (p : PType) (e : V6) (pOld : Vmf p) (r : Option LouReturn) :
    louState p e pOld (r.map (unitLouReturn k)) = unitVMVars p k (louState p e pOld r) := by
  cases r with
  | none => rfl
  | some r =>
    simp only [Option.map_some, louState, unitLouReturn, unitVMVars, unitVM, to2D_mul, get33_mul]

theorem unit_louUpdate (hk : 0 < k) (p : PType) (m : LouParams) (hw : ∀ x, WellAbove k (m.y x).1)
    (inc : T2 p.dim) (s : VMState p) :
    louUpdate p (unitLou k m) inc (unitVM p k s) = (louUpdate p m inc s).map (unitVMVars p k) := by
  unfold louUpdate
  simp only [unitVM, unit_louReturn hk m hw]
  generalize louReturn m _ _ = r
  cases r with
  | error e => rfl
  | ok r => exact congrArg Except.ok (unit_louState p _ _ r)

theorem unit_louVmapUpdate (hk : 0 < k) (p : PType) (m : LouParams) (o : LouOptions)
    (hw : ∀ x, WellAbove k (m.y x).1) (inc : T2 p.dim) (s : VMState p) :
    louVmapUpdate p (unitLou k m) o inc (unitVM p k s) = (louVmapUpdate p m o inc s).map (unitVMVars p k) := by
  unfold louVmapUpdate
  simp only [unitVM, unit_louVmapReturn hk m o hw]
  generalize louVmapReturn m _ _ _ = r
  cases r with
  | error e => rfl
  | ok r => exact congrArg Except.ok (unit_louState p _ _ r)

end Hooke
