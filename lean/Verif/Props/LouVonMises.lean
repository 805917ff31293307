import Verif.Lemmas.LouRegular

/-!
# C91: von Mises limit of the Lou-Zhang-Yoon model
-/

noncomputable section

namespace Hooke

open Spec

/-! ### Derivatives in the von Mises limit -/

theorem rpow_pow {q : ℝ} (hq : 0 < q) (n : ℕ) (e : ℝ) : (q ^ n) ^ e = q ^ ((n : ℝ) * e) := by
  rw [← Real.rpow_natCast, ← Real.rpow_mul hq.le]

theorem sqrt_devJ2_pos {t : T2 3} (h : IsSym t) (h3 : devJ3 t ≠ 0) : 0 < √(devJ2 t) := by
  apply Real.sqrt_pos.mpr
  rcases (devJ2_nonneg t).lt_or_eq with h2 | h2
  · exact h2
  · have := devJ3_le h
    rw [← h2] at this
    have h4 : 0 < devJ3 t ^ 2 := by positivity
    nlinarith

section Limit

variable {E v s0 h : ℝ} {z : LouIx → ℝ}

theorem vmLimit_w (hq : 0 < √(devJ2 (louS (vonMisesLimit E v s0 h) z))) :
    (louK (vonMisesLimit E v s0 h) z).w4 = √(devJ2 (louS (vonMisesLimit E v s0 h) z)) ^ 6 ∧
    (louK (vonMisesLimit E v s0 h) z).w5 = √(devJ2 (louS (vonMisesLimit E v s0 h) z)) ^ 3 := by
  set m := vonMisesLimit E v s0 h with hm
  set q := √(devJ2 (louS m z)) with hqd
  have hj : devJ2 (louS m z) = q ^ 2 := (Real.sq_sqrt (devJ2_nonneg _)).symm
  have h4 : (louK m z).w4 = q ^ 6 := by
    show devJ2 (louS m z) ^ 3 - 0 * _ = _
    rw [hj]; ring
  refine ⟨h4, ?_⟩
  show (louK m z).w4 ^ (1 / 2 : ℝ) - 0 * _ = _
  rw [h4, rpow_pow hq, ← Real.rpow_natCast q 3]
  norm_num

theorem vmLimit_dw4 : (louK (vonMisesLimit E v s0 h) z).dw4 = fun i j =>
    3 * devJ2 (louS (vonMisesLimit E v s0 h) z) ^ 2 *
      deviator (louS (vonMisesLimit E v s0 h) z) i j := by
  funext i j
  show 3 * _ * _ - 2 * 0 * _ * _ = _
  simp only [mul_zero, zero_mul, sub_zero]
  rfl

theorem vmLimit_dw5 (hq : 0 < √(devJ2 (louS (vonMisesLimit E v s0 h) z))) :
    (louK (vonMisesLimit E v s0 h) z).dw5 = fun i j =>
      3 / 2 * √(devJ2 (louS (vonMisesLimit E v s0 h) z)) *
        deviator (louS (vonMisesLimit E v s0 h) z) i j := by
  set m := vonMisesLimit E v s0 h with hm
  set q := √(devJ2 (louS m z)) with hqd
  have hj : devJ2 (louS m z) = q ^ 2 := (Real.sq_sqrt (devJ2_nonneg _)).symm
  funext i j
  show 1 / 2 * (louK m z).w4 ^ (-1 / 2 : ℝ) * (louK m z).dw4 i j - 0 * _ = _
  rw [(vmLimit_w hq).1, vmLimit_dw4, rpow_pow hq]
  have : q ^ (((6 : ℕ) : ℝ) * (-1 / 2)) = (q ^ 3)⁻¹ := by
    rw [← Real.rpow_natCast q 3, ← Real.rpow_neg hq.le]; norm_num
  rw [this, ← hm, hj]
  field_simp
  ring

theorem vmLimit_w5pow (hq : 0 < √(devJ2 (louS (vonMisesLimit E v s0 h) z))) :
    (louK (vonMisesLimit E v s0 h) z).w5 ^ (1 / 3 : ℝ) =
      √(devJ2 (louS (vonMisesLimit E v s0 h) z)) ∧
    (louK (vonMisesLimit E v s0 h) z).w5 ^ (-2 / 3 : ℝ) =
      (√(devJ2 (louS (vonMisesLimit E v s0 h) z)) ^ 2)⁻¹ ∧
    (louK (vonMisesLimit E v s0 h) z).w5 ^ (-5 / 3 : ℝ) =
      (√(devJ2 (louS (vonMisesLimit E v s0 h) z)) ^ 5)⁻¹ ∧
    (louK (vonMisesLimit E v s0 h) z).w4 ^ (-3 / 2 : ℝ) =
      (√(devJ2 (louS (vonMisesLimit E v s0 h) z)) ^ 9)⁻¹ ∧
    (louK (vonMisesLimit E v s0 h) z).w4 ^ (-1 / 2 : ℝ) =
      (√(devJ2 (louS (vonMisesLimit E v s0 h) z)) ^ 3)⁻¹ := by
  rw [(vmLimit_w hq).1, (vmLimit_w hq).2]
  generalize √(devJ2 (louS (vonMisesLimit E v s0 h) z)) = q at hq
  refine ⟨?_, ?_, ?_, ?_, ?_⟩
  · rw [rpow_pow hq]; norm_num
  · rw [rpow_pow hq, ← Real.rpow_natCast q 2, ← Real.rpow_neg hq.le]; norm_num
  · rw [rpow_pow hq, ← Real.rpow_natCast q 5, ← Real.rpow_neg hq.le]; norm_num
  · rw [rpow_pow hq, ← Real.rpow_natCast q 9, ← Real.rpow_neg hq.le]; norm_num
  · rw [rpow_pow hq, ← Real.rpow_natCast q 3, ← Real.rpow_neg hq.le]; norm_num

theorem vmLimit_flow (hq : 0 < √(devJ2 (louS (vonMisesLimit E v s0 h) z))) :
    (louK (vonMisesLimit E v s0 h) z).flow = fun i j =>
      √3 / (2 * √(devJ2 (louS (vonMisesLimit E v s0 h) z))) *
        deviator (louS (vonMisesLimit E v s0 h) z) i j := by
  funext i j
  show √3 * (0 * _ + 1 / 3 * (louK (vonMisesLimit E v s0 h) z).w5 ^ (-2 / 3 : ℝ) *
    (louK (vonMisesLimit E v s0 h) z).dw5 i j) = _
  rw [vmLimit_dw5 hq, (vmLimit_w5pow hq).2.1]
  field_simp
  ring

theorem vmLimit_effective (hq : 0 < √(devJ2 (louS (vonMisesLimit E v s0 h) z))) :
    (louK (vonMisesLimit E v s0 h) z).effective =
      √3 * √(devJ2 (louS (vonMisesLimit E v s0 h) z)) := by
  show √3 * (0 * _ + (louK (vonMisesLimit E v s0 h) z).w5 ^ (1 / 3 : ℝ)) = _
  rw [(vmLimit_w5pow hq).1]
  ring

theorem vmLimit_acc : (louK (vonMisesLimit E v s0 h) z).dflowAcc = 0 ∧
    (louK (vonMisesLimit E v s0 h) z).deffAcc = 0 := by
  set k := louK (vonMisesLimit E v s0 h) z with hk
  have ha : k.ha = 0 := rfl
  have hb : k.hb = 0 := rfl
  have hc : k.hc = 0 := rfl
  have hd : k.hd = 0 := rfl
  constructor
  · funext i j
    simp [LouCtx.dflowAcc, LouCtx.d2w1acc, LouCtx.dw5acc, LouCtx.d2w5acc, LouCtx.dw4acc,
      LouCtx.d2w4acc, ha, hb, hc, hd]
  · simp [LouCtx.deffAcc, LouCtx.dw1acc, LouCtx.dw5acc, LouCtx.dw4acc, ha, hb, hc, hd]

theorem vmLimit_dflow (hq : 0 < √(devJ2 (louS (vonMisesLimit E v s0 h) z))) {t : T2 3}
    (ht : IsSym t) : ddot42_1 (louK (vonMisesLimit E v s0 h) z).dflow t = fun i j =>
      √3 / 2 * ((√(devJ2 (louS (vonMisesLimit E v s0 h) z)))⁻¹ * deviator t i j -
        1 / 2 * (√(devJ2 (louS (vonMisesLimit E v s0 h) z)) ^ 3)⁻¹ *
          (∑ k, ∑ l, deviator (louS (vonMisesLimit E v s0 h) z) k l * t k l) *
          deviator (louS (vonMisesLimit E v s0 h) z) i j) := by
  obtain ⟨-, p2, p5, p9, p3⟩ := vmLimit_w5pow hq
  have hj : devJ2 (louS (vonMisesLimit E v s0 h) z) =
      √(devJ2 (louS (vonMisesLimit E v s0 h) z)) ^ 2 := (Real.sq_sqrt (devJ2_nonneg _)).symm
  have hpt : ∀ i j k l, (louK (vonMisesLimit E v s0 h) z).dflow i j k l =
      √3 / 2 * ((√(devJ2 (louS (vonMisesLimit E v s0 h) z)))⁻¹ *
        (getIdOperators 3).fodevprojsym i j k l -
        1 / 2 * (√(devJ2 (louS (vonMisesLimit E v s0 h) z)) ^ 3)⁻¹ *
          deviator (louS (vonMisesLimit E v s0 h) z) k l *
          deviator (louS (vonMisesLimit E v s0 h) z) i j) := by
    intro i j k l
    have d24 : (louK (vonMisesLimit E v s0 h) z).d2w4 i j k l =
        6 * devJ2 (louS (vonMisesLimit E v s0 h) z) *
          (deviator (louS (vonMisesLimit E v s0 h) z) i j *
            deviator (louS (vonMisesLimit E v s0 h) z) k l) +
        3 * devJ2 (louS (vonMisesLimit E v s0 h) z) ^ 2 * (getIdOperators 3).fodevprojsym i j k l := by
      show 6 * _ * _ + 3 * _ * _ - 2 * 0 * _ = _
      simp only [mul_zero, zero_mul, sub_zero]
      rfl
    have d25 : (louK (vonMisesLimit E v s0 h) z).d2w5 i j k l =
        -(1 / 4) * (louK (vonMisesLimit E v s0 h) z).w4 ^ (-3 / 2 : ℝ) *
          ((louK (vonMisesLimit E v s0 h) z).dw4 i j * (louK (vonMisesLimit E v s0 h) z).dw4 k l)
        + 1 / 2 * (louK (vonMisesLimit E v s0 h) z).w4 ^ (-1 / 2 : ℝ) *
          (louK (vonMisesLimit E v s0 h) z).d2w4 i j k l := by
      show _ + _ - 0 * _ = _
      rw [zero_mul, sub_zero]
      rfl
    show 1 / 3 * √3 * (-(2 / 3) * (louK (vonMisesLimit E v s0 h) z).w5 ^ (-5 / 3 : ℝ) *
      ((louK (vonMisesLimit E v s0 h) z).dw5 i j * (louK (vonMisesLimit E v s0 h) z).dw5 k l) +
      (louK (vonMisesLimit E v s0 h) z).w5 ^ (-2 / 3 : ℝ) *
        (louK (vonMisesLimit E v s0 h) z).d2w5 i j k l) = _
    rw [d25, d24, p2, p5, p9, p3, vmLimit_dw5 hq, vmLimit_dw4]
    rw [hj]
    generalize √(devJ2 (louS (vonMisesLimit E v s0 h) z)) = q at hq
    rw [Real.sqrt_sq hq.le]
    field_simp
    ring
  funext i j
  have e1 := congrFun (congrFun (devproj_left ht) i) j
  rw [← e1]
  simp only [ddot42_1, hpt, Fin.sum_univ_three]
  ring

theorem cauchy_T2 (a b : T2 3) : (∑ i, ∑ j, a i j * b i j) ^ 2 ≤
    (∑ i, ∑ j, a i j ^ 2) * ∑ i, ∑ j, b i j ^ 2 := by
  have := Finset.sum_mul_sq_le_sq_mul_sq (Finset.univ : Finset (Fin 3 × Fin 3))
    (fun p => a p.1 p.2) (fun p => b p.1 p.2)
  simpa only [Fintype.sum_prod_type] using this

/-- Regularity of the Jacobian in the von Mises limit. -/
theorem vmLimit_regular (hA : Admissible E v) (hs : 0 < s0) (hh : 0 ≤ h) {x : LouPoint}
    (hinc : 0 ≤ x.inc) (h3 : devJ3 (louS (vonMisesLimit E v s0 h) z) ≠ 0) :
    (louJacobian (vonMisesLimit E v s0 h) x (louK (vonMisesLimit E v s0 h) z)).det ≠ 0 := by
  have hS := louS_isSym (vonMisesLimit E v s0 h) z
  have hq := sqrt_devJ2_pos hS h3
  have hy0 : ((vonMisesLimit E v s0 h).y 0).1 = s0 := by
    simp [vonMisesLimit, linearHardening, relu]
  refine louJ_regular hA rfl hinc (by rw [hy0]; exact hs.ne') hh vmLimit_acc.1 vmLimit_acc.2 ?_
    (flow_isSym _ _) ?_ ?_
  · intro t ht i j
    rw [vmLimit_dflow hq ht]
    simp only
    rw [deviator_isSym ht i j, deviator_isSym hS i j]
  · intro t ht
    rw [vmLimit_dflow hq ht]
    have hd := deviator_isSym ht
    have hj : ∑ i, ∑ j, deviator (louS (vonMisesLimit E v s0 h) z) i j ^ 2 =
        2 * √(devJ2 (louS (vonMisesLimit E v s0 h) z)) ^ 2 := by
      rw [Real.sq_sqrt (devJ2_nonneg _), devJ2]; ring
    set q := √(devJ2 (louS (vonMisesLimit E v s0 h) z)) with hqd
    set s := deviator (louS (vonMisesLimit E v s0 h) z) with hsd
    have e1 : ∑ k, ∑ l, s k l * t k l = ∑ k, ∑ l, s k l * deviator t k l := by
      have := inner_deviator (louS (vonMisesLimit E v s0 h) z) (deviator t)
      have h2 := inner_deviator (louS (vonMisesLimit E v s0 h) z) t
      rw [← hsd] at this h2
      rw [h2, this]
      congr 1; funext i; congr 1; funext j
      have : deviator (deviator t) i j = deviator t i j := by
        simp only [deviator, trace, Fin.sum_univ_three]
        simp
        ring_nf
        simp
      rw [this]
    have e2 : ∑ k, ∑ l, t k l * deviator t k l = ∑ k, ∑ l, deviator t k l ^ 2 := by
      have := inner_deviator t (deviator t)
      have h3 : ∀ i j, deviator (deviator t) i j = deviator t i j := by
        intro i j
        simp only [deviator, trace, Fin.sum_univ_three]
        simp
        ring_nf
        simp
      simp only [h3] at this
      rw [← this]
      simp only [pow_two]
    have e3 : ∀ w : ℝ, ∑ i, ∑ j, t i j * (√3 / 2 * (q⁻¹ * deviator t i j - 1 / 2 * (q ^ 3)⁻¹ *
        w * s i j)) = √3 / 2 * (q⁻¹ * (∑ i, ∑ j, t i j * deviator t i j) -
        1 / 2 * (q ^ 3)⁻¹ * w * ∑ i, ∑ j, s i j * t i j) := by
      intro w
      simp only [Fin.sum_univ_three]
      ring
    rw [e3, e2, e1]
    have hc := cauchy_T2 s (deviator t)
    rw [hj] at hc
    set a := ∑ k, ∑ l, s k l * deviator t k l
    set b := ∑ k, ∑ l, deviator t k l ^ 2
    have : q⁻¹ * b - 1 / 2 * (q ^ 3)⁻¹ * a * a = 1 / 2 * (q ^ 3)⁻¹ * (2 * q ^ 2 * b - a ^ 2) := by
      field_simp
    rw [this]
    have : 0 ≤ 2 * q ^ 2 * b - a ^ 2 := by linarith
    positivity
  · intro h0
    rw [vmLimit_flow hq] at h0
    have hz : deviator (louS (vonMisesLimit E v s0 h) z) = 0 := by
      funext i j
      have := congrFun (congrFun h0 i) j
      have hne : √3 / (2 * √(devJ2 (louS (vonMisesLimit E v s0 h) z))) ≠ 0 := by positivity
      exact (mul_eq_zero.mp this).resolve_left hne
    have : devJ2 (louS (vonMisesLimit E v s0 h) z) = 0 := by simp [devJ2, hz]
    rw [this] at hq
    simp at hq

/-- One evaluation in the von Mises limit. -/
theorem vmLimit_eval (hs : 0 < s0) (eT : T2 3) (acc0 : ℝ) {x : LouPoint} (hx : IsSym x.e)
    (h3 : devJ3 (hooke (lame E v) (shear E v) x.e) ≠ 0) :
    louEval (vonMisesLimit E v s0 h) eT acc0 x = .ok (some
      { r1 := fun i j => x.e i j - eT i j + x.inc *
          (√3 / (2 * √(devJ2 (hooke (lame E v) (shear E v) x.e))) *
            deviator (hooke (lame E v) (shear E v) x.e) i j)
        r2 := x.acc - acc0 - x.inc
        r3 := (√3 * √(devJ2 (hooke (lame E v) (shear E v) x.e)) - (s0 + h * relu x.acc)) / s0
        jac := some (louJacobian (vonMisesLimit E v s0 h) x
          (louK (vonMisesLimit E v s0 h) (louVec x))) }) := by
  have hS : louS (vonMisesLimit E v s0 h) (louVec x) = hooke (lame E v) (shear E v) x.e :=
    louS_louVec _ hx
  have h3' : devJ3 (louS (vonMisesLimit E v s0 h) (louVec x)) ≠ 0 := by rw [hS]; exact h3
  have hq := sqrt_devJ2_pos (louS_isSym _ _) h3'
  have hy0 : ((vonMisesLimit E v s0 h).y 0).1 = s0 := by
    simp [vonMisesLimit, linearHardening, relu]
  have key := (louEval_ok_iff (vonMisesLimit E v s0 h) eT acc0 (louVec x) _).mpr
    ⟨h3', ⟨by rw [(vmLimit_w hq).1]; positivity, by rw [(vmLimit_w hq).2]; positivity,
      by rw [hy0]; exact hs.ne'⟩, rfl, rfl⟩
  rw [louPoint_louVec hx] at key
  have hjf : louJacFinite (vonMisesLimit E v s0 h) (louK (vonMisesLimit E v s0 h) (louVec x)) :=
    Or.inl rfl
  rw [key, if_pos hjf, vmLimit_flow hq, vmLimit_effective hq, hS, hy0]
  have hr2 : louR2 (vonMisesLimit E v s0 h).assoc acc0 x (fun i j =>
      √3 / (2 * √(devJ2 (hooke (lame E v) (shear E v) x.e))) *
        deviator (hooke (lame E v) (shear E v) x.e) i j) = x.acc - acc0 - x.inc := by
    rw [louR2, if_pos (show (vonMisesLimit E v s0 h).assoc = true from rfl), one_mul]
  rw [hr2]
  rfl

theorem louSolve_of {r : LouEval} {J : Matrix LouIx LouIx ℝ} (hj : r.jac = some J) (hd : J.det ≠ 0)
    {d : LouIx → ℝ} (h : J.mulVec d = -r.residual) : louSolve r = .ok (some d) := by
  unfold louSolve
  rw [hj]
  simp only [if_neg hd]
  rw [← h, Matrix.mulVec_mulVec, Matrix.nonsing_inv_mul _ (isUnit_iff_ne_zero.mpr hd),
    Matrix.one_mulVec]

theorem kel6_zero_T2 : kel6 (0 : T2 3) = 0 := by funext k; simp [kel6]

theorem unkel6_zero_V6 : unkel6 (0 : V6) = 0 := by funext i j; simp [unkel6]

/-- The loop stays at a solution with a regular Jacobian. -/
theorem louConeLoop_at_root {m : LouParams} {eT : T2 3} {acc0 : ℝ} {x : LouPoint}
    {J : Matrix LouIx LouIx ℝ} (he : louEval m eT acc0 x = .ok (some ⟨0, 0, 0, some J⟩))
    (hd : J.det ≠ 0) (fuel nr : ℕ) (hn : 0 < nr) (dn : ℝ) :
    louConeLoop m eT acc0 (fuel + 1) nr x dn = .ok (some x) := by
  have hc : (⟨0, 0, 0, some J⟩ : LouEval).convNorm eT acc0 < suTol := by
    have : (⟨0, 0, 0, some J⟩ : LouEval).convNorm eT acc0 = 0 := by
      simp [LouEval.convNorm, normT2]
    rw [this]
    exact suTol_pos
  have hres : (⟨0, 0, 0, some J⟩ : LouEval).residual = 0 := by
    funext k
    rcases k with k | k
    · simp [LouEval.residual, kel6_zero_T2]
    · fin_cases k <;> simp [LouEval.residual]
  have hsol : louSolve ⟨0, 0, 0, some J⟩ = .ok (some 0) :=
    louSolve_of rfl hd (by rw [hres]; simp)
  have hadd : x.add 0 = x := by
    obtain ⟨e, a, i⟩ := x
    simp only [LouPoint.add, Pi.zero_apply, add_zero]
    congr 1
    funext i j
    have := congrFun (congrFun unkel6_zero_V6 i) j
    show e i j + unkel6 (0 : V6) i j = _
    rw [this]
    simp
  have hsn : louStepNorm eT acc0 0 = 0 := by
    simp [louStepNorm]
  by_cases hdn : dn < suTol
  · unfold louConeLoop
    rw [he]
    simp only [Except.bind]
    rw [if_pos ⟨hc, hdn, hn⟩]
  · unfold louConeLoop
    rw [he]
    simp only [Except.bind]
    rw [if_neg (fun hh => hdn hh.2.1), hsol]
    simp only
    rw [hadd, hsn]
    unfold louConeLoop
    rw [he]
    simp only [Except.bind]
    rw [if_pos ⟨hc, suTol_pos, by omega⟩]

/-- The solution of a return to the surface in the von Mises limit. -/
def vmLimitRoot (E v s0 h : ℝ) (eT : T2 3) (acc0 : ℝ) : LouPoint :=
      { e := fun i j => eT i j -
          (√3 * √(devJ2 (hooke (lame E v) (shear E v) eT)) - (s0 + h * acc0)) /
            (3 * shear E v + h) *
          (√3 / (2 * √(devJ2 (hooke (lame E v) (shear E v) eT))) *
            deviator (hooke (lame E v) (shear E v) eT) i j)
        acc := acc0 + (√3 * √(devJ2 (hooke (lame E v) (shear E v) eT)) - (s0 + h * acc0)) /
            (3 * shear E v + h)
        inc := (√3 * √(devJ2 (hooke (lame E v) (shear E v) eT)) - (s0 + h * acc0)) /
            (3 * shear E v + h) }

/-- The first step of the return to the surface in the von Mises limit ends in the solution. -/
theorem vmLimit_first (hA : Admissible E v) (hs : 0 < s0) (hh : 0 ≤ h) {eT : T2 3} (hT : IsSym eT)
    {acc0 : ℝ} (hacc : 0 ≤ acc0) (h3 : devJ3 (hooke (lame E v) (shear E v) eT) ≠ 0)
    (hy : s0 + h * acc0 < √3 * √(devJ2 (hooke (lame E v) (shear E v) eT))) :
    ∃ r d J, louEval (vonMisesLimit E v s0 h) eT acc0 ⟨eT, acc0, 0⟩ = .ok (some r) ∧
      louSolve r = .ok (some d) ∧ LouPoint.add ⟨eT, acc0, 0⟩ d = vmLimitRoot E v s0 h eT acc0 ∧
      louEval (vonMisesLimit E v s0 h) eT acc0 (vmLimitRoot E v s0 h eT acc0) =
        .ok (some ⟨0, 0, 0, some J⟩) ∧ Matrix.det J ≠ 0 := by
  have hG := hA.shear_pos
  set m := vonMisesLimit E v s0 h with hm
  set S := hooke (lame E v) (shear E v) eT with hSd
  have hSs : IsSym S := hooke_isSym _ _ hT
  have hdev := deviator_isSym hSs
  set q := √(devJ2 S) with hqd
  have hq : 0 < q := sqrt_devJ2_pos hSs h3
  set D := (√3 * q - (s0 + h * acc0)) / (3 * shear E v + h) with hD
  have hH : 0 < 3 * shear E v + h := by linarith
  have hDpos : 0 < D := div_pos (by linarith) hH
  have h33 : √(3 : ℝ) * √3 = 3 := Real.mul_self_sqrt (by norm_num)
  have h30 : 0 < √(3 : ℝ) := by positivity
  set N : T2 3 := fun i j => √3 / (2 * q) * deviator S i j with hN
  have hNs : IsSym N := fun i j => by simp only [hN]; rw [hdev i j]
  have htrN : trace N = 0 := by
    have := deviator_trace S
    simp only [trace, hN, Fin.sum_univ_three] at this ⊢
    linear_combination √3 / (2 * q) * this
  set x0 : LouPoint := ⟨eT, acc0, 0⟩ with hx0
  set x1 : LouPoint := ⟨fun i j => eT i j - D * N i j, acc0 + D, D⟩ with hx1
  have hx1s : IsSym x1.e := fun i j => by simp only [hx1]; rw [hT i j, hNs i j]
  -- stress after the first step
  have hS1 : hooke (lame E v) (shear E v) x1.e = fun i j => S i j - 2 * shear E v * D * N i j := by
    have htr : trace x1.e = trace eT := by
      have : trace x1.e = trace eT - D * trace N := by
        simp only [hx1, trace, Fin.sum_univ_three]; ring
      rw [this, htrN]; ring
    funext i j
    show (if i = j then lame E v * trace x1.e else 0) + 2 * shear E v * (eT i j - D * N i j) =
      (if i = j then lame E v * trace eT else 0) + 2 * shear E v * eT i j - _
    rw [htr]
    ring
  set f := 1 - √3 * shear E v * D / q with hf
  have hfq : √3 * (f * q) = s0 + h * (acc0 + D) := by
    have e1 : √3 * (f * q) = √3 * q - 3 * shear E v * D := by
      rw [hf]; field_simp; linear_combination (-shear E v * D) * h33
    have e2 : D * (3 * shear E v + h) = √3 * q - (s0 + h * acc0) := by
      rw [hD]; field_simp
    rw [e1]; linarith
  have hfpos : 0 < f := by
    have : 0 < √3 * (f * q) := by
      rw [hfq]; have := mul_nonneg hh (add_nonneg hacc hDpos.le); linarith
    have h2 : 0 < f * q := (mul_pos_iff_of_pos_left h30).mp this
    exact (mul_pos_iff_of_pos_right hq).mp h2
  have hdev1 : deviator (hooke (lame E v) (shear E v) x1.e) = fun i j => f * deviator S i j := by
    rw [hS1]
    have htr : trace (fun i j => S i j - 2 * shear E v * D * N i j) = trace S := by
      have : trace (fun i j => S i j - 2 * shear E v * D * N i j) =
          trace S - 2 * shear E v * D * trace N := by
        simp only [trace, Fin.sum_univ_three]; ring
      rw [this, htrN]; ring
    funext i j
    have e1 : deviator (fun i j => S i j - 2 * shear E v * D * N i j) i j =
        deviator S i j - 2 * shear E v * D * N i j := by
      simp only [deviator, htr]; ring
    rw [e1, hN, hf]
    field_simp
  have hj21 : √(devJ2 (hooke (lame E v) (shear E v) x1.e)) = f * q := by
    have : devJ2 (hooke (lame E v) (shear E v) x1.e) = (f * q) ^ 2 := by
      rw [devJ2, hdev1, mul_pow, hqd, Real.sq_sqrt (devJ2_nonneg _), devJ2]
      simp only [mul_pow, Fin.sum_univ_three]
      ring
    rw [this, Real.sqrt_sq (by positivity)]
  have hj31 : devJ3 (hooke (lame E v) (shear E v) x1.e) ≠ 0 := by
    have : devJ3 (hooke (lame E v) (shear E v) x1.e) = f ^ 3 * devJ3 S := by
      rw [devJ3, hdev1, devJ3]
      simp only [Matrix.det_fin_three, Matrix.of_apply]
      ring
    rw [this]
    exact mul_ne_zero (by positivity) h3
  -- evaluations
  have hz0 : devJ3 (louS m (louVec x0)) ≠ 0 := by
    rw [louS_louVec m (x := x0) hT]; exact h3
  have hz1 : devJ3 (louS m (louVec x1)) ≠ 0 := by
    rw [louS_louVec m (x := x1) hx1s]; exact hj31
  have hev0 := vmLimit_eval (h := h) hs eT acc0 (x := x0) hT h3
  have hev1 := vmLimit_eval (h := h) hs eT acc0 (x := x1) hx1s hj31
  have hdet0 := vmLimit_regular (x := x0) hA hs hh le_rfl hz0
  have hdet1 := vmLimit_regular (x := x1) hA hs hh hDpos.le hz1
  have hev1' : louEval m eT acc0 x1 = .ok (some ⟨0, 0, 0, some (louJacobian m x1 (louK m (louVec x1)))⟩) := by
    rw [hev1]
    congr 3
    · funext i j
      rw [hj21, hdev1]
      simp only [hx1, hN, Pi.zero_apply]
      field_simp
      ring
    · simp only [hx1]; ring
    · have hr : relu x1.acc = acc0 + D := max_eq_left (by linarith)
      rw [hj21, hfq, hr]; simp
  -- the first step
  set d : LouIx → ℝ := Sum.elim (kel6 fun i j => -D * N i j) ![D, D] with hd
  have hdN : unkel6 (fun n => d (.inl n)) = fun i j => -D * N i j :=
    unkel6_kel6 (t := fun i j => -D * N i j) fun i j => by simp only; rw [hNs i j]
  have hdS : louS m d = fun i j => -(2 * shear E v * D) * N i j := by
    rw [louS_apply, hdN, hooke_tensor m (fun i j => by rw [hNs i j])]
    have htr : trace (fun i j => -D * N i j) = 0 := by
      have : trace (fun i j => -D * N i j) = -D * trace N := by
        simp only [trace, Fin.sum_univ_three]; ring
      rw [this, htrN]; ring
    have hmu : miuOf m.E m.v = shear E v := rfl
    funext i j
    simp only [hooke, htr, hmu]
    simp
    ring
  have hNN : ∑ i, ∑ j, N i j * N i j = 3 / 2 := by
    have e1 : ∑ i, ∑ j, deviator S i j ^ 2 = 2 * q ^ 2 := by
      rw [hqd, Real.sq_sqrt (devJ2_nonneg _), devJ2]; ring
    have e2 : ∑ i, ∑ j, N i j * N i j = (√3 / (2 * q)) ^ 2 * ∑ i, ∑ j, deviator S i j ^ 2 := by
      simp only [hN, Fin.sum_univ_three]; ring
    rw [e2, e1, div_pow, mul_pow, Real.sq_sqrt (by norm_num)]
    field_simp
  have hflow0 : (louK m (louVec x0)).flow = N := by
    have hS0 : louS m (louVec x0) = S := louS_louVec m (x := x0) hT
    have := vmLimit_flow (E := E) (v := v) (s0 := s0) (h := h) (z := louVec x0)
      (sqrt_devJ2_pos (louS_isSym _ _) hz0)
    rw [this, ← hm, hS0]
  have hr0 : relu x0.acc = acc0 := max_eq_left hacc
  have hJd : (louJacobian m x0 (louK m (louVec x0))).mulVec d =
      -(LouEval.residual ⟨fun i j => x0.e i j - eT i j + x0.inc * (√3 / (2 * q) * deviator S i j),
        x0.acc - acc0 - x0.inc, (√3 * q - (s0 + h * relu x0.acc)) / s0,
        some (louJacobian m x0 (louK m (louVec x0)))⟩) := by
    funext n
    rcases n with n | n
    · rw [louJ_row1, hdN, hflow0]
      simp only [LouEval.residual, Pi.neg_apply, Sum.elim_inl, hx0]
      simp [kel6, hd]
      left
      ring
    · fin_cases n
      · show (louJacobian m x0 (louK m (louVec x0))).mulVec d (.inr 0) = _
        rw [louJ_row2 m rfl]
        simp [LouEval.residual, hd, hx0]
      · show (louJacobian m x0 (louK m (louVec x0))).mulVec d (.inr 1) = _
        rw [louJ_row3, hflow0, hdS, vmLimit_acc.2]
        have hy0 : (m.y 0).1 = s0 := by simp [hm, vonMisesLimit, linearHardening, relu]
        have hsl : (m.y x0.acc).2 = h := rfl
        have e1 : ∑ i, ∑ j, N i j * (-(2 * shear E v * D) * N i j) =
            -(2 * shear E v * D) * ∑ i, ∑ j, N i j * N i j := by
          simp only [Fin.sum_univ_three]; ring
        rw [e1, hNN, hy0, hsl]
        have e2 : D * (3 * shear E v + h) = √3 * q - (s0 + h * acc0) := by
          rw [hD]; field_simp
        show 1 / s0 * (-(2 * shear E v * D) * (3 / 2) + (0 - h) * D) =
          -((√3 * q - (s0 + h * relu x0.acc)) / s0)
        rw [hr0, ← e2]
        ring
  have hsol := louSolve_of rfl hdet0 hJd
  have hadd : x0.add d = x1 := by
    simp only [LouPoint.add, hdN, hx0, hx1]
    congr 1
    · funext i j; ring
    · simp [hd]
  exact ⟨_, d, _, hev0, hsol, hadd, hev1', hdet1⟩

/-- The return to the surface in the von Mises limit: radial return. -/
theorem vmLimit_cone (hA : Admissible E v) (hs : 0 < s0) (hh : 0 ≤ h) {eT : T2 3} (hT : IsSym eT)
    {acc0 : ℝ} (hacc : 0 ≤ acc0) (h3 : devJ3 (hooke (lame E v) (shear E v) eT) ≠ 0)
    (hy : s0 + h * acc0 < √3 * √(devJ2 (hooke (lame E v) (shear E v) eT))) :
    louConeLoop (vonMisesLimit E v s0 h) eT acc0 suMaxIter 0 ⟨eT, acc0, 0⟩ 0 = .ok (some
      { e := fun i j => eT i j -
          (√3 * √(devJ2 (hooke (lame E v) (shear E v) eT)) - (s0 + h * acc0)) /
            (3 * shear E v + h) *
          (√3 / (2 * √(devJ2 (hooke (lame E v) (shear E v) eT))) *
            deviator (hooke (lame E v) (shear E v) eT) i j)
        acc := acc0 + (√3 * √(devJ2 (hooke (lame E v) (shear E v) eT)) - (s0 + h * acc0)) /
            (3 * shear E v + h)
        inc := (√3 * √(devJ2 (hooke (lame E v) (shear E v) eT)) - (s0 + h * acc0)) /
            (3 * shear E v + h) }) := by
  obtain ⟨r, d, J, h0, h1, h2, h5, h6⟩ := vmLimit_first hA hs hh hT hacc h3 hy
  show louConeLoop (vonMisesLimit E v s0 h) eT acc0 (18 + 1 + 1) 0 ⟨eT, acc0, 0⟩ 0 =
    .ok (some (vmLimitRoot E v s0 h eT acc0))
  unfold louConeLoop
  rw [h0]
  simp only [Except.bind]
  rw [if_neg (by simp), h1]
  simp only
  rw [h2]
  exact louConeLoop_at_root h5 h6 18 1 one_pos _

end Limit

theorem lzy_vonMises (t : T2 3) : lzyStress √3 0 0 0 t = √3 * √(devJ2 t) := by
  rw [lzyStress]
  simp only [zero_mul, sub_zero, zero_add]
  rw [cbrt_sqrt_cube (devJ2_nonneg t)]

theorem vm6_devJ2 (s : V6) : vm6 s = √3 * √(devJ2 (unkel6 s)) := by
  have h1 := vm6_kel6 (unkel6_isSym s)
  rw [kel6_unkel6] at h1
  rw [h1, vonMises, frob_sq_devJ2, ← Real.sqrt_mul (by norm_num),
    show (3 : ℝ) * (frob (deviator (unkel6 s)) ^ 2 / 2) = 3 / 2 * frob (deviator (unkel6 s)) ^ 2 by ring,
    Real.sqrt_mul (by norm_num), Real.sqrt_sq (show 0 ≤ frob _ from Real.sqrt_nonneg _)]

/-- The trial state is elastic in the limit exactly when it is for the von Mises model. -/
theorem vmLimit_elastic {p : PType} {E v s0 h : ℝ} (hh : 0 ≤ h) (hs : 0 < s0) {inc : T2 p.dim}
    {old : VMState p} (hacc : 0 ≤ old.acc) :
    LouTrialElastic (vonMisesLimit E v s0 h) old inc ↔
      TrialElastic E v (linearHardening s0 h) old inc := by
  have hpos : 0 < (linearHardening s0 h old.acc).1 := by
    have : relu old.acc = old.acc := max_eq_left hacc
    simp only [linearHardening, this]
    have := mul_nonneg hh hacc
    linarith
  unfold LouTrialElastic TrialElastic
  have hl : lzyAt (vonMisesLimit E v s0 h) old.acc (louTrial (vonMisesLimit E v s0 h) old inc) =
      vm6 (hooke6 (lame E v) (shear E v) (trial3D old inc)) := by
    rw [vm6_devJ2]
    exact lzy_vonMises _
  have hd : LzyDefinedAt (vonMisesLimit E v s0 h) old.acc (louTrial (vonMisesLimit E v s0 h) old inc) :=
    (C88_defined_everywhere 0 0).1 (by norm_num) _ (unkel6_isSym _)
  rw [hl]
  constructor
  · rintro ⟨-, h1 | ⟨h1, -⟩⟩
    · exact h1
    · exact absurd h1 hpos.ne'
  · intro h1
    exact ⟨hd, Or.inl h1⟩

/-- C91: with `a = √3`, `b = c = d = 0` and linear hardening the model of Lou, Zhang and Yoon
returns exactly the state of the von Mises model, for every step that is elastic or has a trial
stress whose deviator is invertible, and whose trial pressure is below that of the apex return. -/
theorem C91_von_mises_limit {p : PType} {E v s0 h : ℝ} (hA : Admissible E v) (hh : 0 ≤ h)
    (hs : 2e-8 ≤ s0) {inc : T2 p.dim} {old : VMState p} (hacc : 0 ≤ old.acc)
    (hn : ¬ LouNearApex (vonMisesLimit E v s0 h) old inc)
    (h3 : TrialElastic E v (linearHardening s0 h) old inc ∨
      devJ3 (unkel6 (louTrial (vonMisesLimit E v s0 h) old inc)) ≠ 0) :
    louUpdate p (vonMisesLimit E v s0 h) inc old =
      .ok (vmUpdate p E v (linearHardening s0 h) inc old).1 := by
  have hs0 : 0 < s0 := by linarith [show (0:ℝ) < 2e-8 by norm_num]
  have hG := hA.shear_pos
  have htr : to3D p old.eStrain old.e33 + to3D p (mf p inc) 0 = trial3D old inc := rfl
  suffices H : ∃ r : VMReturn, vmReturn E v (linearHardening s0 h) (trial3D old inc) old.acc = some r ∧
      louReturn (vonMisesLimit E v s0 h) (trial3D old inc) old.acc =
        .ok (some ⟨r.eStrain, r.stress, r.acc, r.isPlast⟩) by
    obtain ⟨r, h1, h2⟩ := H
    unfold louUpdate vmUpdate
    simp only [htr]
    rw [h1, h2]
    rfl
  have hTr : louTrial (vonMisesLimit E v s0 h) old inc =
      hooke6 (lame E v) (shear E v) (trial3D old inc) := rfl
  by_cases hel : TrialElastic E v (linearHardening s0 h) old inc
  · have hel' := (vmLimit_elastic hh hs0 hacc).mpr hel
    cases hr : vmReturn E v (linearHardening s0 h) (trial3D old inc) old.acc with
    | none => exact absurd hel (vmReturn_none.mp hr).1
    | some r =>
      refine ⟨r, rfl, ?_⟩
      obtain ⟨e1, h2 | h2⟩ := vmReturn_cases hr
      · rw [louReturn_cases, if_pos hel', h2.1, h2.2.2.1, e1, h2.2.1]
        rfl
      · exact absurd hel h2.2.1
  · have hel' := fun q => hel ((vmLimit_elastic hh hs0 hacc).mp q)
    have h3' := h3.resolve_left hel
    have hrelu : relu old.acc = old.acc := max_eq_left hacc
    have hlaw : (linearHardening s0 h old.acc).1 = s0 + h * old.acc := by
      simp [linearHardening, hrelu]
    have hge : 2e-8 ≤ (linearHardening s0 h old.acc).1 := by
      rw [hlaw]; have := mul_nonneg hh hacc; linarith
    obtain ⟨hd, hq⟩ := trial_dev_large hge hel
    rw [hlaw] at hq hge
    have hq' : s0 + h * old.acc < vm6 (hooke6 (lame E v) (shear E v) (trial3D old inc)) := by
      have : 0 < s0 + h * old.acc := by linarith [show (0:ℝ) < 2e-8 by norm_num]
      nlinarith
    have hnw := newton_linear (n := suMaxIter) (by decide) hG hh hs0 hacc hq'
    cases hr : vmReturn E v (linearHardening s0 h) (trial3D old inc) old.acc with
    | none => exact absurd (vmReturn_none.mp hr).2 (by rw [hnw]; simp)
    | some r =>
      refine ⟨r, rfl, ?_⟩
      obtain ⟨hst, hc⟩ := vmReturn_cases hr
      rcases hc with ⟨-, -, -, h5⟩ | ⟨hp, -, x, hx, hxa, he⟩
      · exact absurd h5 hel
      rw [hnw] at hx
      obtain rfl := Option.some.inj hx
      set eT : T2 3 := unkel6 (trial3D old inc) with heT
      have hT : IsSym eT := unkel6_isSym _
      have hS : hooke (lame E v) (shear E v) eT =
          unkel6 (hooke6 (lame E v) (shear E v) (trial3D old inc)) := by
        have e := hooke6_kel6 (lame E v) (shear E v) eT
        rw [heT, kel6_unkel6] at e
        rw [e, unkel6_kel6 (hooke_isSym _ _ hT)]
      have hvm := vm6_devJ2 (hooke6 (lame E v) (shear E v) (trial3D old inc))
      rw [← hS] at hvm
      rw [hvm] at hq' he hxa
      have hcone := vmLimit_cone hA hs0 hh hT hacc (by rw [hS]; exact h3') hq'
      rw [louReturn_cases, if_neg hel', if_neg hn]
      unfold louCone
      rw [hcone]
      simp only [Except.map, Option.map_some]
      congr 2
      have hek : ∀ X : ℝ, kel6 (fun i j => eT i j - X *
          (√3 / (2 * √(devJ2 (hooke (lame E v) (shear E v) eT))) *
            deviator (hooke (lame E v) (shear E v) eT) i j)) =
          fun k => trial3D old inc k - X * vmFlow (hooke6 (lame E v) (shear E v) (trial3D old inc)) k := by
        intro X
        have e1 : kel6 eT = trial3D old inc := kel6_unkel6 _
        have e2 : dev6 (hooke6 (lame E v) (shear E v) (trial3D old inc)) =
            kel6 (deviator (hooke (lame E v) (shear E v) eT)) := by
          rw [hS, ← dev6_kel6, kel6_unkel6]
        have e3 : √(3 / 2) / norm6 (dev6 (hooke6 (lame E v) (shear E v) (trial3D old inc))) =
            √3 / (2 * √(devJ2 (hooke (lame E v) (shear E v) eT))) := by
          have hn0 : 0 < norm6 (dev6 (hooke6 (lame E v) (shear E v) (trial3D old inc))) :=
            lt_trans (by unfold suSmall; norm_num) hd
          have e4 : √(3 / 2) * norm6 (dev6 (hooke6 (lame E v) (shear E v) (trial3D old inc))) =
              √3 * √(devJ2 (hooke (lame E v) (shear E v) eT)) := by rw [← hvm, vm6_eq]
          have hp3 : 0 < √3 * √(devJ2 (hooke (lame E v) (shear E v) eT)) := by
            rw [← e4]; exact mul_pos sqrt32_pos hn0
          have hj : 0 < √(devJ2 (hooke (lame E v) (shear E v) eT)) :=
            (mul_pos_iff_of_pos_left (by positivity)).mp hp3
          have h32 : √(3 / 2 : ℝ) * √(3 / 2) = 3 / 2 := Real.mul_self_sqrt (by norm_num)
          have h33 : √(3 : ℝ) * √3 = 3 := Real.mul_self_sqrt (by norm_num)
          rw [div_eq_div_iff hn0.ne' (by positivity)]
          have h5 : √3 * (√(3 / 2) * (2 * √(devJ2 (hooke (lame E v) (shear E v) eT)))) =
              √3 * (√3 * norm6 (dev6 (hooke6 (lame E v) (shear E v) (trial3D old inc)))) := by
            linear_combination (-2 * √(3 / 2)) * e4 + (2 * norm6 (dev6 (hooke6 (lame E v) (shear E v)
              (trial3D old inc)))) * h32 - (norm6 (dev6 (hooke6 (lame E v) (shear E v)
              (trial3D old inc)))) * h33
          exact mul_left_cancel₀ (by positivity) h5
        funext k
        rw [vmFlow_scale hd]
        simp only
        rw [e3, e2, ← e1]
        simp only [kel6]
        ring
      have hres : (louPlasticResult (vonMisesLimit E v s0 h) (fun i j => eT i j -
          (√3 * √(devJ2 (hooke (lame E v) (shear E v) eT)) - (s0 + h * old.acc)) /
            (3 * shear E v + h) * (√3 / (2 * √(devJ2 (hooke (lame E v) (shear E v) eT))) *
            deviator (hooke (lame E v) (shear E v) eT) i j)) r.acc).eStrain = r.eStrain := by
        rw [he]; exact hek _
      rw [← hxa]
      have hst2 := louPlasticResult_stress (vonMisesLimit E v s0 h) (fun i j => eT i j -
          (√3 * √(devJ2 (hooke (lame E v) (shear E v) eT)) - (s0 + h * old.acc)) /
            (3 * shear E v + h) * (√3 / (2 * √(devJ2 (hooke (lame E v) (shear E v) eT))) *
            deviator (hooke (lame E v) (shear E v) eT) i j)) r.acc
      rw [hres] at hst2
      rw [hp, hst, ← hres]
      rw [← hres] at hst2
      have : ∀ r' : LouReturn, r' = ⟨r'.eStrain, r'.stress, r'.acc, r'.isPlast⟩ := fun _ => rfl
      rw [this (louPlasticResult _ _ _), hst2]
      rfl

open Classical in
/-- C91: every outcome of a step with von Mises parameters and linear hardening.  It is the state of
the von Mises model, except that a plastic step fails when its trial pressure exceeds 95 % of
`σy/(3 √3 1e-6)`, and raises `RuntimeError` when the third invariant of its trial stress deviator is
zero. -/
theorem C91_outcome {p : PType} {E v s0 h : ℝ} (hA : Admissible E v) (hh : 0 ≤ h)
    (hs : 2e-8 ≤ s0) {inc : T2 p.dim} {old : VMState p} (hacc : 0 ≤ old.acc) :
    louUpdate p (vonMisesLimit E v s0 h) inc old =
      if TrialElastic E v (linearHardening s0 h) old inc then
        .ok (vmUpdate p E v (linearHardening s0 h) inc old).1
      else if LouNearApex (vonMisesLimit E v s0 h) old inc then
        .ok (.nan (some (old.strain + mf p inc)))
      else if devJ3 (unkel6 (louTrial (vonMisesLimit E v s0 h) old inc)) = 0 then
        .error .runtimeError
      else .ok (vmUpdate p E v (linearHardening s0 h) inc old).1 := by
  have hs0 : 0 < s0 := by linarith [show (0:ℝ) < 2e-8 by norm_num]
  have htr : to3D p old.eStrain old.e33 + to3D p (mf p inc) 0 = trial3D old inc := rfl
  split_ifs with hel hn h3
  · have hel' := (vmLimit_elastic hh hs0 hacc).mpr hel
    cases hr : vmReturn E v (linearHardening s0 h) (trial3D old inc) old.acc with
    | none => exact absurd hel (vmReturn_none.mp hr).1
    | some r =>
      obtain ⟨e1, h2 | h2⟩ := vmReturn_cases hr
      · have : louReturn (vonMisesLimit E v s0 h) (trial3D old inc) old.acc =
            .ok (some ⟨r.eStrain, r.stress, r.acc, r.isPlast⟩) := by
          rw [louReturn_cases, if_pos hel', h2.1, h2.2.2.1, e1, h2.2.1]
          rfl
        unfold louUpdate vmUpdate
        simp only [htr]
        rw [hr, this]
        rfl
      · exact absurd hel h2.2.1
  · have hel' := fun q => hel ((vmLimit_elastic hh hs0 hacc).mp q)
    unfold louUpdate
    simp only [htr]
    rw [louReturn_cases, if_neg hel', if_pos hn]
    have ha : louApex (vonMisesLimit E v s0 h)
        (tr6 (louTrial (vonMisesLimit E v s0 h) old inc) / 3) old.acc = none := by
      have : louAlpha ((vonMisesLimit E v s0 h).a 0).1 ((vonMisesLimit E v s0 h).b 0).1 = none := by
        unfold louAlpha
        have : 3 * ((vonMisesLimit E v s0 h).a 0).1 * ((vonMisesLimit E v s0 h).b 0).1 = 0 :=
          mul_zero _
        simp only [this]
        simp
      unfold louApex
      rw [this]
      rfl
    rw [ha]
    have hst : to2D p (trial3D old inc) + (old.strain - old.eStrain) = old.strain + mf p inc := by
      rw [← htr, to2D_add, to2D_to3D, to2D_to3D]
      abel
    simp only [Except.map, louState, hst]
  · exact C90_singular_raises (fun q => hel ((vmLimit_elastic hh hs0 hacc).mp q)) hn h3
  · exact C91_von_mises_limit hA hh hs hacc hn (Or.inr h3)

/-- C91: along a whole strain history: if no plastic step of the von Mises model has a trial stress
near the apex pressure or with zero third invariant, the two models go through the same states. -/
theorem C91_history {p : PType} {E v s0 h : ℝ} (hA : Admissible E v) (hh : 0 ≤ h) (hs : 2e-8 ≤ s0)
    (incs : List (T2 p.dim))
    (hok : ∀ past inc later s, incs = past ++ inc :: later →
      vmRun p E v (linearHardening s0 h) past = .good s →
      TrialElastic E v (linearHardening s0 h) s inc ∨
        (¬ LouNearApex (vonMisesLimit E v s0 h) s inc ∧
          devJ3 (unkel6 (louTrial (vonMisesLimit E v s0 h) s inc)) ≠ 0)) :
    louRun p (vonMisesLimit E v s0 h) incs = .ok (vmRun p E v (linearHardening s0 h) incs) ∧
      ∃ s, vmRun p E v (linearHardening s0 h) incs = .good s ∧ 0 ≤ s.acc := by
  induction incs using List.reverseRecOn with
  | nil => exact ⟨rfl, vmInit p, rfl, le_rfl⟩
  | append_singleton past inc ih =>
    obtain ⟨h1, s, h2, hacc⟩ := ih fun a b c s he hr => hok a b (c ++ [inc]) s (by simp [he]) hr
    have hc := hok past inc [] s rfl h2
    have hstep : louUpdate p (vonMisesLimit E v s0 h) inc s =
        .ok (vmUpdate p E v (linearHardening s0 h) inc s).1 := by
      rw [C91_outcome hA hh hs hacc]
      rcases hc with h4 | ⟨h4, h5⟩
      · rw [if_pos h4]
      · rw [if_neg h4, if_neg h5]
        split_ifs <;> rfl
    have hrun : vmRun p E v (linearHardening s0 h) (past ++ [inc]) =
        (vmUpdate p E v (linearHardening s0 h) inc s).1 := by
      unfold vmRun at h2 ⊢
      rw [List.foldl_append, h2]
      rfl
    constructor
    · rw [hrun]
      unfold louRun at h1 ⊢
      rw [List.foldlM_append, h1, h2]
      show (louUpdate p (vonMisesLimit E v s0 h) inc s >>= pure) = _
      rw [hstep]
      rfl
    · rw [hrun]
      by_cases hel : TrialElastic E v (linearHardening s0 h) s inc
      · obtain ⟨new, hu, -, -, ha, -⟩ := C29_elastic_step hel
        exact ⟨new, by rw [hu], by rw [ha]; exact hacc⟩
      · obtain ⟨new, T, hu, -, -, hlt, -⟩ := C32_linear_exact hA hh hs hacc hel
        exact ⟨new, by rw [hu], hacc.trans hlt.le⟩

theorem vmLimit_uni : ¬ LouNearApex (vonMisesLimit 1 0 1 1) (vmInit .solid) (uniInc 3) ∧
    ∃ new, louUpdate .solid (vonMisesLimit 1 0 1 1) (uniInc 3) (vmInit .solid) =
    .ok (.good new) ∧ new.isPlast = true ∧ new.acc = 4 / 5 ∧ vm6 (stress3D new) = 9 / 5 := by
  have ht : unkel6 (louTrial (vonMisesLimit 1 0 1 1) (vmInit .solid) (uniInc 3)) = uniaxial 3 := by
    have h : louTrial (vonMisesLimit 1 0 1 1) (vmInit .solid) (uniInc 3) = ![3, 0, 0, 0, 0, 0] := by
      funext k
      fin_cases k <;>
        simp [louTrial, vonMisesLimit, hooke6, lame, shear, trial3D, elastic3D, increment3D, vmInit,
          to3D, mf, kel6, uniInc, one6, tr6, ci, cj, kf]
    rw [h]
    funext i j
    fin_cases i <;> fin_cases j <;> simp [unkel6, pos6, kf, uniaxial]
  have h3 : devJ3 (unkel6 (louTrial (vonMisesLimit 1 0 1 1) (vmInit .solid) (uniInc 3))) ≠ 0 := by
    rw [ht]
    simp [devJ3, deviator, trace, uniaxial, Matrix.det_fin_three, Fin.sum_univ_three]
    norm_num
  have hn : ¬ LouNearApex (vonMisesLimit 1 0 1 1) (vmInit .solid) (uniInc 3) := by
    have htr : tr6 (louTrial (vonMisesLimit 1 0 1 1) (vmInit .solid) (uniInc 3)) = 3 := by
      have := tr6_kel6 (unkel6 (louTrial (vonMisesLimit 1 0 1 1) (vmInit .solid) (uniInc 3)))
      rw [kel6_unkel6] at this
      rw [this, ht]
      simp [trace, uniaxial, Fin.sum_univ_three]
    unfold LouNearApex
    have ha : ((vonMisesLimit 1 0 1 1).a (vmInit .solid).acc).1 = √3 := rfl
    have hb : ((vonMisesLimit 1 0 1 1).b (vmInit .solid).acc).1 = 0 := rfl
    have hy : ((vonMisesLimit 1 0 1 1).y (vmInit .solid).acc).1 = 1 := by
      simp [vonMisesLimit, linearHardening, relu, vmInit]
    rw [htr, ha, hb, hy, if_neg (by positivity)]
    have h4 : √3 ≤ 2 := by
      rw [Real.sqrt_le_left (by norm_num)]; norm_num
    have h5 : (0 : ℝ) < √3 := by positivity
    rw [abs_zero, max_eq_right (by norm_num), not_lt, show (3 : ℝ) / 3 = 1 by norm_num, mul_one_div,
      le_div_iff₀ (by positivity)]
    norm_num at h4 ⊢
    linarith
  have hu := C91_von_mises_limit (p := .solid) admissible_one zero_le_one (by norm_num : (2e-8 : ℝ) ≤ 1)
    (le_refl (0 : ℝ)) hn (Or.inr h3)
  obtain ⟨new, T, h', hp, h2, -, h4⟩ := C32_linear_exact admissible_one zero_le_one
    (by norm_num : (2e-8 : ℝ) ≤ 1) (le_refl (0 : ℝ)) uni_plastic
  have hacc : new.acc = 4 / 5 := by
    rw [h2, vm6_uni]; norm_num [vmInit, shear, abs_of_pos]
  refine ⟨hn, new, by rw [hu, h'], hp, hacc, by rw [h4, hacc]; norm_num⟩

/-- hypotheses of C91 are met: uniaxial strain `3` with `E = 1`, `ν = 0`, `σy = 1 + acc`; the step is
plastic, and it succeeds -/
example : ∃ new, louUpdate .solid (vonMisesLimit 1 0 1 1) (uniInc 3) (vmInit .solid) =
    .ok (.good new) ∧ new.isPlast = true ∧ new.acc = 4 / 5 ∧ vm6 (stress3D new) = 9 / 5 :=
  vmLimit_uni.2

end Hooke
