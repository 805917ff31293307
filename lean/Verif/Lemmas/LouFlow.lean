import Verif.Lemmas.LouDerivative
import Mathlib.Analysis.SpecialFunctions.Sqrt

/-! # Fréchet derivatives of the invariants, the effective stress and the flow vector -/

noncomputable section

namespace Hooke

open Spec

/-- Double contraction with a fixed tensor. -/
def ipL (N : T2 3) : T2 3 →L[ℝ] ℝ :=
  LinearMap.toContinuousLinearMap
    { toFun := fun h => ∑ i, ∑ j, N i j * h i j
      map_add' := fun x y => by simp only [Pi.add_apply, mul_add, Finset.sum_add_distrib]
      map_smul' := fun c x => by
        simp only [Pi.smul_apply, smul_eq_mul, Finset.mul_sum, RingHom.id_apply]
        exact Finset.sum_congr rfl fun i _ => Finset.sum_congr rfl fun j _ => by ring }

theorem ipL_apply (N h : T2 3) : ipL N h = ∑ i, ∑ j, N i j * h i j := rfl

/-- A differentiable function which is a cubic polynomial along every line. -/
theorem hasFDerivAt_of_line {F : Type*} [NormedAddCommGroup F] [NormedSpace ℝ F] {f : F → ℝ} {x : F}
    (hf : DifferentiableAt ℝ f x) (L : F →L[ℝ] ℝ) (Q C : F → ℝ)
    (h : ∀ (y : F) (s : ℝ), f (x + s • y) = f x + s * L y + s ^ 2 * Q y + s ^ 3 * C y) :
    HasFDerivAt f L x := by
  have h1 := hf.hasFDerivAt
  have : fderiv ℝ f x = L := by
    ext y
    have hl : HasDerivAt (fun s : ℝ => x + s • y) y 0 := by
      simpa using ((hasDerivAt_id (0 : ℝ)).smul_const y).const_add x
    have h2 : HasDerivAt (fun s : ℝ => f (x + s • y)) (fderiv ℝ f x y) 0 := by
      have h1' : HasFDerivAt f (fderiv ℝ f x) (x + (0 : ℝ) • y) := by simpa using h1
      exact h1'.comp_hasDerivAt (0 : ℝ) hl
    have h3 : HasDerivAt (fun s : ℝ => f (x + s • y)) (L y) 0 := by
      have h4 : (fun s : ℝ => f (x + s • y)) =
          fun s => f x + s * L y + s ^ 2 * Q y + s ^ 3 * C y := by funext s; exact h y s
      rw [h4]
      have i0 := hasDerivAt_id (0 : ℝ)
      have := (((i0.mul_const (L y)).const_add (f x)).add ((hasDerivAt_pow 2 (0 : ℝ)).mul_const (Q y))).add
        ((hasDerivAt_pow 3 (0 : ℝ)).mul_const (C y))
      refine this.congr_deriv ?_
      norm_num
    exact h2.unique h3
  rw [this] at h1
  exact h1

theorem differentiable_entry (i j : Fin 3) (t : T2 3) : DifferentiableAt ℝ (fun t : T2 3 => t i j) t :=
  ((ContinuousLinearMap.proj (R := ℝ) (φ := fun _ : Fin 3 => ℝ) j).comp
    (ContinuousLinearMap.proj (R := ℝ) (φ := fun _ : Fin 3 => Fin 3 → ℝ) i)).differentiableAt

theorem trace_hasFDerivAt (t : T2 3) : HasFDerivAt trace (ipL (getIdOperators 3).soid) t := by
  refine hasFDerivAt_of_line (Q := 0) (C := 0) ?_ _ fun y s => ?_
  · unfold trace
    simp only [Fin.sum_univ_three]
    exact ((differentiable_entry 0 0 t).add (differentiable_entry 1 1 t)).add
      (differentiable_entry 2 2 t)
  · rw [ipL_apply]
    simp only [trace, (C09_actions 3 t).1, Fin.sum_univ_three]
    simp
    ring

theorem deviator_differentiable (i j : Fin 3) (t : T2 3) :
    DifferentiableAt ℝ (fun t : T2 3 => deviator t i j) t := by
  unfold deviator
  refine (differentiable_entry i j t).sub ?_
  split
  · simp only [div_eq_mul_inv]
    exact (trace_hasFDerivAt t).differentiableAt.mul_const _
  · exact differentiableAt_const _

theorem deviator_line (x y : T2 3) (s : ℝ) :
    deviator (x + s • y) = fun i j => deviator x i j + s * deviator y i j := by
  funext i j
  simp only [deviator, trace, Pi.add_apply, Pi.smul_apply, smul_eq_mul, Fin.sum_univ_three]
  split_ifs <;> ring

theorem devJ2_hasFDerivAt (t : T2 3) : HasFDerivAt devJ2 (ipL (deviator t)) t := by
  refine hasFDerivAt_of_line (Q := devJ2) (C := 0) ?_ _ fun y s => ?_
  · unfold devJ2
    have := deviator_differentiable (t := t)
    refine DifferentiableAt.const_mul ?_ _
    refine DifferentiableAt.fun_sum fun i _ => DifferentiableAt.fun_sum fun j _ => ?_
    exact (this i j).pow 2
  · rw [ipL_apply]
    have hin : ∑ i, ∑ j, deviator t i j * y i j = ∑ i, ∑ j, deviator t i j * deviator y i j := by
      rw [← inner_deviator]
      refine Finset.sum_congr rfl fun i _ => Finset.sum_congr rfl fun j _ => ?_
      congr 1
      rw [show deviator (deviator t) i j = deviator t i j - if i = j then trace (deviator t) / 3 else 0
        from rfl, deviator_trace]
      simp
    rw [hin]
    unfold devJ2
    rw [deviator_line]
    simp only [Fin.sum_univ_three, Pi.zero_apply]
    ring

theorem det_line (A H : T2 3) (s : ℝ) : Matrix.det (Matrix.of fun i j => A i j + s * H i j) =
    Matrix.det (Matrix.of A) + s * (∑ i, ∑ j, adjT A j i * H i j) +
      s ^ 2 * (∑ i, ∑ j, adjT H j i * A i j) + s ^ 3 * Matrix.det (Matrix.of H) := by
  simp only [Matrix.det_fin_three, Matrix.of_apply, adjT_eq, Fin.sum_univ_three]
  simp
  ring

theorem devJ3_hasFDerivAt {t : T2 3} (h : IsSym t) : HasFDerivAt devJ3 (ipL (gradJ3 t)) t := by
  refine hasFDerivAt_of_line (Q := fun y => ∑ i, ∑ j, adjT (deviator y) j i * deviator t i j)
    (C := devJ3) ?_ _ fun y s => ?_
  · unfold devJ3
    simp only [Matrix.det_fin_three, Matrix.of_apply]
    have := deviator_differentiable (t := t)
    exact ((((((((this 0 0).mul (this 1 1)).mul (this 2 2)).sub
      (((this 0 0).mul (this 1 2)).mul (this 2 1))).sub
      (((this 0 1).mul (this 1 0)).mul (this 2 2))).add
      (((this 0 1).mul (this 1 2)).mul (this 2 0))).add
      (((this 0 2).mul (this 1 0)).mul (this 2 1))).sub
      (((this 0 2).mul (this 1 1)).mul (this 2 0)))
  · rw [ipL_apply, gradJ3, inner_deviator]
    unfold devJ3
    rw [deviator_line, det_line]
    have hs := adjT_isSym (deviator_isSym h)
    have : ∑ i, ∑ j, adjT (deviator t) j i * deviator y i j =
        ∑ i, ∑ j, adjT (deviator t) i j * deviator y i j :=
      Finset.sum_congr rfl fun i _ => Finset.sum_congr rfl fun j _ => by rw [hs j i]
    rw [this]

theorem adjT_differentiable (i j : Fin 3) (t : T2 3) :
    DifferentiableAt ℝ (fun t : T2 3 => adjT t i j) t := by
  have := differentiable_entry (t := t)
  simp only [adjT_eq]
  fin_cases i <;> fin_cases j <;> simp <;>
    first
    | exact ((this _ _).mul (this _ _)).sub ((this _ _).mul (this _ _))
    | exact ((this _ _).mul (this _ _)).neg.add ((this _ _).mul (this _ _))

theorem adjT_line (A H : T2 3) (s : ℝ) (i j : Fin 3) :
    adjT (fun i j => A i j + s * H i j) i j = adjT A i j + s * dadjT A H i j + s ^ 2 * adjT H i j := by
  simp only [dadjT, adjT_eq]
  fin_cases i <;> fin_cases j <;> simp <;> ring

/-- Directional derivative of the gradient of the third invariant. -/
def dgradJ3 (t h : T2 3) : T2 3 := deviator (dadjT (deviator t) (deviator h))

/-- The same as a linear map. -/
def dgradJ3L (t : T2 3) (i j : Fin 3) : T2 3 →L[ℝ] ℝ :=
  LinearMap.toContinuousLinearMap
    { toFun := fun h => dgradJ3 t h i j
      map_add' := fun x y => by
        have hd : deviator (x + y) = fun i j => deviator x i j + deviator y i j := by
          have := deviator_line x y 1
          simpa using this
        have hl : dadjT (deviator t) (deviator (x + y)) = fun i j =>
            dadjT (deviator t) (deviator x) i j + dadjT (deviator t) (deviator y) i j := by
          rw [hd]
          funext i j
          simp only [dadjT, adjT_eq]
          fin_cases i <;> fin_cases j <;> simp <;> ring
        unfold dgradJ3
        rw [hl]
        have := deviator_line (dadjT (deviator t) (deviator x)) (dadjT (deviator t) (deviator y)) 1
        have e : (dadjT (deviator t) (deviator x) + (1 : ℝ) • dadjT (deviator t) (deviator y)) =
          fun i j => dadjT (deviator t) (deviator x) i j + dadjT (deviator t) (deviator y) i j := by
            funext i j; simp
        rw [e] at this
        rw [this]
        simp only [one_mul]
      map_smul' := fun c x => by
        have hd : deviator (c • x) = fun i j => c * deviator x i j := by
          have := deviator_line 0 x c
          simp only [zero_add] at this
          rw [this]
          funext i j
          simp [deviator, trace]
        have hl : dadjT (deviator t) (deviator (c • x)) = fun i j =>
            c * dadjT (deviator t) (deviator x) i j := by
          rw [hd]
          funext i j
          simp only [dadjT, adjT_eq]
          fin_cases i <;> fin_cases j <;> simp <;> ring
        unfold dgradJ3
        rw [hl]
        simp only [deviator, trace, RingHom.id_apply, smul_eq_mul, Fin.sum_univ_three]
        split_ifs <;> ring }

theorem dgradJ3L_apply (t h : T2 3) (i j : Fin 3) : dgradJ3L t i j h = dgradJ3 t h i j := rfl

theorem gradJ3_hasFDerivAt (t : T2 3) (i j : Fin 3) :
    HasFDerivAt (fun t => gradJ3 t i j) (dgradJ3L t i j) t := by
  refine hasFDerivAt_of_line (Q := fun y => gradJ3 y i j) (C := 0) ?_ _ fun y s => ?_
  · have hdev : DifferentiableAt ℝ (fun t : T2 3 => deviator t) t :=
      differentiableAt_pi.mpr fun k => differentiableAt_pi.mpr fun l => deviator_differentiable k l t
    have hadj : DifferentiableAt ℝ (fun t : T2 3 => adjT t) (deviator t) :=
      differentiableAt_pi.mpr fun k => differentiableAt_pi.mpr fun l => adjT_differentiable k l _
    have h1 : DifferentiableAt ℝ (fun t : T2 3 => adjT (deviator t)) t := hadj.comp t hdev
    exact (deviator_differentiable i j (adjT (deviator t))).comp t h1
  · rw [dgradJ3L_apply]
    unfold gradJ3 dgradJ3
    have : adjT (deviator (t + s • y)) = fun i j => adjT (deviator t) i j +
        s * dadjT (deviator t) (deviator y) i j + s ^ 2 * adjT (deviator y) i j := by
      funext i j
      rw [deviator_line, adjT_line]
    rw [this]
    simp only [deviator, trace, Fin.sum_univ_three, Pi.zero_apply]
    split_ifs <;> ring

/-! ## The effective stress and the flow vector -/

/-- The invariants and the yield parameters, as functions of the unknowns, have the derivatives
collected in the context: `S` is the derivative of the stress and `α` that of the accumulated
plastic strain. -/
structure LouDiff1 {F : Type*} [NormedAddCommGroup F] [NormedSpace ℝ F] (K : F → LouCtx) (x : F)
    (S : F →L[ℝ] T2 3) (α : F →L[ℝ] ℝ) : Prop where
  i1 : HasFDerivAt (fun z => (K z).i1) ((ipL (K x).g.di1).comp S) x
  j2 : HasFDerivAt (fun z => (K z).j2) ((ipL (K x).g.dj2).comp S) x
  j3 : HasFDerivAt (fun z => (K z).j3) ((ipL (K x).g.dj3).comp S) x
  a : HasFDerivAt (fun z => (K z).a) ((K x).ha • α) x
  b : HasFDerivAt (fun z => (K z).b) ((K x).hb • α) x
  c : HasFDerivAt (fun z => (K z).c) ((K x).hc • α) x
  d : HasFDerivAt (fun z => (K z).d) ((K x).hd • α) x

/-- The gradients of the invariants have derivatives as well. -/
structure LouDiff {F : Type*} [NormedAddCommGroup F] [NormedSpace ℝ F] (K : F → LouCtx) (x : F)
    (S : F →L[ℝ] T2 3) (α : F →L[ℝ] ℝ) : Prop extends LouDiff1 K x S α where
  di1 : ∀ z, (K z).g.di1 = (getIdOperators 3).soid
  dj2 : ∀ i j, ∃ L : F →L[ℝ] ℝ, HasFDerivAt (fun z => (K z).g.dj2 i j) L x ∧
    ∀ h, L h = ddot42_1 (K x).g.d2j2 (S h) i j
  dj3 : ∀ i j, ∃ L : F →L[ℝ] ℝ, HasFDerivAt (fun z => (K z).g.dj3 i j) L x ∧
    ∀ h, L h = ddot42_1 (K x).g.d2j3 (S h) i j

namespace LouDiff1
variable {F : Type*} [NormedAddCommGroup F] [NormedSpace ℝ F] {K : F → LouCtx} {x : F}
  {S : F →L[ℝ] T2 3} {α : F →L[ℝ] ℝ}

theorem ip_lin3 (A B C : T2 3) (p q r : ℝ) (s : T2 3) :
    ipL (fun i j => p * A i j + q * B i j + r * C i j) s = p * ipL A s + q * ipL B s + r * ipL C s := by
  simp only [ipL_apply, Fin.sum_univ_three]
  ring

theorem w4 (H : LouDiff1 K x S α) : HasFDerivAt (fun z => (K z).w4)
    ((ipL (K x).dw4).comp S + (K x).dw4acc • α) x := by
  have := (H.j2.pow 3).sub (H.c.mul (H.j3.pow 2))
  refine this.congr_fderiv ?_
  ext h
  have e : (K x).dw4 = fun i j => 3 * (K x).j2 ^ 2 * (K x).g.dj2 i j +
      (-(2 * (K x).c * (K x).j3)) * (K x).g.dj3 i j + 0 * (K x).g.dj3 i j := by
    funext i j; simp only [LouCtx.dw4, LouCtx.dw2]; ring
  rw [e]
  simp only [add_apply, sub_apply,
    smul_apply, ContinuousLinearMap.comp_apply, smul_eq_mul, nsmul_eq_mul,
    ip_lin3, LouCtx.dw4acc]
  push_cast
  ring

theorem w5 (H : LouDiff1 K x S α) (h4 : 0 < (K x).w4) : HasFDerivAt (fun z => (K z).w5)
    ((ipL (K x).dw5).comp S + (K x).dw5acc • α) x := by
  have := (H.w4.rpow_const (p := 1 / 2) (Or.inl h4.ne')).sub (H.d.mul H.j3)
  refine this.congr_fderiv ?_
  ext h
  have e : (K x).dw5 = fun i j => 1 / 2 * (K x).w4 ^ (-1 / 2 : ℝ) * (K x).dw4 i j +
      (-(K x).d) * (K x).g.dj3 i j + 0 * (K x).g.dj3 i j := by
    funext i j; simp only [LouCtx.dw5, LouCtx.dw3]; ring
  rw [e]
  simp only [add_apply, sub_apply,
    smul_apply, ContinuousLinearMap.comp_apply, smul_eq_mul,
    ip_lin3, LouCtx.dw5acc, show (1 / 2 - 1 : ℝ) = -1 / 2 by norm_num]
  ring

/-- The derivative of the effective stress with respect to the stress is the flow vector, and the
one with respect to the accumulated plastic strain is `deff_daccpstr`. -/
theorem effective (H : LouDiff1 K x S α) (h4 : 0 < (K x).w4) (h5 : 0 < (K x).w5) :
    HasFDerivAt (fun z => (K z).effective)
      ((ipL (K x).flow).comp S + (K x).deffAcc • α) x := by
  have := H.a.mul ((H.b.mul H.i1).add ((H.w5 h4).rpow_const (p := 1 / 3) (Or.inl h5.ne')))
  refine this.congr_fderiv ?_
  ext h
  have e : (K x).flow = fun i j => (K x).a * (K x).b * (K x).g.di1 i j +
      (K x).a * (1 / 3) * (K x).w5 ^ (-2 / 3 : ℝ) * (K x).dw5 i j + 0 * (K x).g.dj3 i j := by
    funext i j; simp only [LouCtx.flow, LouCtx.dw1]; ring
  rw [e]
  simp only [add_apply,
    smul_apply, ContinuousLinearMap.comp_apply, smul_eq_mul,
    ip_lin3, LouCtx.deffAcc, LouCtx.dw1acc, LouCtx.w1, show (1 / 3 - 1 : ℝ) = -2 / 3 by norm_num,
    Pi.add_apply, Pi.mul_apply]
  ring

end LouDiff1

namespace LouDiff
variable {F : Type*} [NormedAddCommGroup F] [NormedSpace ℝ F] {K : F → LouCtx} {x : F}
  {S : F →L[ℝ] T2 3} {α : F →L[ℝ] ℝ}

theorem dw4_deriv (H : LouDiff K x S α) (i j : Fin 3) :
    ∃ L : F →L[ℝ] ℝ, HasFDerivAt (fun z => (K z).dw4 i j) L x ∧
      ∀ h, L h = ddot42_1 (K x).d2w4 (S h) i j + (K x).d2w4acc i j * α h := by
  obtain ⟨L2, h2, e2⟩ := H.dj2 i j
  obtain ⟨L3, h3, e3⟩ := H.dj3 i j
  refine ⟨_, (((H.j2.pow 2).const_mul 3).mul h2).sub (((H.c.const_mul 2).mul H.j3).mul h3), ?_⟩
  intro h
  simp only [add_apply, sub_apply,
    smul_apply, ContinuousLinearMap.comp_apply, smul_eq_mul, nsmul_eq_mul,
    LouCtx.d2w4acc, e2, e3, Pi.mul_apply]
  have hl : ddot42_1 (K x).d2w4 (S h) i j = 6 * (K x).j2 * ((K x).g.dj2 i j * ipL (K x).g.dj2 (S h)) +
      3 * (K x).j2 ^ 2 * ddot42_1 (K x).g.d2j2 (S h) i j - 2 * (K x).c *
      ((K x).g.dj3 i j * ipL (K x).g.dj3 (S h) + (K x).j3 * ddot42_1 (K x).g.d2j3 (S h) i j) := by
    simp only [LouCtx.d2w4, LouCtx.d2w2, ipL_apply, ddot42_1, dyad22_1, Fin.sum_univ_three]
    ring
  rw [hl]
  push_cast
  ring

theorem dw5_deriv (H : LouDiff K x S α) (h4 : 0 < (K x).w4) (i j : Fin 3) :
    ∃ L : F →L[ℝ] ℝ, HasFDerivAt (fun z => (K z).dw5 i j) L x ∧
      ∀ h, L h = ddot42_1 (K x).d2w5 (S h) i j + (K x).d2w5acc i j * α h := by
  obtain ⟨L4, hd4, e4⟩ := H.dw4_deriv i j
  obtain ⟨L3, h3, e3⟩ := H.dj3 i j
  refine ⟨_, (((H.w4.rpow_const (p := -1 / 2) (Or.inl h4.ne')).const_mul (1 / 2)).mul hd4).sub
    (H.d.mul h3), ?_⟩
  intro h
  simp only [add_apply, sub_apply,
    smul_apply, ContinuousLinearMap.comp_apply, smul_eq_mul,
    LouCtx.d2w5acc, e3, e4, show (-1 / 2 - 1 : ℝ) = -3 / 2 by norm_num]
  have hl : ddot42_1 (K x).d2w5 (S h) i j =
      -(1 / 4) * (K x).w4 ^ (-3 / 2 : ℝ) * ((K x).dw4 i j * ipL (K x).dw4 (S h)) +
      1 / 2 * (K x).w4 ^ (-1 / 2 : ℝ) * ddot42_1 (K x).d2w4 (S h) i j -
      (K x).d * ddot42_1 (K x).g.d2j3 (S h) i j := by
    simp only [LouCtx.d2w5, LouCtx.d2w3, ipL_apply, ddot42_1, dyad22_1, Fin.sum_univ_three]
    ring
  rw [hl]
  ring

/-- Derivative of the flow vector: `dflow_dstress` and `dflow_daccpstr`. -/
theorem flow_deriv (H : LouDiff K x S α) (h4 : 0 < (K x).w4) (h5 : 0 < (K x).w5) (i j : Fin 3) :
    ∃ L : F →L[ℝ] ℝ, HasFDerivAt (fun z => (K z).flow i j) L x ∧
      ∀ h, L h = ddot42_1 (K x).dflow (S h) i j + (K x).dflowAcc i j * α h := by
  obtain ⟨L5, hd5, e5⟩ := H.dw5_deriv h4 i j
  have h1 : HasFDerivAt (fun z => (K z).dw1 i j) (((K x).hb * (getIdOperators 3).soid i j) • α) x := by
    have : (fun z => (K z).dw1 i j) = fun z => (K z).b * (getIdOperators 3).soid i j := by
      funext z; simp only [LouCtx.dw1, H.di1]
    rw [this]
    refine (H.b.mul_const _).congr_fderiv ?_
    ext h
    simp only [smul_apply, smul_eq_mul]
    ring
  refine ⟨_, H.a.mul (h1.add ((((H.w5 h4).rpow_const (p := -2 / 3) (Or.inl h5.ne')).const_mul
    (1 / 3)).mul hd5)), ?_⟩
  intro h
  have hl : ddot42_1 (K x).dflow (S h) i j = 1 / 3 * (K x).a *
      (-(2 / 3) * (K x).w5 ^ (-5 / 3 : ℝ) * ((K x).dw5 i j * ipL (K x).dw5 (S h)) +
      (K x).w5 ^ (-2 / 3 : ℝ) * ddot42_1 (K x).d2w5 (S h) i j) := by
    simp only [LouCtx.dflow, ipL_apply, ddot42_1, dyad22_1, Fin.sum_univ_three]
    ring
  rw [hl]
  simp only [add_apply,
    smul_apply, ContinuousLinearMap.comp_apply, smul_eq_mul,
    LouCtx.dflowAcc, LouCtx.d2w1acc, e5, show (-2 / 3 - 1 : ℝ) = -5 / 3 by norm_num, Pi.add_apply,
    Pi.mul_apply]
  ring

/-- Derivative of the norm of the flow vector. -/
theorem norm_deriv (H : LouDiff K x S α) (h4 : 0 < (K x).w4) (h5 : 0 < (K x).w5)
    (hn : normT2 (K x).flow ≠ 0) :
    ∃ L : F →L[ℝ] ℝ, HasFDerivAt (fun z => normT2 (K z).flow) L x ∧
      ∀ h, L h = 1 / normT2 (K x).flow *
        (∑ i, ∑ j, (K x).flow i j * (ddot42_1 (K x).dflow (S h) i j + (K x).dflowAcc i j * α h)) := by
  choose L hL eL using H.flow_deriv h4 h5
  have hs : HasFDerivAt (fun z => ∑ i, ∑ j, (K z).flow i j ^ 2)
      (∑ i, ∑ j, (2 * (K x).flow i j) • L i j) x := by
    refine HasFDerivAt.fun_sum fun i _ => HasFDerivAt.fun_sum fun j _ => ?_
    refine ((hL i j).pow 2).congr_fderiv ?_
    ext h
    simp
  have hne : ∑ i, ∑ j, (K x).flow i j ^ 2 ≠ 0 := fun h => hn (by rw [normT2, h, Real.sqrt_zero])
  refine ⟨_, hs.sqrt hne, ?_⟩
  intro h
  simp only [smul_apply, ContinuousLinearMap.sum_apply, smul_eq_mul, eL]
  rw [show √(∑ i, ∑ j, (K x).flow i j ^ 2) = normT2 (K x).flow from rfl]
  simp only [mul_assoc, ← Finset.mul_sum]
  generalize (∑ i, ∑ j, (K x).flow i j *
    (ddot42_1 (K x).dflow (S h) i j + (K x).dflowAcc i j * α h)) = q
  field_simp

end LouDiff

end Hooke
