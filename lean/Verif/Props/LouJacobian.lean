import Verif.Lemmas.LouFlow
import Verif.Lemmas.Kelvin6

/-!
# C89: the Jacobian of the return mapping is the derivative of the residual

Lou-Zhang-Yoon model, `get_residual_and_jacobian`.
-/

noncomputable section

namespace Hooke

open Spec Filter Topology

/-- The unknowns as one vector of eight components (Kelvin notation), lou.py:650-656, 723-731. -/
def louPoint (z : LouIx → ℝ) : LouPoint := ⟨unkel6 fun k => z (.inl k), z (.inr 0), z (.inr 1)⟩

/-- A hardening law returns its own derivative as hardening slope. -/
def LawSlope (f : HardLaw) (x : ℝ) : Prop := HasDerivAt (fun y => (f y).1) (f x).2 x

theorem hooke_tensor (m : LouParams) {e : T2 3} (he : IsSym e) :
    ddot42_1 m.tangent e = hooke (lamOf m.E m.v) (miuOf m.E m.v) e := by
  have h1 : e 1 0 = e 0 1 := he 1 0
  have h2 : e 2 0 = e 0 2 := he 2 0
  have h3 : e 2 1 = e 1 2 := he 2 1
  funext i j
  simp only [ddot42_1, LouParams.tangent, isoTensor, fodiagtrace_eq, fosym_eq, hooke, trace,
    Fin.sum_univ_three]
  fin_cases i <;> fin_cases j <;> simp [h1, h2, h3] <;> ring

theorem hooke_isSym (lam G : ℝ) {e : T2 3} (he : IsSym e) : IsSym (hooke lam G e) := by
  intro i j
  simp only [hooke, he i j, eq_comm (a := i) (b := j)]

theorem ddot42_isSym (m : LouParams) {e : T2 3} (he : IsSym e) : IsSym (ddot42_1 m.tangent e) := by
  rw [hooke_tensor m he]; exact hooke_isSym _ _ he

theorem fosym_act {e : T2 3} (he : IsSym e) : ddot42_1 (getIdOperators 3).fosym e = e := by
  have h1 : e 1 0 = e 0 1 := he 1 0
  have h2 : e 2 0 = e 0 2 := he 2 0
  have h3 : e 2 1 = e 1 2 := he 2 1
  funext i j
  simp only [ddot42_1, fosym_eq, Fin.sum_univ_three]
  fin_cases i <;> fin_cases j <;> simp [h1, h2, h3] <;> ring

/-- Stress as a linear function of the unknowns. -/
def louS (m : LouParams) : (LouIx → ℝ) →L[ℝ] T2 3 :=
  LinearMap.toContinuousLinearMap
    { toFun := fun z => ddot42_1 m.tangent (unkel6 fun k => z (.inl k))
      map_add' := fun x y => by
        funext i j
        simp only [ddot42_1, unkel6, Pi.add_apply, Fin.sum_univ_three]
        ring
      map_smul' := fun c x => by
        funext i j
        simp only [ddot42_1, unkel6, Pi.smul_apply, smul_eq_mul, Fin.sum_univ_three,
          RingHom.id_apply]
        ring }

theorem louS_apply (m : LouParams) (z : LouIx → ℝ) :
    louS m z = ddot42_1 m.tangent (unkel6 fun k => z (.inl k)) := rfl

theorem louS_isSym (m : LouParams) (z : LouIx → ℝ) : IsSym (louS m z) :=
  ddot42_isSym m (unkel6_isSym _)

/-- The context for given unknowns, with derivatives written without the inverse. -/
def louK (m : LouParams) (z : LouIx → ℝ) : LouCtx :=
  { i1 := trace (louS m z), j2 := devJ2 (louS m z), j3 := devJ3 (louS m z), g := louGradOf (louS m z)
    a := (m.a (z (.inr 0))).1, b := (m.b (z (.inr 0))).1
    c := (m.c (z (.inr 0))).1, d := (m.d (z (.inr 0))).1
    ha := (m.a (z (.inr 0))).2, hb := (m.b (z (.inr 0))).2
    hc := (m.c (z (.inr 0))).2, hd := (m.d (z (.inr 0))).2 }

theorem louCtx_ok (m : LouParams) {z : LouIx → ℝ} (h : devJ3 (louS m z) ≠ 0) :
    louCtx m (louPoint z) = .ok (louK m z) := by
  have hs := louS_isSym m z
  obtain ⟨e1, e2, e3⟩ := C88_invariants hs
  have := (louDerivatives_ok hs h).1
  rw [louS_apply] at this e1 e2 e3
  unfold louCtx louPoint
  dsimp only
  rw [this, e1, e2, e3]
  rfl

theorem louCtx_error (m : LouParams) {z : LouIx → ℝ} (h : devJ3 (louS m z) = 0) :
    louCtx m (louPoint z) = .error .runtimeError := by
  have hs := louS_isSym m z
  rw [louS_apply] at hs h
  unfold louCtx louPoint louDerivatives
  dsimp only
  rw [devproj_left hs]
  rw [show Matrix.det (Matrix.of (deviator (ddot42_1 m.tangent (unkel6 fun k => z (.inl k))))) = 0
    from h]
  simp only [raiseIf, decide_true]
  rfl

/-- Projection to a component. -/
def projIx (k : LouIx) : (LouIx → ℝ) →L[ℝ] ℝ := ContinuousLinearMap.proj k

theorem law_fderiv {f : HardLaw} {z : LouIx → ℝ} (h : LawSlope f (z (.inr 0))) :
    HasFDerivAt (fun y : LouIx → ℝ => (f (y (.inr 0))).1) ((f (z (.inr 0))).2 • projIx (.inr 0)) z := by
  have h1 : HasFDerivAt (fun y : LouIx → ℝ => y (.inr 0)) (projIx (.inr 0)) z :=
    (projIx (.inr 0)).hasFDerivAt
  have h' : HasDerivAt (fun y => (f y).1) (f (z (.inr 0))).2 ((fun y : LouIx → ℝ => y (.inr 0)) z) := h
  exact h'.comp_hasFDerivAt z h1

/-- The hardening laws of the yield parameters return their derivatives. -/
structure LouLaws (m : LouParams) (acc : ℝ) : Prop where
  y : LawSlope m.y acc
  a : LawSlope m.a acc
  b : LawSlope m.b acc
  c : LawSlope m.c acc
  d : LawSlope m.d acc

theorem louDiff (m : LouParams) {z : LouIx → ℝ} (h : devJ3 (louS m z) ≠ 0)
    (hl : LouLaws m (z (.inr 0))) : LouDiff (louK m) z (louS m) (projIx (.inr 0)) := by
  have hs := louS_isSym m z
  refine { i1 := ?_, j2 := ?_, j3 := ?_, a := law_fderiv hl.a, b := law_fderiv hl.b
           c := law_fderiv hl.c, d := law_fderiv hl.d, di1 := fun _ => rfl, dj2 := ?_, dj3 := ?_ }
  · exact (trace_hasFDerivAt (louS m z)).comp z (louS m).hasFDerivAt
  · exact (devJ2_hasFDerivAt (louS m z)).comp z (louS m).hasFDerivAt
  · exact (devJ3_hasFDerivAt hs).comp z (louS m).hasFDerivAt
  · intro i j
    have hdev : HasFDerivAt (fun t : T2 3 => deviator t i j)
        (fderiv ℝ (fun t : T2 3 => deviator t i j) (louS m z)) (louS m z) :=
      (deviator_differentiable i j _).hasFDerivAt
    have hlin : ∀ y, fderiv ℝ (fun t : T2 3 => deviator t i j) (louS m z) y = deviator y i j := by
      intro y
      have hl : HasDerivAt (fun s : ℝ => louS m z + s • y) y 0 := by
        simpa using ((hasDerivAt_id (0 : ℝ)).smul_const y).const_add (louS m z)
      have h2 : HasDerivAt (fun s : ℝ => deviator (louS m z + s • y) i j)
          (fderiv ℝ (fun t : T2 3 => deviator t i j) (louS m z) y) 0 := by
        have h1' : HasFDerivAt (fun t : T2 3 => deviator t i j)
          (fderiv ℝ (fun t : T2 3 => deviator t i j) (louS m z)) (louS m z + (0 : ℝ) • y) := by
            simpa using hdev
        exact h1'.comp_hasDerivAt (0 : ℝ) hl
      have h3 : HasDerivAt (fun s : ℝ => deviator (louS m z + s • y) i j) (deviator y i j) 0 := by
        simp only [deviator_line]
        simpa using ((hasDerivAt_id (0 : ℝ)).mul_const (deviator y i j)).const_add
          (deviator (louS m z) i j)
      exact h2.unique h3
    refine ⟨_, hdev.comp z (louS m).hasFDerivAt, fun y => ?_⟩
    rw [ContinuousLinearMap.comp_apply, hlin]
    show _ = ddot42_1 (getIdOperators 3).fodevprojsym (louS m y) i j
    rw [devproj_left (louS_isSym m y)]
  · intro i j
    refine ⟨_, (gradJ3_hasFDerivAt (louS m z) i j).comp z (louS m).hasFDerivAt, fun y => ?_⟩
    rw [ContinuousLinearMap.comp_apply, dgradJ3L_apply]
    show _ = ddot42_1 (louGradOf (louS m z)).d2j3 (louS m y) i j
    rw [(louDerivatives_ok hs h).2 _ (louS_isSym m y)]
    rfl

/-- Contraction of a tensor whose last two indices commute, in Kelvin notation. -/
theorem mv6_kel66_minor {A : T4 3} (hA : ∀ i j k l, A i j k l = A i j l k) (v : V6) :
    mv6 (kel66 A) v = kel6 (ddot42_1 A (unkel6 v)) := by
  funext k
  have h0 : √(2 : ℝ) ≠ 0 := by positivity
  have h2 : √(2 : ℝ) * √2 = 2 := Real.mul_self_sqrt (by norm_num)
  have h2' : √(2 : ℝ)⁻¹ = (√2)⁻¹ := Real.sqrt_inv 2
  have h3 : (√(2 : ℝ))⁻¹ * 2 = √2 := by field_simp; nlinarith
  simp only [mv6, kel66, kel6, ddot42_1, unkel6, Fin.sum_univ_succ, Fin.sum_univ_zero]
  generalize ci k = i
  generalize cj k = j
  generalize kf k = q
  simp [ci, cj, kf, pos6, hA _ _ 1 0, hA _ _ 2 0, hA _ _ 2 1]
  linear_combination (q * (A i j 0 1 * v 3 + A i j 1 2 * v 4 + A i j 0 2 * v 5)) * (-h3)

theorem kel6_dot {a : T2 3} (ha : IsSym a) (v : V6) :
    ∑ k, kel6 a k * v k = ∑ i, ∑ j, a i j * unkel6 v i j := by
  have h1 : a 1 0 = a 0 1 := ha 1 0
  have h2 : a 2 0 = a 0 2 := ha 2 0
  have h3 : a 2 1 = a 1 2 := ha 2 1
  have h0 : √(2 : ℝ) ≠ 0 := by positivity
  have h3' : (√(2 : ℝ))⁻¹ * 2 = √2 := by
    have : √(2 : ℝ) * √2 = 2 := Real.mul_self_sqrt (by norm_num)
    field_simp; nlinarith
  simp only [kel6, unkel6, Fin.sum_univ_succ, Fin.sum_univ_zero]
  simp [ci, cj, kf, pos6, h1, h2, h3]
  linear_combination (a 0 1 * v 3 + a 1 2 * v 4 + a 0 2 * v 5) * (-h3')

theorem tangent_minor (m : LouParams) (i j k l : Fin 3) :
    m.tangent i j k l = m.tangent i j l k := by
  have h1 := fosym_eq i j k l
  have h2 := fosym_eq i j l k
  have h3 : (getIdOperators 3).fodiagtrace i j k l = (getIdOperators 3).fodiagtrace i j l k := by
    rw [fodiagtrace_eq, fodiagtrace_eq]
    simp only [eq_comm (a := k) (b := l)]
  simp only [LouParams.tangent, isoTensor, h3]
  rw [h1, h2]
  ring

theorem ddot24_tangent_isSym (m : LouParams) (a : T2 3) : IsSym (ddot24_1 a m.tangent) := by
  intro i j
  simp only [ddot24_1]
  exact Finset.sum_congr rfl fun k _ => Finset.sum_congr rfl fun l _ => by rw [tangent_minor]

/-- The residual as a function of the unknowns. -/
def louResidual (m : LouParams) (eTrial : T2 3) (accOld : ℝ) (z : LouIx → ℝ) : LouIx → ℝ :=
  Sum.elim (kel6 (louR1 eTrial (louPoint z) (louK m z).flow))
    ![louR2 m.assoc accOld (louPoint z) (louK m z).flow,
      louR3 (louK m z).effective (m.y (z (.inr 0))).1 (m.y 0).1]

theorem louEval_ok_iff (m : LouParams) (eTrial : T2 3) (accOld : ℝ) (z : LouIx → ℝ) (r : LouEval) :
    louEval m eTrial accOld (louPoint z) = .ok (some r) ↔ devJ3 (louS m z) ≠ 0 ∧
      (louK m z).finite (m.y 0).1 ∧ r.residual = louResidual m eTrial accOld z ∧
      r = { r1 := louR1 eTrial (louPoint z) (louK m z).flow
            r2 := louR2 m.assoc accOld (louPoint z) (louK m z).flow
            r3 := louR3 (louK m z).effective (m.y (z (.inr 0))).1 (m.y 0).1
            jac := if louJacFinite m (louK m z) then some (louJacobian m (louPoint z) (louK m z))
              else none } := by
  by_cases h : devJ3 (louS m z) = 0
  · unfold louEval
    rw [louCtx_error m h]
    simp [h, Except.map]
  · unfold louEval
    rw [louCtx_ok m h]
    simp only [Except.map, Except.ok.injEq, louAssemble]
    by_cases hf : (louK m z).finite (m.y 0).1
    · rw [if_pos hf]
      constructor
      · intro he
        have := Option.some.inj he
        subst this
        exact ⟨h, hf, rfl, rfl⟩
      · rintro ⟨-, -, -, rfl⟩
        rfl
    · rw [if_neg hf]
      simp [hf]

theorem flow_isSym (m : LouParams) (z : LouIx → ℝ) : IsSym (louK m z).flow := by
  have h1 := deviator_isSym (louS_isSym m z)
  have h2 : IsSym (gradJ3 (louS m z)) := deviator_isSym (adjT_isSym h1)
  intro i j
  simp only [LouCtx.flow, LouCtx.dw1, LouCtx.dw5, LouCtx.dw4, LouCtx.dw2, LouCtx.dw3]
  have e1 : (louK m z).g.dj2 i j = (louK m z).g.dj2 j i := h1 i j
  have e2 : (louK m z).g.dj3 i j = (louK m z).g.dj3 j i := h2 i j
  have e3 : (louK m z).g.di1 i j = (louK m z).g.di1 j i := by
    show (getIdOperators 3).soid i j = (getIdOperators 3).soid j i
    rw [(C09_actions 3 0).1, (C09_actions 3 0).1]
    simp only [eq_comm (a := i) (b := j)]
  rw [e1, e2, e3]

/-- Component of the first residual. -/
theorem louR1_fderiv (m : LouParams) (eTrial : T2 3) {z : LouIx → ℝ} (h : devJ3 (louS m z) ≠ 0)
    (hl : LouLaws m (z (.inr 0))) (h4 : 0 < (louK m z).w4) (h5 : 0 < (louK m z).w5) (k : Fin 6) :
    ∃ L : (LouIx → ℝ) →L[ℝ] ℝ,
      HasFDerivAt (fun z => kel6 (louR1 eTrial (louPoint z) (louK m z).flow) k) L z ∧
      ∀ y, L y = (louJacobian m (louPoint z) (louK m z)).mulVec y (.inl k) := by
  have H := louDiff m h hl
  obtain ⟨L, hL, eL⟩ := H.flow_deriv h4 h5 (ci k) (cj k)
  have hf : (fun z : LouIx → ℝ => kel6 (louR1 eTrial (louPoint z) (louK m z).flow) k) = fun z =>
      z (.inl k) - kel6 eTrial k + z (.inr 1) * ((louK m z).flow (ci k) (cj k) * kf k) := by
    funext z
    have := congrFun (kel6_unkel6 fun k => z (.inl k)) k
    simp only [kel6] at this
    simp only [kel6, louR1, louPoint]
    rw [← this]
    ring
  rw [hf]
  have p0 : HasFDerivAt (fun z : LouIx → ℝ => z (.inl k)) (projIx (.inl k)) z :=
    (projIx (.inl k)).hasFDerivAt
  have p1 : HasFDerivAt (fun z : LouIx → ℝ => z (.inr 1)) (projIx (.inr 1)) z :=
    (projIx (.inr 1)).hasFDerivAt
  refine ⟨_, (p0.sub_const (kel6 eTrial k)).add (p1.mul (hL.mul_const (kf k))), fun y => ?_⟩
  simp only [add_apply, smul_apply, smul_eq_mul, eL]
  have hpr : ∀ q : LouIx, projIx q y = y q := fun _ => rfl
  rw [hpr, hpr, hpr]
  have e1 : mv6 (kel66 fun i j p q => (getIdOperators 3).fosym i j p q +
      z (.inr 1) * ddot44_1 (louK m z).dflow m.tangent i j p q) (fun k => y (.inl k)) k =
      y (.inl k) + z (.inr 1) * (ddot42_1 (louK m z).dflow (louS m y) (ci k) (cj k) * kf k) := by
    rw [mv6_kel66_minor]
    · have e2 : ddot42_1 (fun i j p q => (getIdOperators 3).fosym i j p q +
          z (.inr 1) * ddot44_1 (louK m z).dflow m.tangent i j p q) (unkel6 fun k => y (.inl k)) =
          fun i j => unkel6 (fun k => y (.inl k)) i j +
            z (.inr 1) * ddot42_1 (louK m z).dflow (louS m y) i j := by
        rw [louS_apply, ← (C68_contractions _ _ (louS m y) _ (louS m y) 0 0).1]
        have e3 := fosym_act (unkel6_isSym fun k => y (.inl k))
        funext i j
        have e4 := congrFun (congrFun e3 i) j
        simp only [ddot42_1] at e4 ⊢
        rw [← e4]
        simp only [add_mul, Finset.sum_add_distrib, Finset.mul_sum, mul_assoc]
      rw [e2]
      have := congrFun (kel6_unkel6 fun k => y (.inl k)) k
      simp only [kel6] at this ⊢
      rw [add_mul, this]
      ring
    · intro i j p q
      have e3 := fosym_eq i j p q
      have e4 := fosym_eq i j q p
      have e5 : (getIdOperators 3).fosym i j p q = (getIdOperators 3).fosym i j q p := by
        rw [e3, e4]; ring
      rw [e5]
      congr 2
      simp only [ddot44_1]
      exact Finset.sum_congr rfl fun k _ => Finset.sum_congr rfl fun l _ => by rw [tangent_minor]
  have e6 : (louJacobian m (louPoint z) (louK m z)).mulVec y (.inl k) =
      mv6 (kel66 fun i j p q => (getIdOperators 3).fosym i j p q +
        z (.inr 1) * ddot44_1 (louK m z).dflow m.tangent i j p q) (fun k => y (.inl k)) k +
      (kel6 (fun i j => z (.inr 1) * (louK m z).dflowAcc i j) k * y (.inr 0) +
        kel6 (louK m z).flow k * y (.inr 1)) := by
    simp only [Matrix.mulVec, dotProduct, Fintype.sum_sum_type, louJacobian, Matrix.fromBlocks_apply₁₁,
      Matrix.fromBlocks_apply₁₂, Matrix.of_apply, mv6, louPoint, Fin.sum_univ_two]
    rfl
  rw [e6, e1]
  simp only [kel6]
  ring

theorem kel6_zero_dot (v : V6) : ∑ k, kel6 (0 : T2 3) k * v k = 0 := by
  simp [kel6]

/-- The second residual. -/
theorem louR2_fderiv (m : LouParams) (accOld : ℝ) {z : LouIx → ℝ} (h : devJ3 (louS m z) ≠ 0)
    (hl : LouLaws m (z (.inr 0))) (h4 : 0 < (louK m z).w4) (h5 : 0 < (louK m z).w5)
    (hj : louJacFinite m (louK m z)) :
    ∃ L : (LouIx → ℝ) →L[ℝ] ℝ,
      HasFDerivAt (fun z => louR2 m.assoc accOld (louPoint z) (louK m z).flow) L z ∧
      ∀ y, L y = (louJacobian m (louPoint z) (louK m z)).mulVec y (.inr 0) := by
  have p0 : HasFDerivAt (fun z : LouIx → ℝ => z (.inr 0)) (projIx (.inr 0)) z :=
    (projIx (.inr 0)).hasFDerivAt
  have p1 : HasFDerivAt (fun z : LouIx → ℝ => z (.inr 1)) (projIx (.inr 1)) z :=
    (projIx (.inr 1)).hasFDerivAt
  have hpr : ∀ (q : LouIx) y, projIx q y = y q := fun _ _ => rfl
  have e6 : ∀ y, (louJacobian m (louPoint z) (louK m z)).mulVec y (.inr 0) =
      ∑ k, kel6 (louDr2e m.assoc (louPoint z) (louK m z).flow
        (ddot44_1 (louK m z).dflow m.tangent)) k * y (.inl k) +
      (louDr2acc m.assoc (louPoint z) (louK m z).flow (louK m z).dflowAcc * y (.inr 0) +
        louDr2inc m.assoc (louK m z).flow * y (.inr 1)) := by
    intro y
    simp only [Matrix.mulVec, dotProduct, Fintype.sum_sum_type, louJacobian, Matrix.fromBlocks_apply₂₁,
      Matrix.fromBlocks_apply₂₂, Matrix.of_apply, Fin.sum_univ_two]
    rfl
  by_cases ha : m.assoc = true
  · simp only [ha, louR2, louDr2e, louDr2acc, louDr2inc, if_true, louPoint] at e6 ⊢
    refine ⟨_, (p0.sub_const accOld).sub (p1.const_mul 1), fun y => ?_⟩
    rw [e6, kel6_zero_dot]
    simp only [sub_apply, smul_apply, smul_eq_mul, hpr]
    ring
  · have hn : normT2 (louK m z).flow ≠ 0 := by
      rcases hj with hj | hj
      · exact absurd hj ha
      · exact hj
    have H := louDiff m h hl
    obtain ⟨L, hL, eL⟩ := H.norm_deriv h4 h5 hn
    simp only [Bool.not_eq_true] at ha
    simp only [ha, louR2, louDr2e, louDr2acc, louDr2inc, louPoint, Bool.false_eq_true, if_false] at e6 ⊢
    refine ⟨_, (p0.sub_const accOld).sub ((p1.mul_const √(2 / 3)).mul hL), fun y => ?_⟩
    rw [e6]
    simp only [sub_apply, add_apply,
      smul_apply, smul_eq_mul, hpr, eL]
    have hsym : IsSym (fun i j => -z (.inr 1) * √(2 / 3) * (1 / normT2 (louK m z).flow) *
        ddot24_1 (louK m z).flow (ddot44_1 (louK m z).dflow m.tangent) i j) := by
      intro i j
      refine congrArg (fun q => -z (.inr 1) * √(2 / 3) * (1 / normT2 (louK m z).flow) * q) ?_
      simp only [ddot24_1, ddot44_1]
      refine Finset.sum_congr rfl fun k _ => Finset.sum_congr rfl fun l _ => ?_
      congr 1
      exact Finset.sum_congr rfl fun k _ => Finset.sum_congr rfl fun l _ => by rw [tangent_minor]
    rw [kel6_dot hsym fun k => y (.inl k)]
    have e7 : ∑ i, ∑ j, ddot24_1 (louK m z).flow (ddot44_1 (louK m z).dflow m.tangent) i j *
        unkel6 (fun k => y (.inl k)) i j =
        ∑ i, ∑ j, (louK m z).flow i j * ddot42_1 (louK m z).dflow (louS m y) i j := by
      have := (C68_contractions (ddot44_1 (louK m z).dflow m.tangent) (louK m z).g.d2j2
        (louK m z).flow (unkel6 fun k => y (.inl k)) (louS m y) 0 0).2.1
      rw [(C68_contractions _ _ (louS m y) _ (louS m y) 0 0).1] at this
      exact this
    have e8 : ∑ i, ∑ j, (-z (.inr 1) * √(2 / 3) * (1 / normT2 (louK m z).flow) *
        ddot24_1 (louK m z).flow (ddot44_1 (louK m z).dflow m.tangent) i j) *
          unkel6 (fun k => y (.inl k)) i j =
        -z (.inr 1) * √(2 / 3) * (1 / normT2 (louK m z).flow) *
        ∑ i, ∑ j, (louK m z).flow i j * ddot42_1 (louK m z).dflow (louS m y) i j := by
      rw [← e7]
      simp only [Finset.mul_sum, mul_assoc]
    rw [e8]
    have e9 : ∑ i, ∑ j, (louK m z).flow i j * (ddot42_1 (louK m z).dflow (louS m y) i j +
        (louK m z).dflowAcc i j * y (.inr 0)) =
        ∑ i, ∑ j, (louK m z).flow i j * ddot42_1 (louK m z).dflow (louS m y) i j +
          ddot22_1 (louK m z).flow (louK m z).dflowAcc * y (.inr 0) := by
      simp only [ddot22_1, mul_add, Finset.sum_add_distrib, Finset.sum_mul, mul_assoc]
    rw [e9]
    ring

/-- The third residual. -/
theorem louR3_fderiv (m : LouParams) {z : LouIx → ℝ} (h : devJ3 (louS m z) ≠ 0)
    (hl : LouLaws m (z (.inr 0))) (h4 : 0 < (louK m z).w4) (h5 : 0 < (louK m z).w5) :
    ∃ L : (LouIx → ℝ) →L[ℝ] ℝ,
      HasFDerivAt (fun z => louR3 (louK m z).effective (m.y (z (.inr 0))).1 (m.y 0).1) L z ∧
      ∀ y, L y = (louJacobian m (louPoint z) (louK m z)).mulVec y (.inr 1) := by
  have hpr : ∀ (q : LouIx) y, projIx q y = y q := fun _ _ => rfl
  have H := louDiff m h hl
  have he := ((H.effective h4 h5).sub (law_fderiv hl.y)).mul_const (1 / (m.y 0).1)
  have hf : (fun z => louR3 (louK m z).effective (m.y (z (.inr 0))).1 (m.y 0).1) = fun z =>
      ((louK m z).effective - (m.y (z (.inr 0))).1) * (1 / (m.y 0).1) := by
    funext z
    rw [louR3]
    ring
  rw [hf]
  refine ⟨_, he, fun y => ?_⟩
  have e6 : (louJacobian m (louPoint z) (louK m z)).mulVec y (.inr 1) =
      ∑ k, kel6 (fun i j => 1 / (m.y 0).1 * ddot24_1 (louK m z).flow m.tangent i j) k * y (.inl k) +
      (1 / (m.y 0).1 * ((louK m z).deffAcc - (m.y (z (.inr 0))).2) * y (.inr 0) + 0 * y (.inr 1)) := by
    simp only [Matrix.mulVec, dotProduct, Fintype.sum_sum_type, louJacobian, Matrix.fromBlocks_apply₂₁,
      Matrix.fromBlocks_apply₂₂, Matrix.of_apply, Fin.sum_univ_two]
    rfl
  rw [e6]
  have hsym := ddot24_tangent_isSym m (louK m z).flow
  rw [kel6_dot (fun i j => by rw [hsym i j]) fun k => y (.inl k)]
  have e7 := (C68_contractions m.tangent (louK m z).g.d2j2
    (louK m z).flow (unkel6 fun k => y (.inl k)) (louS m y) 0 0).2.1
  have e8 : ∑ i, ∑ j, (1 / (m.y 0).1 * ddot24_1 (louK m z).flow m.tangent i j) *
      unkel6 (fun k => y (.inl k)) i j = 1 / (m.y 0).1 * ipL (louK m z).flow (louS m y) := by
    rw [ipL_apply, louS_apply]
    refine Eq.trans ?_ (congrArg (fun q => 1 / (m.y 0).1 * q) e7)
    simp only [Spec.inner, Finset.mul_sum, mul_assoc]
  rw [e8]
  simp only [sub_apply, add_apply,
      smul_apply, ContinuousLinearMap.comp_apply, smul_eq_mul, hpr]
  ring

/-- C89: wherever the residual and the Jacobian of the return mapping are finite and the hardening
laws return their derivatives, the matrix returned as Jacobian is the Fréchet derivative of the
residual with respect to the eight unknowns. -/
theorem C89_jacobian (m : LouParams) (eTrial : T2 3) (accOld : ℝ) {z : LouIx → ℝ}
    (hl : LouLaws m (z (.inr 0))) {r : LouEval} {J : Matrix LouIx LouIx ℝ}
    (h : louEval m eTrial accOld (louPoint z) = .ok (some r)) (hJ : r.jac = some J) :
    ∃ R : (LouIx → ℝ) → (LouIx → ℝ),
      (∀ᶠ y in 𝓝 z, ∃ r', louEval m eTrial accOld (louPoint y) = .ok (some r') ∧
        r'.residual = R y) ∧
      HasFDerivAt R (LinearMap.toContinuousLinearMap (Matrix.mulVecLin J)) z := by
  obtain ⟨hd, ⟨h4, h5, hy⟩, -, rfl⟩ := (louEval_ok_iff m eTrial accOld z r).mp h
  have hj : louJacFinite m (louK m z) := by
    by_contra hc
    simp [hc] at hJ
  have hJ' : J = louJacobian m (louPoint z) (louK m z) := by
    simp only [if_pos hj] at hJ
    exact (Option.some.inj hJ).symm
  subst hJ'
  refine ⟨louResidual m eTrial accOld, ?_, ?_⟩
  · have H := louDiff m hd hl
    have c3 : ContinuousAt (fun y => devJ3 (louS m y)) z := H.j3.continuousAt
    have c4 := H.w4.continuousAt
    have c5 := (H.w5 h4).continuousAt
    filter_upwards [c3.eventually_ne hd, c4.eventually_const_lt h4, c5.eventually_const_lt h5]
      with y y3 y4 y5
    have := (louEval_ok_iff m eTrial accOld y _).mpr ⟨y3, ⟨y4, y5, hy⟩, rfl, rfl⟩
    exact ⟨_, this, rfl⟩
  · rw [hasFDerivAt_pi']
    rintro (k | k)
    · obtain ⟨L, hL, eL⟩ := louR1_fderiv m eTrial hd hl h4 h5 k
      refine hL.congr_fderiv ?_
      ext y
      simpa using eL y
    · fin_cases k
      · obtain ⟨L, hL, eL⟩ := louR2_fderiv m accOld hd hl h4 h5 hj
        refine hL.congr_fderiv ?_
        ext y
        simpa using eL y
      · obtain ⟨L, hL, eL⟩ := louR3_fderiv m hd hl h4 h5
        refine hL.congr_fderiv ?_
        ext y
        simpa using eL y

/-- Unknowns with a symmetric elastic strain as a vector. -/
def louVec (x : LouPoint) : LouIx → ℝ := Sum.elim (kel6 x.e) ![x.acc, x.inc]

theorem louPoint_louVec {x : LouPoint} (h : IsSym x.e) : louPoint (louVec x) = x := by
  unfold louPoint louVec
  simp only [Sum.elim_inl, Sum.elim_inr]
  have := unkel6_kel6 h
  obtain ⟨e, a, i⟩ := x
  simp only at this ⊢
  rw [show (fun k => kel6 e k) = kel6 e from rfl, this]
  rfl

theorem louS_louVec (m : LouParams) {x : LouPoint} (h : IsSym x.e) :
    louS m (louVec x) = hooke (lamOf m.E m.v) (miuOf m.E m.v) x.e := by
  rw [louS_apply, ← hooke_tensor m h]
  congr 1
  exact unkel6_kel6 h

/-- C89: the flow vector is the gradient, at the current stress, of the effective stress of Lou,
Zhang and Yoon with the current yield parameters, and the effective stress in the residual is that
stress. -/
theorem C89_flow (m : LouParams) {x : LouPoint} (hx : IsSym x.e) {k : LouCtx} {y0 : ℝ}
    (h : louCtx m x = .ok k) (hf : k.finite y0) :
    k.effective = lzyStress (m.a x.acc).1 (m.b x.acc).1 (m.c x.acc).1 (m.d x.acc).1
      (hooke (lamOf m.E m.v) (miuOf m.E m.v) x.e) ∧
    ∃ L : T2 3 →L[ℝ] ℝ, (∀ s, L s = ∑ i, ∑ j, k.flow i j * s i j) ∧
      HasFDerivAt (lzyStress (m.a x.acc).1 (m.b x.acc).1 (m.c x.acc).1 (m.d x.acc).1) L
        (hooke (lamOf m.E m.v) (miuOf m.E m.v) x.e) := by
  rw [← louPoint_louVec hx] at h
  have hd : devJ3 (louS m (louVec x)) ≠ 0 := by
    intro hc
    rw [louCtx_error m hc] at h
    cases h
  rw [louCtx_ok m hd] at h
  have hk : louK m (louVec x) = k := Except.ok.inj h
  have hS := louS_louVec m hx
  set t := hooke (lamOf m.E m.v) (miuOf m.E m.v) x.e with ht
  have hts : IsSym t := hooke_isSym _ _ hx
  let K : T2 3 → LouCtx := fun s => { k with i1 := trace s, j2 := devJ2 s, j3 := devJ3 s }
  have hKt : K t = k := by
    rw [← hk]
    simp only [K, louK, hS, ← hk]
  have hg : k.g = louGradOf t := by rw [← hk, ← hS]; rfl
  have hz : ∀ c : ℝ, c • (0 : T2 3 →L[ℝ] ℝ) = 0 := fun c => smul_zero c
  have H : LouDiff1 K t (ContinuousLinearMap.id ℝ (T2 3)) 0 := by
    refine { i1 := ?_, j2 := ?_, j3 := ?_, a := ?_, b := ?_, c := ?_, d := ?_ }
    · rw [hKt, hg, ContinuousLinearMap.comp_id]; exact trace_hasFDerivAt t
    · rw [hKt, hg, ContinuousLinearMap.comp_id]; exact devJ2_hasFDerivAt t
    · rw [hKt, hg, ContinuousLinearMap.comp_id]; exact devJ3_hasFDerivAt hts
    all_goals
      rw [hz]
      exact hasFDerivAt_const _ _
  obtain ⟨h4, h5, -⟩ := hf
  have hE := H.effective (by rw [hKt]; exact h4) (by rw [hKt]; exact h5)
  have hfun : (fun s => (K s).effective) =
      lzyStress (m.a x.acc).1 (m.b x.acc).1 (m.c x.acc).1 (m.d x.acc).1 := by
    funext s
    simp only [K, LouCtx.effective, LouCtx.w1, LouCtx.w5, LouCtx.w4, lzyStress, Real.sqrt_eq_rpow]
    rw [← hk]
    rfl
  rw [hfun, hz, add_zero, ContinuousLinearMap.comp_id, hKt] at hE
  refine ⟨?_, _, fun s => ipL_apply _ s, hE⟩
  rw [← hfun]
  exact (congrArg LouCtx.effective hKt).symm

/-! ### Concrete case: uniaxial stress, von Mises parameters, associative hardening -/

/-- Linear isotropic hardening with the von Mises effective stress. -/
def louDemo : LouParams :=
  { E := 1, v := 0, y := fun x => (1 + x, 1), a := fun _ => (√3, 0), b := fun _ => (0, 0)
    c := fun _ => (0, 0), d := fun _ => (0, 0), assoc := true }

theorem louDemo_hooke (e : T2 3) :
    hooke (lamOf louDemo.E louDemo.v) (miuOf louDemo.E louDemo.v) e = e := by
  funext i j
  simp only [louDemo, lamOf, miuOf, hooke]
  norm_num

theorem louDemo_laws (x : ℝ) : LouLaws louDemo x where
  y := by simpa [LawSlope, louDemo] using (hasDerivAt_id x).const_add 1
  a := by simpa [LawSlope, louDemo] using hasDerivAt_const x (√3 : ℝ)
  b := by simpa [LawSlope, louDemo] using hasDerivAt_const x (0 : ℝ)
  c := by simpa [LawSlope, louDemo] using hasDerivAt_const x (0 : ℝ)
  d := by simpa [LawSlope, louDemo] using hasDerivAt_const x (0 : ℝ)

example : ∃ r J, louEval louDemo (uniaxial 2) 0 (louPoint (louVec ⟨uniaxial 2, 0, 0⟩)) =
    .ok (some r) ∧ r.jac = some J := by
  have hS : louS louDemo (louVec ⟨uniaxial 2, 0, 0⟩) = uniaxial 2 := by
    rw [louS_louVec louDemo (uniaxial_isSym 2), louDemo_hooke]
  obtain ⟨-, j2, j3⟩ := uniaxial_inv 2
  have h4 : 0 < (louK louDemo (louVec ⟨uniaxial 2, 0, 0⟩)).w4 := by
    simp only [LouCtx.w4, louK, hS, j2, j3]
    norm_num [louDemo]
  have h5 : 0 < (louK louDemo (louVec ⟨uniaxial 2, 0, 0⟩)).w5 := by
    have : (0 : ℝ) < (louK louDemo (louVec ⟨uniaxial 2, 0, 0⟩)).w4 ^ (1 / 2 : ℝ) :=
      Real.rpow_pos_of_pos h4 _
    have e : (louK louDemo (louVec ⟨uniaxial 2, 0, 0⟩)).d = 0 := rfl
    rw [LouCtx.w5, e]
    linarith
  refine ⟨_, _, (louEval_ok_iff _ _ _ _ _).mpr ⟨?_, ⟨h4, h5, ?_⟩, rfl, rfl⟩, if_pos (Or.inl rfl)⟩
  · rw [hS, j3]; norm_num
  · simp [louDemo]

end Hooke
