import Verif.Lemmas.LouRotate
import Verif.Model.LouVMAP

/-!
# Rotated return mapping of the Lou-Zhang-Yoon model
-/

noncomputable section

namespace Hooke

open Spec

/-- The Jacobian from its blocks. -/
def louBlocks (A : M6) (b c d e : V6) (s t u : ℝ) : Matrix LouIx LouIx ℝ :=
  Matrix.fromBlocks (Matrix.of A) (Matrix.of fun i => ![b i, c i]) (Matrix.of ![d, e])
    (Matrix.of ![![s, t], ![u, 0]])

theorem louBlocks_inl (A : M6) (b c d e : V6) (s t u : ℝ) (y : LouIx → ℝ) (k : Fin 6) :
    (louBlocks A b c d e s t u).mulVec y (.inl k) =
      mv6 A (fun k => y (.inl k)) k + (b k * y (.inr 0) + c k * y (.inr 1)) := by
  simp only [Matrix.mulVec, dotProduct, Fintype.sum_sum_type, louBlocks, Matrix.fromBlocks_apply₁₁,
      Matrix.fromBlocks_apply₁₂, Matrix.of_apply, mv6, Fin.sum_univ_two]
  rfl

theorem louBlocks_inr0 (A : M6) (b c d e : V6) (s t u : ℝ) (y : LouIx → ℝ) :
    (louBlocks A b c d e s t u).mulVec y (.inr 0) =
      ∑ k, d k * y (.inl k) + (s * y (.inr 0) + t * y (.inr 1)) := by
  simp only [Matrix.mulVec, dotProduct, Fintype.sum_sum_type, louBlocks, Matrix.fromBlocks_apply₂₁,
      Matrix.fromBlocks_apply₂₂, Matrix.of_apply, Fin.sum_univ_two]
  rfl

theorem louBlocks_inr1 (A : M6) (b c d e : V6) (s t u : ℝ) (y : LouIx → ℝ) :
    (louBlocks A b c d e s t u).mulVec y (.inr 1) =
      ∑ k, e k * y (.inl k) + (u * y (.inr 0) + 0 * y (.inr 1)) := by
  simp only [Matrix.mulVec, dotProduct, Fintype.sum_sum_type, louBlocks, Matrix.fromBlocks_apply₂₁,
      Matrix.fromBlocks_apply₂₂, Matrix.of_apply, Fin.sum_univ_two]
  rfl

theorem rotKel_lin3 (Q : T2 3) (x b c : V6) (s t : ℝ) :
    rotKel Q (fun k => x k + (b k * s + c k * t)) =
      fun k => rotKel Q x k + (rotKel Q b k * s + rotKel Q c k * t) := by
  have e : (fun k => x k + (b k * s + c k * t)) = x + (s • b + t • c) := by
    funext k
    simp only [Pi.add_apply, Pi.smul_apply, smul_eq_mul]
    ring
  rw [e, rotKel_add, rotKel_add, rotKel_smul, rotKel_smul]
  funext k
  simp only [Pi.add_apply, Pi.smul_apply, smul_eq_mul]
  ring

theorem louBlocks_rot {Q : T2 3} {A A' : M6} {b c d d' e e' : V6} {s t u : ℝ}
    (hA : ∀ x, mv6 A' (rotKel Q x) = rotKel Q (mv6 A x))
    (hd : ∀ x, ∑ j, d' j * rotKel Q x j = ∑ j, d j * x j)
    (he : ∀ x, ∑ j, e' j * rotKel Q x j = ∑ j, e j * x j) (y : LouIx → ℝ) :
    (louBlocks A' (rotKel Q b) (rotKel Q c) d' e' s t u).mulVec (rotZ Q y) =
      rotZ Q ((louBlocks A b c d e s t u).mulVec y) := by
  funext k
  rcases k with k | k
  · rw [louBlocks_inl]
    have e1 : (fun k => rotZ Q y (.inl k)) = rotKel Q fun k => y (.inl k) := rfl
    have e2 : (fun k => (louBlocks A b c d e s t u).mulVec y (.inl k)) =
        fun k => mv6 A (fun k => y (.inl k)) k + (b k * y (.inr 0) + c k * y (.inr 1)) :=
      funext fun k => louBlocks_inl A b c d e s t u y k
    have e3 : rotZ Q ((louBlocks A b c d e s t u).mulVec y) (.inl k) =
        rotKel Q (fun k => (louBlocks A b c d e s t u).mulVec y (.inl k)) k := rfl
    rw [e3, e2, rotKel_lin3, e1, hA]
    rfl
  · fin_cases k
    · refine (louBlocks_inr0 _ _ _ _ _ _ _ _ _).trans (Eq.trans ?_ (louBlocks_inr0 A b c d e s t u y).symm)
      exact congrArg (· + (s * y (.inr 0) + t * y (.inr 1))) (hd fun k => y (.inl k))
    · refine (louBlocks_inr1 _ _ _ _ _ _ _ _ _).trans (Eq.trans ?_ (louBlocks_inr1 A b c d e s t u y).symm)
      exact congrArg (· + (u * y (.inr 0) + 0 * y (.inr 1))) (he fun k => y (.inl k))

theorem dr1_act (m : LouParams) (k : LouCtx) (inc : ℝ) (y : V6) :
    mv6 (kel66 fun i j p q => (getIdOperators 3).fosym i j p q + inc * ddot44_1 k.dflow m.tangent i j p q) y =
      kel6 (unkel6 y + inc • ddot42_1 k.dflow (hooke (lamOf m.E m.v) (miuOf m.E m.v) (unkel6 y))) := by
  rw [mv6_kel66_minor]
  · congr 1
    have e : (fun i j p q => (getIdOperators 3).fosym i j p q + inc * ddot44_1 k.dflow m.tangent i j p q) =
        (getIdOperators 3).fosym + inc • ddot44_1 k.dflow m.tangent := rfl
    rw [e, ddot42_add, ddot42_smul, fosym_act (unkel6_isSym y),
      (C68_contractions _ _ 0 (unkel6 y) 0 0 0).1, hooke_tensor m (unkel6_isSym y)]
  · intro i j p q
    have e5 : (getIdOperators 3).fosym i j p q = (getIdOperators 3).fosym i j q p := by
      rw [fosym_eq i j p q, fosym_eq i j q p]; ring
    rw [e5]
    congr 2
    simp only [ddot44_1]
    exact Finset.sum_congr rfl fun k _ => Finset.sum_congr rfl fun l _ => by rw [tangent_minor]

theorem dr3_act (m : LouParams) (k : LouCtx) (c : ℝ) (y : V6) :
    ∑ j, kel6 (fun i j => c * ddot24_1 k.flow m.tangent i j) j * y j =
      c * ∑ i, ∑ j, k.flow i j * hooke (lamOf m.E m.v) (miuOf m.E m.v) (unkel6 y) i j := by
  have hsym := ddot24_tangent_isSym m k.flow
  rw [kel6_dot (fun i j => by rw [hsym i j]) y]
  have e7 := (C68_contractions m.tangent k.g.d2j2 k.flow (unkel6 y) 0 0 0).2.1
  rw [hooke_tensor m (unkel6_isSym y)] at e7
  refine Eq.trans ?_ (congrArg (fun q => c * q) e7)
  simp only [Spec.inner, Finset.mul_sum, mul_assoc]

theorem dr2_act (m : LouParams) (k : LouCtx) (x : LouPoint) (y : V6) :
    ∑ j, kel6 (louDr2e m.assoc x k.flow (ddot44_1 k.dflow m.tangent)) j * y j =
      if m.assoc then 0 else -x.inc * √(2 / 3) * (1 / normT2 k.flow) *
        ∑ i, ∑ j, k.flow i j * ddot42_1 k.dflow (hooke (lamOf m.E m.v) (miuOf m.E m.v) (unkel6 y)) i j := by
  unfold louDr2e
  split
  · exact kel6_zero_dot y
  · have hsym : IsSym (ddot24_1 k.flow (ddot44_1 k.dflow m.tangent)) := by
      intro i j
      simp only [ddot24_1, ddot44_1]
      refine Finset.sum_congr rfl fun k _ => Finset.sum_congr rfl fun l _ => ?_
      congr 1
      exact Finset.sum_congr rfl fun k _ => Finset.sum_congr rfl fun l _ => by rw [tangent_minor]
    rw [kel6_dot (fun i j => by rw [hsym i j]) y]
    have e7 := (C68_contractions (ddot44_1 k.dflow m.tangent) k.g.d2j2 k.flow (unkel6 y) 0 0 0).2.1
    rw [(C68_contractions _ _ 0 (unkel6 y) 0 0 0).1, hooke_tensor m (unkel6_isSym y)] at e7
    refine Eq.trans ?_ (congrArg (fun q => -x.inc * √(2 / 3) * (1 / normT2 k.flow) * q) e7)
    simp only [Spec.inner, Finset.mul_sum, mul_assoc]

section
variable {Q : T2 3} {k : LouCtx} {g' : LouGrad}

theorem dr1_rot (h : IsOrthogonal Q) (H : RotGrad Q k.g g') (m : LouParams) (inc : ℝ) (y : V6) :
    mv6 (kel66 fun i j p q => (getIdOperators 3).fosym i j p q +
        inc * ddot44_1 ({ k with g := g' } : LouCtx).dflow m.tangent i j p q) (rotKel Q y) =
      rotKel Q (mv6 (kel66 fun i j p q => (getIdOperators 3).fosym i j p q +
        inc * ddot44_1 k.dflow m.tangent i j p q) y) := by
  have hs := hooke_isSym (lamOf m.E m.v) (miuOf m.E m.v) (unkel6_isSym y)
  rw [dr1_act, dr1_act, unkel6_rotKel, rotL_hooke h, rot_dflow h H hs, ← map_smul, ← map_add, kel6_rotL]
  exact symSpace.add_mem (unkel6_isSym y) (symSpace.smul_mem _ (dflow_isSym H hs))

theorem dr3_rot (h : IsOrthogonal Q) (H : RotGrad Q k.g g') (m : LouParams) (c : ℝ) (y : V6) :
    ∑ j, kel6 (fun i j => c * ddot24_1 ({ k with g := g' } : LouCtx).flow m.tangent i j) j * rotKel Q y j =
      ∑ j, kel6 (fun i j => c * ddot24_1 k.flow m.tangent i j) j * y j := by
  rw [dr3_act, dr3_act, unkel6_rotKel, rotL_hooke h, rot_flow H, rotL_inner h]

theorem dr2_rot (h : IsOrthogonal Q) (H : RotGrad Q k.g g') (m : LouParams) (x : LouPoint) (y : V6) :
    ∑ j, kel6 (louDr2e m.assoc (rotPoint Q x) ({ k with g := g' } : LouCtx).flow
        (ddot44_1 ({ k with g := g' } : LouCtx).dflow m.tangent)) j * rotKel Q y j =
      ∑ j, kel6 (louDr2e m.assoc x k.flow (ddot44_1 k.dflow m.tangent)) j * y j := by
  have hs := hooke_isSym (lamOf m.E m.v) (miuOf m.E m.v) (unkel6_isSym y)
  rw [dr2_act, dr2_act, unkel6_rotKel, rotL_hooke h, rot_dflow h H hs, rot_flow H, rotL_inner h,
    rotL_normT2 h]
  rfl

theorem dr2acc_rot (h : IsOrthogonal Q) (H : RotGrad Q k.g g') (assoc : Bool) (x : LouPoint) :
    louDr2acc assoc (rotPoint Q x) ({ k with g := g' } : LouCtx).flow ({ k with g := g' } : LouCtx).dflowAcc =
      louDr2acc assoc x k.flow k.dflowAcc := by
  have e : ddot22_1 (rotL Q k.flow) (rotL Q k.dflowAcc) = ddot22_1 k.flow k.dflowAcc := rotL_inner h _ _
  simp only [louDr2acc, rot_flow H, rot_dflowAcc h H, rotL_normT2 h, e]
  rfl

theorem dr2inc_rot (h : IsOrthogonal Q) (H : RotGrad Q k.g g') (assoc : Bool) :
    louDr2inc assoc ({ k with g := g' } : LouCtx).flow = louDr2inc assoc k.flow := by
  simp only [louDr2inc, rot_flow H, rotL_normT2 h]

theorem kel6_smul_rotL (Q : T2 3) (c : ℝ) {S : T2 3} (hS : IsSym S) :
    kel6 (fun i j => c * rotL Q S i j) = rotKel Q (kel6 fun i j => c * S i j) := by
  have e : (fun i j => c * rotL Q S i j) = rotL Q (c • S) := by
    rw [map_smul]
    rfl
  rw [e, kel6_rotL Q (symSpace.smul_mem c hS)]
  rfl

/-- The Jacobian at rotated unknowns. -/
theorem jacobian_rot (h : IsOrthogonal Q) (H : RotGrad Q k.g g') (m : LouParams) (x : LouPoint)
    (y : LouIx → ℝ) :
    (louJacobian m (rotPoint Q x) { k with g := g' }).mulVec (rotZ Q y) =
      rotZ Q ((louJacobian m x k).mulVec y) := by
  have e : ∀ (x : LouPoint) (k : LouCtx), louJacobian m x k = louBlocks
      (kel66 fun i j p q => (getIdOperators 3).fosym i j p q + x.inc * ddot44_1 k.dflow m.tangent i j p q)
      (kel6 fun i j => x.inc * k.dflowAcc i j) (kel6 k.flow)
      (kel6 (louDr2e m.assoc x k.flow (ddot44_1 k.dflow m.tangent)))
      (kel6 fun i j => 1 / (m.y 0).1 * ddot24_1 k.flow m.tangent i j)
      (louDr2acc m.assoc x k.flow k.dflowAcc) (louDr2inc m.assoc k.flow)
      (1 / (m.y 0).1 * (k.deffAcc - (m.y x.acc).2)) := fun _ _ => rfl
  have e1 : kel6 (fun i j => (rotPoint Q x).inc * ({ k with g := g' } : LouCtx).dflowAcc i j) =
      rotKel Q (kel6 fun i j => x.inc * k.dflowAcc i j) := by
    rw [rot_dflowAcc h H]
    exact kel6_smul_rotL Q _ (dflowAcc_isSym H)
  have e2 : kel6 ({ k with g := g' } : LouCtx).flow = rotKel Q (kel6 k.flow) := by
    rw [rot_flow H, kel6_rotL Q (rotFlow_isSym H)]
  rw [e, e, e1, e2, dr2acc_rot h H, dr2inc_rot h H]
  exact louBlocks_rot (dr1_rot h H m x.inc) (dr2_rot h H m x) (dr3_rot h H m _) y

/-- The Jacobian of the batched model at rotated unknowns. -/
theorem vmapJacobian_rot (h : IsOrthogonal Q) (H : RotGrad Q k.g g') (m : LouParams) (fixed : Bool)
    (x : LouPoint) (y : LouIx → ℝ) :
    (louVmapJacobian m fixed (rotPoint Q x) { k with g := g' }).mulVec (rotZ Q y) =
      rotZ Q ((louVmapJacobian m fixed x k).mulVec y) := by
  have e : ∀ (x : LouPoint) (k : LouCtx), louVmapJacobian m fixed x k = louBlocks
      (kel66 fun i j p q => (getIdOperators 3).fosym i j p q + x.inc * ddot44_1 k.dflow m.tangent i j p q)
      (kel6 (if fixed then 0 else fun i j => x.inc * k.dflowAcc i j)) (kel6 k.flow)
      (kel6 (louDr2e m.assoc x k.flow (ddot44_1 k.dflow m.tangent)))
      (kel6 fun i j => 1 / (m.y 0).1 * ddot24_1 k.flow m.tangent i j)
      (if fixed then 1 else louDr2acc m.assoc x k.flow k.dflowAcc) (louDr2inc m.assoc k.flow)
      (if fixed then -(m.y x.acc).2 / (m.y 0).1 else 1 / (m.y 0).1 * (k.deffAcc - (m.y x.acc).2)) :=
    fun _ _ => rfl
  have e0 : kel6 (0 : T2 3) = 0 := by funext k; simp [kel6]
  have e1 : kel6 (if fixed then 0 else
      fun i j => (rotPoint Q x).inc * ({ k with g := g' } : LouCtx).dflowAcc i j) =
      rotKel Q (kel6 (if fixed then 0 else fun i j => x.inc * k.dflowAcc i j)) := by
    cases fixed with
    | true =>
      simp only [if_true, e0, rotKel_zero]
    | false =>
      simp only [Bool.false_eq_true, if_false]
      rw [rot_dflowAcc h H]
      exact kel6_smul_rotL Q _ (dflowAcc_isSym H)
  have e2 : kel6 ({ k with g := g' } : LouCtx).flow = rotKel Q (kel6 k.flow) := by
    rw [rot_flow H, kel6_rotL Q (rotFlow_isSym H)]
  rw [e, e, e1, e2, dr2acc_rot h H, dr2inc_rot h H]
  exact louBlocks_rot (dr1_rot h H m x.inc) (dr2_rot h H m x) (dr3_rot h H m _) y

end

/-- A rotated evaluation of the residual. -/
structure RotEval (Q : T2 3) (r r' : LouEval) : Prop where
  r1 : r'.r1 = rotL Q r.r1
  r2 : r'.r2 = r.r2
  r3 : r'.r3 = r.r3
  sym : IsSym r.r1
  jac : Option.Rel (fun J J' : Matrix LouIx LouIx ℝ =>
    ∀ y, J'.mulVec (rotZ Q y) = rotZ Q (J.mulVec y)) r.jac r'.jac

theorem RotEval.residual {Q : T2 3} {r r' : LouEval} (H : RotEval Q r r') :
    r'.residual = rotZ Q r.residual := by
  funext k
  rcases k with k | k
  · show kel6 r'.r1 k = rotKel Q (kel6 r.r1) k
    rw [H.r1, kel6_rotL Q H.sym]
  · show ![r'.r2, r'.r3] k = ![r.r2, r.r3] k
    rw [H.r2, H.r3]

theorem RotEval.convNorm {Q : T2 3} (h : IsOrthogonal Q) {r r' : LouEval} (H : RotEval Q r r')
    (eT : T2 3) (acc : ℝ) : r'.convNorm (rotL Q eT) acc = r.convNorm eT acc := by
  simp only [LouEval.convNorm, rotL_normT2 h, H.r1, H.r2, H.r3]

theorem rot_det {Q : T2 3} (h : IsOrthogonal Q) {J J' : Matrix LouIx LouIx ℝ}
    (hJ : ∀ y, J'.mulVec (rotZ Q y) = rotZ Q (J.mulVec y)) : J'.det = 0 ↔ J.det = 0 := by
  have inj : ∀ {Q : T2 3}, IsOrthogonal Q → ∀ z, rotZ Q z = 0 → z = 0 := fun h z hz => by
    rw [← rotZ_tr2 h z, hz, rotZ_zero]
  have back : ∀ z, rotZ Q (rotZ (tr2 Q) z) = z := fun z => by
    have := rotZ_tr2 (tr2_orthogonal h) z
    exact this
  rw [← Matrix.exists_mulVec_eq_zero_iff, ← Matrix.exists_mulVec_eq_zero_iff]
  constructor
  · rintro ⟨v, hv, h0⟩
    refine ⟨rotZ (tr2 Q) v, fun hc => hv (inj (tr2_orthogonal h) v hc), ?_⟩
    refine inj h _ ?_
    rw [← hJ, back, h0]
  · rintro ⟨v, hv, h0⟩
    refine ⟨rotZ Q v, fun hc => hv (inj h v hc), ?_⟩
    rw [hJ, h0, rotZ_zero]

theorem louSolve_rot {Q : T2 3} (h : IsOrthogonal Q) {r r' : LouEval} (H : RotEval Q r r') :
    louSolve r' = (louSolve r).map (Option.map (rotZ Q)) := by
  unfold louSolve
  have hj := H.jac
  have hr := H.residual
  generalize r'.residual = v' at hr ⊢
  subst hr
  generalize r.residual = v
  generalize r.jac = o at hj ⊢
  generalize r'.jac = o' at hj ⊢
  cases hj with
  | none => rfl
  | @some J J' hJ =>
    have hd := rot_det h hJ
    by_cases h0 : J.det = 0
    · simp only [hd.mpr h0, h0, if_true, Except.map]
    · have h0' : J'.det ≠ 0 := fun hc => h0 (hd.mp hc)
      simp only [h0, h0', if_false, Except.map, Option.map_some, Except.ok.injEq, Option.some.injEq]
      have hu : IsUnit J.det := isUnit_iff_ne_zero.mpr h0
      have hu' : IsUnit J'.det := isUnit_iff_ne_zero.mpr h0'
      have e := hJ (J⁻¹.mulVec (-v))
      rw [Matrix.mulVec_mulVec, Matrix.mul_nonsing_inv _ hu, Matrix.one_mulVec, rotZ_neg] at e
      rw [← e, Matrix.mulVec_mulVec, Matrix.nonsing_inv_mul _ hu', Matrix.one_mulVec]

end Hooke
