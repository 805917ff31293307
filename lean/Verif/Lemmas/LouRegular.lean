import Verif.Props.LouUpdate
import Mathlib.LinearAlgebra.Matrix.ToLinearEquiv

/-! # Regularity of the Jacobian and the von Mises limit of the return mapping -/

noncomputable section

namespace Hooke

open Spec

/-! ### Rows of the Jacobian -/

theorem louJ_row1 (m : LouParams) (x : LouPoint) (k : LouCtx) (y : LouIx → ℝ) (n : Fin 6) :
    (louJacobian m x k).mulVec y (.inl n) =
      kel6 (fun i j => unkel6 (fun n => y (.inl n)) i j + x.inc * ddot42_1 k.dflow (louS m y) i j
        + x.inc * k.dflowAcc i j * y (.inr 0) + k.flow i j * y (.inr 1)) n := by
  have e1 : mv6 (kel66 fun i j p q => (getIdOperators 3).fosym i j p q +
      x.inc * ddot44_1 k.dflow m.tangent i j p q) (fun k => y (.inl k)) n =
      y (.inl n) + x.inc * (ddot42_1 k.dflow (louS m y) (ci n) (cj n) * kf n) := by
    rw [mv6_kel66_minor]
    · have e2 : ddot42_1 (fun i j p q => (getIdOperators 3).fosym i j p q +
          x.inc * ddot44_1 k.dflow m.tangent i j p q) (unkel6 fun k => y (.inl k)) =
          fun i j => unkel6 (fun k => y (.inl k)) i j + x.inc * ddot42_1 k.dflow (louS m y) i j := by
        rw [louS_apply, ← (C68_contractions _ _ (louS m y) _ (louS m y) 0 0).1]
        have e3 := fosym_act (unkel6_isSym fun k => y (.inl k))
        funext i j
        have e4 := congrFun (congrFun e3 i) j
        simp only [ddot42_1] at e4 ⊢
        rw [← e4]
        simp only [add_mul, Finset.sum_add_distrib, Finset.mul_sum, mul_assoc]
      rw [e2]
      have := congrFun (kel6_unkel6 fun k => y (.inl k)) n
      simp only [kel6] at this ⊢
      rw [add_mul, this]
      ring
    · intro i j p q
      have e3 := fosym_eq i j p q
      have e4 := fosym_eq i j q p
      have e5 : (getIdOperators 3).fosym i j p q = (getIdOperators 3).fosym i j q p := by
        rw [e3, e4]; ring
      rw [e5]
      congr 2
      simp only [ddot44_1]
      exact Finset.sum_congr rfl fun k _ => Finset.sum_congr rfl fun l _ => by rw [tangent_minor]
  have e6 : (louJacobian m x k).mulVec y (.inl n) =
      mv6 (kel66 fun i j p q => (getIdOperators 3).fosym i j p q +
        x.inc * ddot44_1 k.dflow m.tangent i j p q) (fun k => y (.inl k)) n +
      (kel6 (fun i j => x.inc * k.dflowAcc i j) n * y (.inr 0) + kel6 k.flow n * y (.inr 1)) := by
    simp only [Matrix.mulVec, dotProduct, Fintype.sum_sum_type, louJacobian, Matrix.fromBlocks_apply₁₁,
      Matrix.fromBlocks_apply₁₂, Matrix.of_apply, mv6, Fin.sum_univ_two]
    rfl
  rw [e6, e1]
  have := congrFun (kel6_unkel6 fun k => y (.inl k)) n
  simp only [kel6] at this ⊢
  rw [← this]
  ring

theorem louJ_row2 (m : LouParams) (ha : m.assoc = true) (x : LouPoint) (k : LouCtx) (y : LouIx → ℝ) :
    (louJacobian m x k).mulVec y (.inr 0) = y (.inr 0) - y (.inr 1) := by
  have e6 : (louJacobian m x k).mulVec y (.inr 0) =
      ∑ n, kel6 (louDr2e m.assoc x k.flow (ddot44_1 k.dflow m.tangent)) n * y (.inl n) +
      (louDr2acc m.assoc x k.flow k.dflowAcc * y (.inr 0) +
        louDr2inc m.assoc k.flow * y (.inr 1)) := by
    simp only [Matrix.mulVec, dotProduct, Fintype.sum_sum_type, louJacobian, Matrix.fromBlocks_apply₂₁,
      Matrix.fromBlocks_apply₂₂, Matrix.of_apply, Fin.sum_univ_two]
    rfl
  rw [e6, ha]
  simp only [louDr2e, louDr2acc, louDr2inc, if_true, kel6_zero_dot]
  ring

theorem louJ_row3 (m : LouParams) (x : LouPoint) (k : LouCtx) (y : LouIx → ℝ) :
    (louJacobian m x k).mulVec y (.inr 1) = 1 / (m.y 0).1 *
      ((∑ i, ∑ j, k.flow i j * louS m y i j) + (k.deffAcc - (m.y x.acc).2) * y (.inr 0)) := by
  have e6 : (louJacobian m x k).mulVec y (.inr 1) =
      ∑ n, kel6 (fun i j => 1 / (m.y 0).1 * ddot24_1 k.flow m.tangent i j) n * y (.inl n) +
      (1 / (m.y 0).1 * (k.deffAcc - (m.y x.acc).2) * y (.inr 0) + 0 * y (.inr 1)) := by
    simp only [Matrix.mulVec, dotProduct, Fintype.sum_sum_type, louJacobian, Matrix.fromBlocks_apply₂₁,
      Matrix.fromBlocks_apply₂₂, Matrix.of_apply, Fin.sum_univ_two]
    rfl
  rw [e6]
  have hsym := ddot24_tangent_isSym m k.flow
  rw [kel6_dot (fun i j => by rw [hsym i j]) fun k => y (.inl k)]
  have e7 := (C68_contractions m.tangent k.g.d2j2
    k.flow (unkel6 fun k => y (.inl k)) (louS m y) 0 0).2.1
  have e8 : ∑ i, ∑ j, (1 / (m.y 0).1 * ddot24_1 k.flow m.tangent i j) *
      unkel6 (fun k => y (.inl k)) i j = 1 / (m.y 0).1 * ∑ i, ∑ j, k.flow i j * louS m y i j := by
    rw [louS_apply]
    refine Eq.trans ?_ (congrArg (fun q => 1 / (m.y 0).1 * q) e7)
    simp only [Spec.inner, Finset.mul_sum, mul_assoc]
  rw [e8]
  ring

/-- The strain energy is positive. -/
theorem energy_pos {m : LouParams} (hA : Admissible m.E m.v) {e : T2 3} (he : IsSym e)
    (h : ∑ i, ∑ j, e i j * ddot42_1 m.tangent e i j ≤ 0) : e = 0 := by
  have hG := hA.shear_pos
  have hK := hA.bulk_pos
  have hl := hA.lame_bulk
  rw [hooke_tensor m he] at h
  have hlam : lamOf m.E m.v = lame m.E m.v := rfl
  have hmiu : miuOf m.E m.v = shear m.E m.v := rfl
  rw [hlam, hmiu] at h
  have h1 : ∑ i, ∑ j, e i j * hooke (lame m.E m.v) (shear m.E m.v) e i j =
      bulk m.E m.v * trace e ^ 2 + 2 * shear m.E m.v * ∑ i, ∑ j, deviator e i j ^ 2 := by
    have hlam' : lame m.E m.v = bulk m.E m.v - 2 / 3 * shear m.E m.v := by linarith
    simp only [hooke, deviator, trace, hlam', Fin.sum_univ_three]
    simp
    ring
  rw [h1] at h
  have h2 : 0 ≤ ∑ i, ∑ j, deviator e i j ^ 2 := by positivity
  have h3 : 0 ≤ bulk m.E m.v * trace e ^ 2 := by positivity
  have h4 : 0 ≤ 2 * shear m.E m.v * ∑ i, ∑ j, deviator e i j ^ 2 := by positivity
  have h5 : trace e = 0 := by
    have : bulk m.E m.v * trace e ^ 2 = 0 := le_antisymm (by linarith) h3
    simpa [hK.ne'] using this
  have h6 : ∑ i, ∑ j, deviator e i j ^ 2 = 0 := by
    have : 2 * shear m.E m.v * ∑ i, ∑ j, deviator e i j ^ 2 = 0 := le_antisymm (by linarith) h4
    simpa [hG.ne'] using this
  funext i j
  have h7 := (Finset.sum_eq_zero_iff_of_nonneg (fun i _ => by positivity)).mp h6 i (Finset.mem_univ i)
  have h8 := (Finset.sum_eq_zero_iff_of_nonneg (fun j _ => by positivity)).mp h7 j (Finset.mem_univ j)
  have h9 : deviator e i j = 0 := by simpa using h8
  have : e i j = deviator e i j + if i = j then trace e / 3 else 0 := by simp [deviator]
  rw [this, h9, h5]
  simp

/-- The Jacobian is regular where the effective stress is convex to second order: associative
hardening, yield parameters which do not harden, a yield stress which does not soften and a
nonnegative plastic multiplier. -/
theorem louJ_regular {m : LouParams} (hA : Admissible m.E m.v) (ha : m.assoc = true)
    {x : LouPoint} {k : LouCtx} (hx : 0 ≤ x.inc) (hy0 : (m.y 0).1 ≠ 0) (hslope : 0 ≤ (m.y x.acc).2)
    (hda : k.dflowAcc = 0) (hde : k.deffAcc = 0)
    (hsym : ∀ t : T2 3, IsSym t → IsSym (ddot42_1 k.dflow t)) (hfs : IsSym k.flow)
    (hpsd : ∀ t : T2 3, IsSym t → 0 ≤ ∑ i, ∑ j, t i j * ddot42_1 k.dflow t i j)
    (hflow : k.flow ≠ 0) : (louJacobian m x k).det ≠ 0 := by
  intro hdet
  obtain ⟨y, hy, hJ⟩ := Matrix.exists_mulVec_eq_zero_iff.mpr hdet
  apply hy
  set e : T2 3 := unkel6 fun n => y (.inl n) with he
  have hes : IsSym e := unkel6_isSym _
  have hS : louS m y = ddot42_1 m.tangent e := rfl
  have hSs : IsSym (louS m y) := louS_isSym m y
  have r1 : ∀ i j, e i j + x.inc * ddot42_1 k.dflow (louS m y) i j + k.flow i j * y (.inr 1) = 0 := by
    have h0 : kel6 (fun i j => e i j + x.inc * ddot42_1 k.dflow (louS m y) i j
        + x.inc * k.dflowAcc i j * y (.inr 0) + k.flow i j * y (.inr 1)) = 0 := by
      funext n
      rw [← louJ_row1, hJ]
      rfl
    have h1 := unkel6_kel6 (t := fun i j => e i j + x.inc * ddot42_1 k.dflow (louS m y) i j
        + x.inc * k.dflowAcc i j * y (.inr 0) + k.flow i j * y (.inr 1)) (by
      intro i j
      simp only [hda]
      rw [hes i j, hsym _ hSs i j, hfs i j]
      rfl)
    rw [h0] at h1
    intro i j
    have h2 := congrFun (congrFun h1 i) j
    simp only [hda, unkel6, Pi.zero_apply, zero_mul, mul_zero, add_zero] at h2
    exact h2.symm
  have r2 : y (.inr 0) = y (.inr 1) := by
    have := louJ_row2 m ha x k y
    rw [hJ] at this
    simp only [Pi.zero_apply] at this
    linarith
  have r3 : ∑ i, ∑ j, k.flow i j * louS m y i j = (m.y x.acc).2 * y (.inr 1) := by
    have := louJ_row3 m x k y
    rw [hJ, hde, r2] at this
    simp only [Pi.zero_apply] at this
    have h1 : (1 : ℝ) / (m.y 0).1 ≠ 0 := one_div_ne_zero hy0
    have h2 := (mul_eq_zero.mp this.symm).resolve_left h1
    linarith
  have hen : ∑ i, ∑ j, e i j * ddot42_1 m.tangent e i j ≤ 0 := by
    have h1 : ∑ i, ∑ j, e i j * louS m y i j = -(x.inc * ∑ i, ∑ j, louS m y i j *
        ddot42_1 k.dflow (louS m y) i j) - y (.inr 1) * ∑ i, ∑ j, k.flow i j * louS m y i j := by
      simp only [Finset.mul_sum, ← Finset.sum_neg_distrib, ← Finset.sum_sub_distrib]
      refine Finset.sum_congr rfl fun i _ => Finset.sum_congr rfl fun j _ => ?_
      linear_combination louS m y i j * r1 i j
    rw [← hS, h1, r3]
    have h2 := mul_nonneg hx (hpsd _ hSs)
    have h3 := mul_nonneg hslope (mul_self_nonneg (y (.inr 1)))
    nlinarith
  have he0 : e = 0 := energy_pos hA hes hen
  have hS0 : louS m y = 0 := by
    rw [hS, he0]
    funext i j
    simp [ddot42_1]
  have hy1 : y (.inr 1) = 0 := by
    by_contra hne
    apply hflow
    funext i j
    have := r1 i j
    rw [he0, hS0] at this
    have hz : ddot42_1 k.dflow 0 i j = 0 := by simp [ddot42_1]
    rw [hz] at this
    simp only [Pi.zero_apply, mul_zero, zero_add] at this
    exact (mul_eq_zero.mp this).resolve_right hne
  have hk : (fun n => y (.inl n)) = 0 := by
    have := kel6_unkel6 fun n => y (.inl n)
    rw [← he, he0] at this
    rw [← this]
    funext n
    simp [kel6]
  funext n
  rcases n with n | n
  · exact congrFun hk n
  · fin_cases n
    · exact r2.trans hy1
    · exact hy1

end Hooke
