import Verif.Props.LouStress
import Verif.Props.Tensorops
import Verif.Lemmas.Py
import Mathlib.Analysis.Calculus.FDeriv.Pow
import Mathlib.Analysis.Calculus.FDeriv.Mul
import Mathlib.Analysis.Calculus.FDeriv.Pi
import Mathlib.Analysis.Calculus.Deriv.Pow
import Mathlib.Analysis.SpecialFunctions.Pow.Deriv
import Mathlib.LinearAlgebra.Matrix.Adjugate

/-! # Derivatives of the stress invariants of the Lou-Zhang-Yoon model -/

noncomputable section

namespace Hooke

open Spec

/-- Adjugate of a tensor. -/
def adjT (A : T2 3) : T2 3 := Matrix.adjugate (Matrix.of A)

/-- Derivative of the adjugate at `A` in the direction `H`. -/
def dadjT (A H : T2 3) : T2 3 := fun i j =>
  adjT (fun i j => A i j + H i j) i j - adjT A i j - adjT H i j

/-- Gradient of the third invariant of the deviator at a symmetric tensor. -/
def gradJ3 (t : T2 3) : T2 3 := deviator (adjT (deviator t))

theorem adjT_eq (A : T2 3) : adjT A =
    ![![A 1 1 * A 2 2 - A 1 2 * A 2 1, -(A 0 1 * A 2 2) + A 0 2 * A 2 1,
        A 0 1 * A 1 2 - A 0 2 * A 1 1],
      ![-(A 1 0 * A 2 2) + A 1 2 * A 2 0, A 0 0 * A 2 2 - A 0 2 * A 2 0,
        -(A 0 0 * A 1 2) + A 0 2 * A 1 0],
      ![A 1 0 * A 2 1 - A 1 1 * A 2 0, -(A 0 0 * A 2 1) + A 0 1 * A 2 0,
        A 0 0 * A 1 1 - A 0 1 * A 1 0]] := by
  unfold adjT
  rw [Matrix.adjugate_fin_three]
  rfl

theorem adjT_isSym {A : T2 3} (h : IsSym A) : IsSym (adjT A) := by
  have h1 : A 1 0 = A 0 1 := h 1 0
  have h2 : A 2 0 = A 0 2 := h 2 0
  have h3 : A 2 1 = A 1 2 := h 2 1
  intro i j
  rw [adjT_eq]
  fin_cases i <;> fin_cases j <;> simp [h1, h2, h3] <;> ring

theorem dev_isSym {t : T2 3} (h : IsSym t) : IsSym (deviator t) := deviator_isSym h

theorem devproj_left {t : T2 3} (h : IsSym t) :
    ddot42_1 (getIdOperators 3).fodevprojsym t = deviator t := by
  rw [(C09_actions 3 t).2.2.2.2.2.2]
  funext i j
  simp only [deviator, trace, tr, h j i]
  split_ifs <;> ring

theorem devproj_right {t : T2 3} (h : IsSym t) :
    ddot24_1 t (getIdOperators 3).fodevprojsym = deviator t := by
  have h1 : t 1 0 = t 0 1 := h 1 0
  have h2 : t 2 0 = t 0 2 := h 2 0
  have h3 : t 2 1 = t 1 2 := h 2 1
  funext i j
  simp only [ddot24_1, fodevprojsym_eq, fosym_eq, fodiagtrace_eq, deviator, trace,
    Fin.sum_univ_three]
  fin_cases i <;> fin_cases j <;> simp [h1, h2, h3] <;> ring

/-- `det A · D adj(A)[H] = (adj A : H) adj A - adj A · H · adj A` for symmetric tensors. -/
theorem det_mul_dadjT {A H : T2 3} (hA : IsSym A) (hH : IsSym H) (i j : Fin 3) :
    Matrix.det (Matrix.of A) * dadjT A H i j =
      (∑ k, ∑ l, adjT A k l * H k l) * adjT A i j -
        ∑ k, ∑ l, adjT A i k * H k l * adjT A l j := by
  have h1 : A 1 0 = A 0 1 := hA 1 0
  have h2 : A 2 0 = A 0 2 := hA 2 0
  have h3 : A 2 1 = A 1 2 := hA 2 1
  have g1 : H 1 0 = H 0 1 := hH 1 0
  have g2 : H 2 0 = H 0 2 := hH 2 0
  have g3 : H 2 1 = H 1 2 := hH 2 1
  rw [Matrix.det_fin_three]
  simp only [dadjT, adjT_eq, Fin.sum_univ_three, Matrix.of_apply]
  generalize A 0 0 = a at *
  generalize A 1 1 = b at *
  generalize A 2 2 = c at *
  generalize H 0 0 = x at *
  generalize H 1 1 = y at *
  generalize H 2 2 = z at *
  rw [h1, h2, h3, g1, g2, g3]
  fin_cases i <;> fin_cases j <;> simp <;> ring

theorem dadjT_isSym {A H : T2 3} (hA : IsSym A) (hH : IsSym H) : IsSym (dadjT A H) := by
  intro i j
  unfold dadjT
  rw [adjT_isSym hA i j, adjT_isSym hH i j,
    adjT_isSym (A := fun i j => A i j + H i j) (fun i j => by simp only [hA i j, hH i j]) i j]

theorem inner_deviator (a h : T2 3) :
    ∑ i, ∑ j, deviator a i j * h i j = ∑ i, ∑ j, a i j * deviator h i j := by
  simp only [deviator, trace, Fin.sum_univ_three]
  simp
  ring

/-- The derivatives of the invariants with the inverse written as adjugate over determinant. -/
def louGradOf (t : T2 3) : LouGrad :=
  { di1 := (getIdOperators 3).soid
    dj2 := deviator t
    dj3 := gradJ3 t
    d2j2 := (getIdOperators 3).fodevprojsym
    d2j3 := fun i j k l => dyad22_1 (fun i j => (devJ3 t)⁻¹ * gradJ3 t i j) (gradJ3 t) i j k l
      + devJ3 t * ddot44_1 (ddot44_1 (getIdOperators 3).fodevprojsym
        (foDinvSym fun i j => (devJ3 t)⁻¹ * adjT (deviator t) i j))
        (getIdOperators 3).fodevprojsym i j k l }

/-- Outcome of the derivatives of the invariants for a symmetric stress whose deviator is
invertible. -/
theorem louDerivatives_ok {t : T2 3} (h : IsSym t) (hd : devJ3 t ≠ 0) :
    louDerivatives t = .ok (louGradOf t) ∧ ∀ s : T2 3, IsSym s →
      ddot42_1 (louGradOf t).d2j3 s = deviator (dadjT (deviator t) (deviator s)) := by
  have hdev := devproj_left h
  have hsym := deviator_isSym h
  have hinv : ((Matrix.of (deviator t))⁻¹ : Matrix (Fin 3) (Fin 3) ℝ) =
      fun i j => (devJ3 t)⁻¹ * adjT (deviator t) i j := by
    rw [Matrix.inv_def, Ring.inverse_eq_inv']
    rfl
  have hdet : Matrix.det (Matrix.of (deviator t)) = devJ3 t := rfl
  have hadj := adjT_isSym hsym
  have hdsc : ∀ (c : ℝ) (a : T2 3), deviator (fun i j => c * a i j) =
      fun i j => c * deviator a i j := by
    intro c a
    funext i j
    simp only [deviator, trace, Fin.sum_univ_three]
    split_ifs <;> ring
  have hw6 : ddot24_1 (fun i j => (devJ3 t)⁻¹ * adjT (deviator t) i j)
      (getIdOperators 3).fodevprojsym = fun i j => (devJ3 t)⁻¹ * gradJ3 t i j := by
    rw [devproj_right (fun i j => by rw [hadj i j]), hdsc]
    rfl
  have hdj3 : (fun i j => devJ3 t * ((devJ3 t)⁻¹ * gradJ3 t i j)) = gradJ3 t := by
    funext i j
    rw [← mul_assoc, mul_inv_cancel₀ hd, one_mul]
  constructor
  · unfold louDerivatives
    rw [hdev]
    dsimp only
    rw [hdet, hinv, hw6, hdj3]
    simp only [raiseIf, hd, decide_false]
    rfl
  · intro s hs
    have hds := deviator_isSym hs
    set X : T4 3 := ddot44_1 (ddot44_1 (getIdOperators 3).fodevprojsym
      (foDinvSym fun i j => (devJ3 t)⁻¹ * adjT (deviator t) i j))
      (getIdOperators 3).fodevprojsym with hX
    have hXs : ddot42_1 X s = deviator (fun i j => -∑ k, ∑ l, (devJ3 t)⁻¹ * adjT (deviator t) i k *
        deviator s k l * ((devJ3 t)⁻¹ * adjT (deviator t) l j)) := by
      rw [hX, (C68_contractions _ _ s s s 0 0).1, (C68_contractions _ _ s _ s 0 0).1,
        devproj_left hs, C09_fo_dinv_sym _ _ hds, devproj_left]
      intro i j
      rw [neg_inj, Finset.sum_comm]
      refine Finset.sum_congr rfl fun k _ => Finset.sum_congr rfl fun l _ => ?_
      rw [hadj i l, hadj k j, hds l k]
      ring
    have hsplit : ddot42_1 (fun i j k l =>
        dyad22_1 (fun i j => (devJ3 t)⁻¹ * gradJ3 t i j) (gradJ3 t) i j k l + devJ3 t * X i j k l) s =
        fun i j => (devJ3 t)⁻¹ * gradJ3 t i j * (∑ k, ∑ l, gradJ3 t k l * s k l) +
          devJ3 t * ddot42_1 X s i j := by
      funext i j
      simp only [ddot42_1, dyad22_1, Finset.mul_sum, ← Finset.sum_add_distrib]
      exact Finset.sum_congr rfl fun k _ => Finset.sum_congr rfl fun l _ => by ring
    refine hsplit.trans ?_
    rw [hXs]
    have hdad : dadjT (deviator t) (deviator s) = fun i j => (devJ3 t)⁻¹ *
        ((∑ k, ∑ l, adjT (deviator t) k l * deviator s k l) * adjT (deviator t) i j -
          ∑ k, ∑ l, adjT (deviator t) i k * deviator s k l * adjT (deviator t) l j) := by
      funext i j
      rw [← det_mul_dadjT hsym hds, hdet, ← mul_assoc, inv_mul_cancel₀ hd, one_mul]
    rw [hdad, hdsc]
    have hin : ∑ k, ∑ l, gradJ3 t k l * s k l = ∑ k, ∑ l, adjT (deviator t) k l * deviator s k l :=
      inner_deviator _ _
    rw [hin]
    generalize (∑ k, ∑ l, adjT (deviator t) k l * deviator s k l) = q
    have e1 : (fun i j => -∑ k, ∑ l, (devJ3 t)⁻¹ * adjT (deviator t) i k *
        deviator s k l * ((devJ3 t)⁻¹ * adjT (deviator t) l j)) = fun i j => -((devJ3 t)⁻¹ ^ 2) *
        ∑ k, ∑ l, adjT (deviator t) i k * deviator s k l * adjT (deviator t) l j := by
      funext i j
      simp only [Finset.mul_sum, neg_mul, ← Finset.sum_neg_distrib]
      exact Finset.sum_congr rfl fun k _ => Finset.sum_congr rfl fun l _ => by ring
    rw [e1, hdsc]
    set B : T2 3 := fun i j => ∑ k, ∑ l, adjT (deviator t) i k * deviator s k l *
      adjT (deviator t) l j with hB
    have e2 : deviator (fun i j => q * adjT (deviator t) i j - B i j) = fun i j =>
        q * gradJ3 t i j - deviator B i j := by
      funext i j
      simp only [gradJ3, deviator, trace, Fin.sum_univ_three]
      split_ifs <;> ring
    rw [e2]
    funext i j
    field_simp
    ring

end Hooke
