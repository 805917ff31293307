import Verif.Props.LouJacobian
import Verif.Lemmas.Objectivity

/-!
# Rotated residuals and Jacobians of the Lou-Zhang-Yoon model
-/

noncomputable section

namespace Hooke

open Spec

/-- `rotate Q` as a linear map. -/
def rotL (Q : T2 3) : T2 3 →ₗ[ℝ] T2 3 where
  toFun := Spec.rotate Q
  map_add' := fun x y => by
    funext i j
    simp only [Spec.rotate, Pi.add_apply, mul_add, add_mul, Finset.sum_add_distrib]
  map_smul' := fun c x => by
    funext i j
    simp only [Spec.rotate, Pi.smul_apply, smul_eq_mul, RingHom.id_apply, Finset.mul_sum]
    exact Finset.sum_congr rfl fun k _ => Finset.sum_congr rfl fun l _ => by ring

theorem rotL_apply (Q S : T2 3) : rotL Q S = Spec.rotate Q S := rfl

theorem soid_one : (getIdOperators 3).soid = fun i j : Fin 3 => if i = j then (1 : ℝ) else 0 := by
  funext i j
  rw [(C09_actions 3 0).1]

theorem rotL_soid {Q : T2 3} (h : IsOrthogonal Q) : rotL Q (getIdOperators 3).soid = (getIdOperators 3).soid := by
  rw [rotL_apply, soid_one, rotate_one h]

theorem deviator_lin (t : T2 3) : deviator t = t - (trace t / 3) • (getIdOperators 3).soid := by
  funext i j
  rw [soid_one]
  simp only [deviator, Pi.sub_apply, Pi.smul_apply, smul_eq_mul, mul_ite, mul_one, mul_zero]

theorem rotL_deviator {Q : T2 3} (h : IsOrthogonal Q) (S : T2 3) :
    deviator (rotL Q S) = rotL Q (deviator S) := by
  rw [deviator_lin, deviator_lin S, map_sub, map_smul, rotL_soid h, rotL_apply, rotate_trace h]

theorem hooke_lin (lam G : ℝ) (e : T2 3) :
    hooke lam G e = (lam * trace e) • (getIdOperators 3).soid + (2 * G) • e := by
  funext i j
  rw [soid_one]
  simp only [hooke, Pi.add_apply, Pi.smul_apply, smul_eq_mul, mul_ite, mul_one, mul_zero]

theorem rotL_hooke {Q : T2 3} (h : IsOrthogonal Q) (lam G : ℝ) (e : T2 3) :
    hooke lam G (rotL Q e) = rotL Q (hooke lam G e) := by
  rw [hooke_lin, hooke_lin lam G e, map_add, map_smul, map_smul, rotL_soid h, rotL_apply, rotate_trace h]

theorem inner_matrix (A B : T2 3) :
    ∑ i, ∑ j, A i j * B i j = (Matrix.of A * (Matrix.of B).transpose).trace := by
  simp only [Matrix.trace, Matrix.diag, Matrix.mul_apply, Matrix.transpose_apply, Matrix.of_apply]

theorem rotL_inner {Q : T2 3} (h : IsOrthogonal Q) (A B : T2 3) :
    ∑ i, ∑ j, rotL Q A i j * rotL Q B i j = ∑ i, ∑ j, A i j * B i j := by
  rw [inner_matrix, inner_matrix, rotL_apply, rotL_apply, rotate_matrix, rotate_matrix]
  simp only [Matrix.transpose_mul, Matrix.transpose_transpose, Matrix.mul_assoc]
  rw [← Matrix.mul_assoc (Matrix.of Q).transpose, orthogonal_matrix' h, Matrix.one_mul,
    Matrix.trace_mul_comm]
  simp only [Matrix.mul_assoc]
  rw [orthogonal_matrix' h, Matrix.mul_one]

theorem rotL_normT2 {Q : T2 3} (h : IsOrthogonal Q) (A : T2 3) : normT2 (rotL Q A) = normT2 A :=
  rotate_frob h

theorem rotL_isSym {Q S : T2 3} (h : IsSym S) : IsSym (rotL Q S) := rotate_isSym h

theorem orthogonal_det {Q : T2 3} (h : IsOrthogonal Q) :
    (Matrix.of Q).det * (Matrix.of Q).det = 1 := by
  have := congrArg Matrix.det (orthogonal_matrix h)
  rwa [Matrix.det_mul, Matrix.det_transpose, Matrix.det_one] at this

theorem rotL_det {Q : T2 3} (h : IsOrthogonal Q) (A : T2 3) :
    Matrix.det (Matrix.of (rotL Q A)) = Matrix.det (Matrix.of A) := by
  rw [rotL_apply, rotate_matrix, Matrix.det_mul, Matrix.det_mul, Matrix.det_transpose]
  linear_combination Matrix.det (Matrix.of A) * orthogonal_det h

theorem orthogonal_adjugate {Q : T2 3} (h : IsOrthogonal Q) :
    (Matrix.of Q).adjugate = (Matrix.of Q).det • (Matrix.of Q).transpose := by
  have h1 : (Matrix.of Q).adjugate * (Matrix.of Q) = (Matrix.of Q).det • 1 := Matrix.adjugate_mul _
  have h2 := congrArg (· * (Matrix.of Q).transpose) h1
  simp only [Matrix.mul_assoc, orthogonal_matrix h, Matrix.mul_one, Matrix.smul_mul, Matrix.one_mul] at h2
  exact h2

theorem rotL_adjT {Q : T2 3} (h : IsOrthogonal Q) (A : T2 3) : adjT (rotL Q A) = rotL Q (adjT A) := by
  have e : (Matrix.of (rotL Q A)).adjugate = Matrix.of (rotL Q (adjT A)) := by
    rw [rotL_apply, rotL_apply, rotate_matrix, rotate_matrix, Matrix.adjugate_mul_distrib,
      Matrix.adjugate_mul_distrib, ← Matrix.adjugate_transpose, orthogonal_adjugate h,
      Matrix.transpose_smul, Matrix.transpose_transpose]
    simp only [Matrix.smul_mul, Matrix.mul_smul, smul_smul, orthogonal_det h, one_smul]
    rw [Matrix.mul_assoc]
    rfl
  exact e

theorem rotL_dadjT {Q : T2 3} (h : IsOrthogonal Q) (A H : T2 3) :
    dadjT (rotL Q A) (rotL Q H) = rotL Q (dadjT A H) := by
  have e : ∀ A H : T2 3, dadjT A H = adjT (A + H) - adjT A - adjT H := fun _ _ => rfl
  rw [e, e, ← map_add, rotL_adjT h, rotL_adjT h, rotL_adjT h, map_sub, map_sub]

theorem rotL_devJ2 {Q : T2 3} (h : IsOrthogonal Q) (S : T2 3) : devJ2 (rotL Q S) = devJ2 S := by
  have := rotL_inner h (deviator S) (deviator S)
  simp only [devJ2, rotL_deviator h, sq, this]

theorem rotL_devJ3 {Q : T2 3} (h : IsOrthogonal Q) (S : T2 3) : devJ3 (rotL Q S) = devJ3 S := by
  rw [devJ3, rotL_deviator h, rotL_det h, devJ3]

theorem rotL_gradJ3 {Q : T2 3} (h : IsOrthogonal Q) (S : T2 3) : gradJ3 (rotL Q S) = rotL Q (gradJ3 S) := by
  rw [gradJ3, rotL_deviator h, rotL_adjT h, rotL_deviator h, gradJ3]

theorem kel6_rotL (Q : T2 3) {S : T2 3} (hs : IsSym S) : kel6 (rotL Q S) = rotKel Q (kel6 S) := by
  rw [rotKel, unkel6_kel6 hs, rotL_apply]

theorem unkel6_rotKel (Q : T2 3) (x : V6) : unkel6 (rotKel Q x) = rotL Q (unkel6 x) :=
  unkel6_kel6 (rotate_isSym (unkel6_isSym x))

/-- The transposed tensor. -/
def tr2 (Q : T2 3) : T2 3 := fun i j => Q j i

theorem tr2_orthogonal {Q : T2 3} (h : IsOrthogonal Q) : IsOrthogonal (tr2 Q) := by
  intro i j
  have := congrFun (congrFun (orthogonal_matrix' h) i) j
  simp only [Matrix.mul_apply, Matrix.transpose_apply, Matrix.of_apply, Matrix.one_apply] at this
  exact this

theorem rotL_tr2 {Q : T2 3} (h : IsOrthogonal Q) (S : T2 3) : rotL (tr2 Q) (rotL Q S) = S := by
  have e : Matrix.of (rotL (tr2 Q) (rotL Q S)) = Matrix.of S := by
    have ht : Matrix.of (tr2 Q) = (Matrix.of Q).transpose := rfl
    rw [rotL_apply, rotL_apply, rotate_matrix, rotate_matrix, ht, Matrix.transpose_transpose]
    simp only [Matrix.mul_assoc]
    rw [orthogonal_matrix' h, Matrix.mul_one, ← Matrix.mul_assoc, orthogonal_matrix' h, Matrix.one_mul]
  exact e

/-- The vector of unknowns with a rotated elastic strain. -/
def rotZ (Q : T2 3) (z : LouIx → ℝ) : LouIx → ℝ :=
  Sum.elim (rotKel Q fun k => z (.inl k)) fun i => z (.inr i)

theorem rotZ_tr2 {Q : T2 3} (h : IsOrthogonal Q) (z : LouIx → ℝ) : rotZ (tr2 Q) (rotZ Q z) = z := by
  funext k
  cases k with
  | inl k =>
    show rotKel (tr2 Q) (rotKel Q fun k => z (.inl k)) k = z (.inl k)
    rw [rotKel, unkel6_rotKel, ← rotL_apply, rotL_tr2 h, kel6_unkel6]
  | inr k => rfl

theorem rotZ_add (Q : T2 3) (x y : LouIx → ℝ) : rotZ Q (x + y) = rotZ Q x + rotZ Q y := by
  funext k
  cases k with
  | inl k => exact congrFun (rotKel_add Q (fun k => x (.inl k)) fun k => y (.inl k)) k
  | inr k => rfl

theorem rotZ_neg (Q : T2 3) (x : LouIx → ℝ) : rotZ Q (-x) = -rotZ Q x := by
  funext k
  cases k with
  | inl k =>
    have := congrFun (rotKel_smul Q (-1) fun k => x (.inl k)) k
    simp only [neg_smul, one_smul] at this
    exact this
  | inr k => rfl

theorem rotZ_zero (Q : T2 3) : rotZ Q 0 = 0 := by
  have := rotZ_add Q 0 0
  rw [add_zero] at this
  exact left_eq_add.mp this

/-- Unknowns with a rotated elastic strain. -/
def rotPoint (Q : T2 3) (x : LouPoint) : LouPoint := { x with e := rotL Q x.e }

theorem louPoint_rotZ (Q : T2 3) (z : LouIx → ℝ) : louPoint (rotZ Q z) = rotPoint Q (louPoint z) := by
  have := unkel6_rotKel Q fun k => z (.inl k)
  simp only [louPoint, rotPoint, rotZ, Sum.elim_inl, Sum.elim_inr, LouPoint.mk.injEq, and_true]
  exact this

theorem louS_rotZ {Q : T2 3} (h : IsOrthogonal Q) (m : LouParams) (z : LouIx → ℝ) :
    louS m (rotZ Q z) = rotL Q (louS m z) := by
  have e : unkel6 (fun k => rotZ Q z (.inl k)) = rotL Q (unkel6 fun k => z (.inl k)) :=
    unkel6_rotKel Q _
  rw [louS_apply, louS_apply, e, hooke_tensor m (rotL_isSym (unkel6_isSym _)),
    hooke_tensor m (unkel6_isSym _), rotL_hooke h]

/-- Derivatives of the invariants at a rotated stress. -/
structure RotGrad (Q : T2 3) (g g' : LouGrad) : Prop where
  di1 : g'.di1 = rotL Q g.di1
  dj2 : g'.dj2 = rotL Q g.dj2
  dj3 : g'.dj3 = rotL Q g.dj3
  d2j2 : ∀ S, IsSym S → ddot42_1 g'.d2j2 (rotL Q S) = rotL Q (ddot42_1 g.d2j2 S)
  d2j3 : ∀ S, IsSym S → ddot42_1 g'.d2j3 (rotL Q S) = rotL Q (ddot42_1 g.d2j3 S)
  sym2 : ∀ S, IsSym S → IsSym (ddot42_1 g.d2j2 S)
  sym3 : ∀ S, IsSym S → IsSym (ddot42_1 g.d2j3 S)
  symd1 : IsSym g.di1
  symd2 : IsSym g.dj2
  symd3 : IsSym g.dj3

theorem soid_isSym : IsSym (getIdOperators 3).soid := by
  rw [soid_one]
  intro i j
  simp only [eq_comm]

theorem rotGrad {Q : T2 3} (h : IsOrthogonal Q) {t : T2 3} (ht : IsSym t) (h3 : devJ3 t ≠ 0) :
    RotGrad Q (louGradOf t) (louGradOf (rotL Q t)) := by
  have h3' : devJ3 (rotL Q t) ≠ 0 := by rwa [rotL_devJ3 h]
  have hact := (louDerivatives_ok ht h3).2
  have hact' := (louDerivatives_ok (rotL_isSym (Q := Q) ht) h3').2
  refine ⟨(rotL_soid h).symm, rotL_deviator h t, rotL_gradJ3 h t, fun S hS => ?_, fun S hS => ?_,
    fun S hS => ?_, fun S hS => ?_, soid_isSym, deviator_isSym ht, deviator_isSym (adjT_isSym (deviator_isSym ht))⟩
  · show ddot42_1 (getIdOperators 3).fodevprojsym _ = rotL Q (ddot42_1 (getIdOperators 3).fodevprojsym S)
    rw [devproj_left (rotL_isSym hS), devproj_left hS, rotL_deviator h]
  · rw [hact' _ (rotL_isSym hS), hact _ hS, rotL_deviator h, rotL_deviator h, rotL_dadjT h, rotL_deviator h]
  · show IsSym (ddot42_1 (getIdOperators 3).fodevprojsym S)
    rw [devproj_left hS]
    exact deviator_isSym hS
  · rw [hact _ hS]
    exact deviator_isSym (dadjT_isSym (deviator_isSym ht) (deviator_isSym hS))

theorem louK_rotZ {Q : T2 3} (h : IsOrthogonal Q) (m : LouParams) (z : LouIx → ℝ) :
    louK m (rotZ Q z) = { louK m z with g := louGradOf (rotL Q (louS m z)) } := by
  have e : rotZ Q z (.inr 0) = z (.inr 0) := rfl
  simp only [louK, louS_rotZ h, rotL_devJ2 h, rotL_devJ3 h, e]
  congr 1
  exact rotate_trace h

namespace LouCtx

theorem dw4_lin (k : LouCtx) : k.dw4 = (3 * k.j2 ^ 2) • k.g.dj2 - (2 * k.c * k.j3) • k.g.dj3 := rfl

theorem dw5_lin (k : LouCtx) :
    k.dw5 = (1 / 2 * k.w4 ^ (-1 / 2 : ℝ)) • k.dw4 - k.d • k.g.dj3 := rfl

theorem flow_lin (k : LouCtx) :
    k.flow = k.a • (k.b • k.g.di1 + (1 / 3 * k.w5 ^ (-2 / 3 : ℝ)) • k.dw5) := rfl

theorem d2w4acc_lin (k : LouCtx) : k.d2w4acc = -((2 * k.j3 * k.hc) • k.g.dj3) := rfl

theorem d2w5acc_lin (k : LouCtx) : k.d2w5acc =
    (-(1 / 4) * k.w4 ^ (-3 / 2 : ℝ) * k.dw4acc) • k.dw4 + (1 / 2 * k.w4 ^ (-1 / 2 : ℝ)) • k.d2w4acc -
      k.hd • k.g.dj3 := rfl

theorem dflowAcc_lin (k : LouCtx) : k.dflowAcc =
    k.ha • (k.b • k.g.di1 + (1 / 3 * k.w5 ^ (-2 / 3 : ℝ)) • k.dw5) +
      k.a • (k.hb • (getIdOperators 3).soid - (2 / 9 * k.w5 ^ (-5 / 3 : ℝ) * k.dw5acc) • k.dw5 +
        (1 / 3 * k.w5 ^ (-2 / 3 : ℝ)) • k.d2w5acc) := rfl

end LouCtx

theorem ddot42_dyad (a b S : T2 3) : ddot42_1 (dyad22_1 a b) S = (∑ i, ∑ j, b i j * S i j) • a := by
  funext i j
  simp only [ddot42_1, dyad22_1, Pi.smul_apply, smul_eq_mul, Finset.sum_mul]
  exact Finset.sum_congr rfl fun k _ => Finset.sum_congr rfl fun l _ => by ring

theorem ddot42_add (A B : T4 3) (S : T2 3) : ddot42_1 (A + B) S = ddot42_1 A S + ddot42_1 B S := by
  funext i j
  simp only [ddot42_1, Pi.add_apply, add_mul, Finset.sum_add_distrib]

theorem ddot42_sub (A B : T4 3) (S : T2 3) : ddot42_1 (A - B) S = ddot42_1 A S - ddot42_1 B S := by
  funext i j
  simp only [ddot42_1, Pi.sub_apply, sub_mul, Finset.sum_sub_distrib]

theorem ddot42_smul (c : ℝ) (A : T4 3) (S : T2 3) : ddot42_1 (c • A) S = c • ddot42_1 A S := by
  funext i j
  simp only [ddot42_1, Pi.smul_apply, smul_eq_mul, Finset.mul_sum, mul_assoc]

namespace LouCtx

theorem d2w4_act (k : LouCtx) (S : T2 3) : ddot42_1 k.d2w4 S =
    (6 * k.j2) • (∑ i, ∑ j, k.g.dj2 i j * S i j) • k.g.dj2 + (3 * k.j2 ^ 2) • ddot42_1 k.g.d2j2 S -
      (2 * k.c) • ((∑ i, ∑ j, k.g.dj3 i j * S i j) • k.g.dj3 + k.j3 • ddot42_1 k.g.d2j3 S) := by
  have e : k.d2w4 = (6 * k.j2) • dyad22_1 k.g.dj2 k.g.dj2 + (3 * k.j2 ^ 2) • k.g.d2j2 -
      (2 * k.c) • (dyad22_1 k.g.dj3 k.g.dj3 + k.j3 • k.g.d2j3) := rfl
  rw [e]
  simp only [ddot42_add, ddot42_sub, ddot42_smul, ddot42_dyad]

theorem d2w5_act (k : LouCtx) (S : T2 3) : ddot42_1 k.d2w5 S =
    (-(1 / 4) * k.w4 ^ (-3 / 2 : ℝ)) • (∑ i, ∑ j, k.dw4 i j * S i j) • k.dw4 +
      (1 / 2 * k.w4 ^ (-1 / 2 : ℝ)) • ddot42_1 k.d2w4 S - k.d • ddot42_1 k.g.d2j3 S := by
  have e : k.d2w5 = (-(1 / 4) * k.w4 ^ (-3 / 2 : ℝ)) • dyad22_1 k.dw4 k.dw4 +
      (1 / 2 * k.w4 ^ (-1 / 2 : ℝ)) • k.d2w4 - k.d • k.g.d2j3 := rfl
  rw [e]
  simp only [ddot42_add, ddot42_sub, ddot42_smul, ddot42_dyad]

theorem dflow_act (k : LouCtx) (S : T2 3) : ddot42_1 k.dflow S =
    (1 / 3 * k.a) • ((-(2 / 3) * k.w5 ^ (-5 / 3 : ℝ)) • (∑ i, ∑ j, k.dw5 i j * S i j) • k.dw5 +
      k.w5 ^ (-2 / 3 : ℝ) • ddot42_1 k.d2w5 S) := by
  have e : k.dflow = (1 / 3 * k.a) • ((-(2 / 3) * k.w5 ^ (-5 / 3 : ℝ)) • dyad22_1 k.dw5 k.dw5 +
      k.w5 ^ (-2 / 3 : ℝ) • k.d2w5) := rfl
  rw [e]
  simp only [ddot42_add, ddot42_smul, ddot42_dyad]

end LouCtx

/-- Symmetric tensors as a subspace. -/
def symSpace : Submodule ℝ (T2 3) where
  carrier := {S | IsSym S}
  add_mem' := fun {a b} ha hb i j => by
    show a i j + b i j = a j i + b j i
    rw [ha i j, hb i j]
  zero_mem' := fun _ _ => rfl
  smul_mem' := fun c x hx i j => by
    show c * x i j = c * x j i
    rw [hx i j]

theorem mem_symSpace {S : T2 3} : S ∈ symSpace ↔ IsSym S := Iff.rfl

section
variable {Q : T2 3} {k : LouCtx} {g' : LouGrad}

theorem rot_dw4 (H : RotGrad Q k.g g') : ({ k with g := g' } : LouCtx).dw4 = rotL Q k.dw4 := by
  rw [LouCtx.dw4_lin, LouCtx.dw4_lin]
  simp only [H.dj2, H.dj3, map_sub, map_smul]

theorem rot_dw5 (H : RotGrad Q k.g g') : ({ k with g := g' } : LouCtx).dw5 = rotL Q k.dw5 := by
  rw [LouCtx.dw5_lin, LouCtx.dw5_lin k, rot_dw4 H]
  simp only [H.dj3, map_sub, map_smul]
  rfl

theorem rot_flow (H : RotGrad Q k.g g') : ({ k with g := g' } : LouCtx).flow = rotL Q k.flow := by
  rw [LouCtx.flow_lin, LouCtx.flow_lin k, rot_dw5 H]
  simp only [H.di1, map_add, map_smul]
  rfl

theorem rot_dflowAcc (h : IsOrthogonal Q) (H : RotGrad Q k.g g') :
    ({ k with g := g' } : LouCtx).dflowAcc = rotL Q k.dflowAcc := by
  rw [LouCtx.dflowAcc_lin, LouCtx.dflowAcc_lin k, LouCtx.d2w5acc_lin, LouCtx.d2w5acc_lin k,
    LouCtx.d2w4acc_lin, LouCtx.d2w4acc_lin k, rot_dw5 H, rot_dw4 H]
  simp only [H.di1, H.dj3, map_add, map_sub, map_neg, map_smul, rotL_soid h]
  rfl

theorem rot_dflow (h : IsOrthogonal Q) (H : RotGrad Q k.g g') {S : T2 3} (hS : IsSym S) :
    ddot42_1 ({ k with g := g' } : LouCtx).dflow (rotL Q S) = rotL Q (ddot42_1 k.dflow S) := by
  rw [LouCtx.dflow_act, LouCtx.dflow_act k, LouCtx.d2w5_act, LouCtx.d2w5_act k, LouCtx.d2w4_act,
    LouCtx.d2w4_act k, rot_dw5 H, rot_dw4 H]
  simp only [H.dj2, H.dj3, rotL_inner h, H.d2j2 S hS, H.d2j3 S hS, map_add, map_sub, map_smul]
  rfl

theorem dw4_isSym (H : RotGrad Q k.g g') : IsSym k.dw4 := by
  rw [LouCtx.dw4_lin]
  exact symSpace.sub_mem (symSpace.smul_mem _ H.symd2) (symSpace.smul_mem _ H.symd3)

theorem dw5_isSym (H : RotGrad Q k.g g') : IsSym k.dw5 := by
  rw [LouCtx.dw5_lin]
  exact symSpace.sub_mem (symSpace.smul_mem _ (dw4_isSym H)) (symSpace.smul_mem _ H.symd3)

theorem rotFlow_isSym (H : RotGrad Q k.g g') : IsSym k.flow := by
  rw [LouCtx.flow_lin]
  exact symSpace.smul_mem _ (symSpace.add_mem (symSpace.smul_mem _ H.symd1)
    (symSpace.smul_mem _ (dw5_isSym H)))

theorem dflowAcc_isSym (H : RotGrad Q k.g g') : IsSym k.dflowAcc := by
  rw [LouCtx.dflowAcc_lin, LouCtx.d2w5acc_lin, LouCtx.d2w4acc_lin]
  have s1 := symSpace.add_mem (symSpace.smul_mem k.b H.symd1)
    (symSpace.smul_mem (1 / 3 * k.w5 ^ (-2 / 3 : ℝ)) (dw5_isSym H))
  refine symSpace.add_mem (symSpace.smul_mem _ s1) (symSpace.smul_mem _ (symSpace.add_mem
    (symSpace.sub_mem (symSpace.smul_mem _ soid_isSym) (symSpace.smul_mem _ (dw5_isSym H)))
    (symSpace.smul_mem _ ?_)))
  exact symSpace.sub_mem (symSpace.add_mem (symSpace.smul_mem _ (dw4_isSym H))
    (symSpace.smul_mem _ (symSpace.neg_mem (symSpace.smul_mem _ H.symd3)))) (symSpace.smul_mem _ H.symd3)

theorem dflow_isSym (H : RotGrad Q k.g g') {S : T2 3} (hS : IsSym S) : IsSym (ddot42_1 k.dflow S) := by
  rw [LouCtx.dflow_act, LouCtx.d2w5_act, LouCtx.d2w4_act]
  refine symSpace.smul_mem _ (symSpace.add_mem (symSpace.smul_mem _ (symSpace.smul_mem _ (dw5_isSym H)))
    (symSpace.smul_mem _ (symSpace.sub_mem (symSpace.add_mem
      (symSpace.smul_mem _ (symSpace.smul_mem _ (dw4_isSym H))) (symSpace.smul_mem _ ?_))
      (symSpace.smul_mem _ (H.sym3 S hS)))))
  exact symSpace.sub_mem (symSpace.add_mem (symSpace.smul_mem _ (symSpace.smul_mem _ H.symd2))
    (symSpace.smul_mem _ (H.sym2 S hS))) (symSpace.smul_mem _ (symSpace.add_mem
      (symSpace.smul_mem _ H.symd3) (symSpace.smul_mem _ (H.sym3 S hS))))

end

end Hooke
