import Verif.Spec.Objectivity
import Verif.Lemmas.Kelvin6
import Verif.Lemmas.ConsistentTangent
import Verif.Lemmas.DruckerPrager
import Mathlib.LinearAlgebra.Matrix.Trace
import Mathlib.LinearAlgebra.Matrix.NonsingularInverse

/-!
# Rotations of Kelvin vectors
-/

noncomputable section

namespace Hooke

open Spec

/-- The rotation in three dimensions: the third axis stays for plane strain. -/
def rot3 : (p : PType) → T2 p.dim → T2 3
  | .plane, Q => ![![Q 0 0, Q 0 1, 0], ![Q 1 0, Q 1 1, 0], ![0, 0, 1]]
  | .solid, Q => Q

/-- The Kelvin vector of the rotated tensor. -/
def rotKel (Q : T2 3) (x : V6) : V6 := kel6 (rotate Q (unkel6 x))

theorem rot3_orthogonal {p : PType} {Q : T2 p.dim} (h : IsOrthogonal Q) : IsOrthogonal (rot3 p Q) := by
  cases p with
  | solid => exact h
  | plane =>
    have h00 := h 0 0
    have h01 := h 0 1
    have h11 := h 1 1
    have h10 := h 1 0
    simp only [PType.dim, Fin.sum_univ_two] at h00 h01 h11 h10
    intro i j
    fin_cases i <;> fin_cases j <;>
      simp [rot3, Fin.sum_univ_three] at * <;> assumption

theorem rotKel_add (Q : T2 3) (x y : V6) : rotKel Q (x + y) = rotKel Q x + rotKel Q y := by
  funext k
  simp only [rotKel, kel6, rotate, unkel6, Pi.add_apply, ← add_mul, ← Finset.sum_add_distrib]
  congr 1
  refine Finset.sum_congr rfl fun a _ => Finset.sum_congr rfl fun b _ => ?_
  ring

theorem rotKel_smul (Q : T2 3) (c : ℝ) (x : V6) : rotKel Q (c • x) = c • rotKel Q x := by
  funext k
  simp only [rotKel, kel6, rotate, unkel6, Pi.smul_apply, smul_eq_mul, Finset.sum_mul, Finset.mul_sum]
  refine Finset.sum_congr rfl fun a _ => Finset.sum_congr rfl fun b _ => ?_
  ring

theorem rotKel_zero (Q : T2 3) : rotKel Q 0 = 0 := by
  have := rotKel_smul Q 0 0
  simpa using this

theorem rotate_isSym {n : ℕ} {Q S : T2 n} (h : ∀ i j, S i j = S j i) (i j : Fin n) :
    rotate Q S i j = rotate Q S j i := by
  simp only [rotate]
  rw [Finset.sum_comm]
  refine Finset.sum_congr rfl fun a _ => Finset.sum_congr rfl fun b _ => ?_
  rw [h b a]
  ring

theorem rotate_matrix {n : ℕ} (Q S : T2 n) :
    Matrix.of (rotate Q S) = Matrix.of Q * Matrix.of S * (Matrix.of Q).transpose := by
  ext i j
  simp only [rotate, Matrix.of_apply, Matrix.mul_apply, Matrix.transpose_apply, Finset.sum_mul]
  rw [Finset.sum_comm]

theorem orthogonal_matrix {n : ℕ} {Q : T2 n} (h : IsOrthogonal Q) :
    Matrix.of Q * (Matrix.of Q).transpose = 1 := by
  ext i j
  simp only [Matrix.mul_apply, Matrix.of_apply, Matrix.transpose_apply, h i j, Matrix.one_apply]

theorem orthogonal_matrix' {n : ℕ} {Q : T2 n} (h : IsOrthogonal Q) :
    (Matrix.of Q).transpose * Matrix.of Q = 1 := by
  exact mul_eq_one_comm.mp (orthogonal_matrix h)

theorem rotate_trace {Q S : T2 3} (h : IsOrthogonal Q) : trace (rotate Q S) = trace S := by
  have e : ∀ T : T2 3, trace T = (Matrix.of T).trace := fun T => rfl
  rw [e, e, rotate_matrix, Matrix.trace_mul_comm, ← Matrix.mul_assoc, orthogonal_matrix' h, Matrix.one_mul]

theorem rotate_one {n : ℕ} {Q : T2 n} (h : IsOrthogonal Q) :
    rotate Q (fun i j => if i = j then 1 else 0) = fun i j => if i = j then 1 else 0 := by
  funext i j
  simp only [rotate, mul_ite, mul_one, mul_zero, ite_mul, zero_mul, Finset.sum_ite_eq, Finset.mem_univ, if_true]
  exact h i j

theorem rotate_frob {Q S : T2 3} (h : IsOrthogonal Q) : frob (rotate Q S) = frob S := by
  have e : ∀ T : T2 3, ∑ i, ∑ j, T i j ^ 2 = (Matrix.of T * (Matrix.of T).transpose).trace := by
    intro T
    simp only [Matrix.trace, Matrix.diag, Matrix.mul_apply, Matrix.transpose_apply, Matrix.of_apply, sq]
  unfold frob
  rw [e, e, rotate_matrix]
  congr 1
  simp only [Matrix.transpose_mul, Matrix.transpose_transpose]
  have : Matrix.of Q * Matrix.of S * (Matrix.of Q).transpose *
      (Matrix.of Q * ((Matrix.of S).transpose * (Matrix.of Q).transpose)) =
      Matrix.of Q * (Matrix.of S * (Matrix.of S).transpose) * (Matrix.of Q).transpose := by
    calc _ = Matrix.of Q * Matrix.of S * ((Matrix.of Q).transpose * Matrix.of Q) *
          ((Matrix.of S).transpose * (Matrix.of Q).transpose) := by simp only [Matrix.mul_assoc]
      _ = _ := by rw [orthogonal_matrix' h]; simp only [Matrix.mul_one, Matrix.mul_assoc]
  rw [this, Matrix.trace_mul_comm, ← Matrix.mul_assoc, orthogonal_matrix' h, Matrix.one_mul]

theorem rotKel_tr {Q : T2 3} (h : IsOrthogonal Q) (x : V6) : tr6 (rotKel Q x) = tr6 x := by
  rw [rotKel, tr6_kel6, rotate_trace h, ← tr6_kel6, kel6_unkel6]

theorem rotKel_one {Q : T2 3} (h : IsOrthogonal Q) : rotKel Q one6 = one6 := by
  have hs : IsSym (fun i j : Fin 3 => if i = j then (1 : ℝ) else 0) := fun i j => by
    simp only [eq_comm]
  rw [rotKel, one6_kel6, unkel6_kel6 hs, rotate_one h]

theorem rotKel_norm {Q : T2 3} (h : IsOrthogonal Q) (x : V6) : norm6 (rotKel Q x) = norm6 x := by
  rw [rotKel, norm6_kel6 (rotate_isSym (unkel6_isSym x)), rotate_frob h, ← norm6_kel6 (unkel6_isSym x),
    kel6_unkel6]

theorem rotKel_combine (Q : T2 3) (a b : ℝ) (x y : V6) :
    rotKel Q (fun k => a * x k + b * y k) = fun k => a * rotKel Q x k + b * rotKel Q y k := by
  have : (fun k => a * x k + b * y k) = a • x + b • y := rfl
  rw [this, rotKel_add, rotKel_smul, rotKel_smul]
  rfl

theorem rotKel_mul (Q : T2 3) (a : ℝ) (x : V6) :
    rotKel Q (fun k => a * x k) = fun k => a * rotKel Q x k := rotKel_smul Q a x

theorem rotKel_sub (Q : T2 3) (x y : V6) :
    rotKel Q (fun k => x k - y k) = fun k => rotKel Q x k - rotKel Q y k := by
  have := rotKel_combine Q 1 (-1) x y
  simpa [sub_eq_add_neg] using this

theorem rotKel_dev {Q : T2 3} (h : IsOrthogonal Q) (x : V6) : dev6 (rotKel Q x) = rotKel Q (dev6 x) := by
  have := rotKel_combine Q 1 (-(tr6 x / 3)) x one6
  rw [rotKel_one h] at this
  have e : dev6 x = fun k => 1 * x k + -(tr6 x / 3) * one6 k := by
    funext k
    simp only [dev6]
    ring
  rw [e, this]
  funext k
  simp only [dev6, rotKel_tr h]
  ring

theorem rotKel_hooke {Q : T2 3} (h : IsOrthogonal Q) (lam G : ℝ) (x : V6) :
    hooke6 lam G (rotKel Q x) = rotKel Q (hooke6 lam G x) := by
  have := rotKel_combine Q (lam * tr6 x) (2 * G) one6 x
  rw [rotKel_one h] at this
  have e : hooke6 lam G x = fun k => lam * tr6 x * one6 k + 2 * G * x k := rfl
  rw [e, this]
  funext k
  simp only [hooke6, rotKel_tr h]

/-! ## Problem types -/

theorem unmf_isSym (p : PType) (x : Vmf p) (i j : Fin p.dim) : unmf p x i j = unmf p x j i := by
  cases p with
  | solid => exact unkel6_isSym x i j
  | plane => fin_cases i <;> fin_cases j <;> rfl

theorem unmf_mf (p : PType) {S : T2 p.dim} (h : IsSymP p S) : unmf p (mf p S) = S := by
  cases p with
  | solid => exact unkel6_kel6 h
  | plane =>
    have h10 : S 1 0 = S 0 1 := h 1 0
    have hs : √(2 : ℝ) ≠ 0 := sqrt2_ne
    funext i j
    fin_cases i <;> fin_cases j <;> simp [unmf, mf, h10, hs]

theorem rotMf_mf (p : PType) (Q : T2 p.dim) {S : T2 p.dim} (h : IsSymP p S) :
    rotMf p Q (mf p S) = mf p (rotate Q S) := by
  rw [rotMf, unmf_mf p h]

theorem to2D_rot (p : PType) (Q : T2 p.dim) (w : V6) :
    to2D p (rotKel (rot3 p Q) w) = rotMf p Q (to2D p w) := by
  cases p with
  | solid => rfl
  | plane =>
    funext k
    have hs : √(2 : ℝ) ≠ 0 := sqrt2_ne
    fin_cases k <;>
      simp [to2D, rotKel, rotMf, mf, kel6, rotate, unmf, unkel6, rot3, ci, cj, kf, pos6,
        Fin.sum_univ_three] <;> ring

theorem get33_rot (p : PType) (Q : T2 p.dim) (w : V6) :
    get33 p (rotKel (rot3 p Q) w) = get33 p w := by
  cases p with
  | solid => rfl
  | plane =>
    simp [get33, rotKel, kel6, rotate, unkel6, rot3, ci, cj, kf, pos6, Fin.sum_univ_three]

theorem to3D_rot (p : PType) (Q : T2 p.dim) (x : Vmf p) (c : ℝ) :
    to3D p (rotMf p Q x) c = rotKel (rot3 p Q) (to3D p x c) := by
  cases p with
  | solid => rfl
  | plane =>
    have hs : √(2 : ℝ) ≠ 0 := sqrt2_ne
    funext k
    fin_cases k <;>
      simp [to3D, rotKel, rotMf, mf, kel6, rotate, unmf, unkel6, rot3, ci, cj, kf, pos6,
        Fin.sum_univ_three] <;> ring

theorem to2D_to3D_any (p : PType) (z : Vmf p) (c : ℝ) : to2D p (to3D p z c) = z := by
  cases p with
  | solid => rfl
  | plane => funext k; fin_cases k <;> rfl

theorem to3D_zero (p : PType) : to3D p 0 0 = 0 := by
  cases p with
  | solid => rfl
  | plane => funext k; fin_cases k <;> rfl

theorem to3D_add (p : PType) (x y : Vmf p) (a b : ℝ) :
    to3D p (x + y) (a + b) = to3D p x a + to3D p y b := by
  cases p with
  | solid => rfl
  | plane => funext k; fin_cases k <;> simp [to3D]

theorem rotMf_eq (p : PType) (Q : T2 p.dim) (x : Vmf p) :
    rotMf p Q x = to2D p (rotKel (rot3 p Q) (to3D p x 0)) := by
  rw [to2D_rot, to2D_to3D_any]

theorem to2D_lin (p : PType) (x y : V6) : to2D p (x + y) = to2D p x + to2D p y := by
  cases p with
  | solid => rfl
  | plane => funext k; fin_cases k <;> rfl

theorem rotMf_add (p : PType) (Q : T2 p.dim) (x y : Vmf p) :
    rotMf p Q (x + y) = rotMf p Q x + rotMf p Q y := by
  have h := to3D_add p x y 0 0
  rw [add_zero] at h
  rw [rotMf_eq, h, rotKel_add, to2D_lin, ← rotMf_eq, ← rotMf_eq]

theorem rotMf_zero (p : PType) (Q : T2 p.dim) : rotMf p Q 0 = 0 := by
  have := rotMf_add p Q 0 0
  rw [add_zero] at this
  exact left_eq_add.mp this

theorem rotMf_sub (p : PType) (Q : T2 p.dim) (x y : Vmf p) :
    rotMf p Q (x - y) = rotMf p Q x - rotMf p Q y := by
  have := rotMf_add p Q (x - y) y
  rw [sub_add_cancel] at this
  rw [this, add_sub_cancel_right]

theorem rotKel_inner {Q : T2 3} (h : IsOrthogonal Q) (x y : V6) :
    ∑ j, rotKel Q x j * rotKel Q y j = ∑ j, x j * y j := by
  have e : ∀ z : V6, ∑ j, rotKel Q z j ^ 2 = ∑ j, z j ^ 2 := fun z => by
    have h2 := congrArg (· ^ 2) (rotKel_norm h z)
    simp only [norm6] at h2
    rwa [Real.sq_sqrt (Finset.sum_nonneg fun j _ => sq_nonneg _),
      Real.sq_sqrt (Finset.sum_nonneg fun j _ => sq_nonneg _)] at h2
  have h1 := e (x + y)
  rw [rotKel_add] at h1
  have h2 := e x
  have h3 := e y
  simp only [Pi.add_apply, Fin.sum_univ_six] at h1 h2 h3 ⊢
  nlinarith

/-- A tangent acts on 2D strains as on 3D strains with zero out-of-plane components. -/
theorem to2DM_mul (p : PType) (T : M6) (x : Vmf p) (i : Fin p.len) :
    ∑ j, to2DM p T i j * x j = to2D p (mv6 T (to3D p x 0)) i := by
  cases p with
  | solid => rfl
  | plane =>
    fin_cases i <;>
      simp [to2DM, to2D, mv6, to3D, Fin.sum_univ_six, PType.len] <;>
      simp [Fin.sum_univ_three]

end Hooke
