import Verif.Lemmas.Tensorops

/-!
# C09: identity operators
-/

namespace Hooke

variable {n : ℕ}

/-- Trace (specification). -/
def Spec.tr (a : T2 n) : ℝ := ∑ k, a k k

open Spec

/-- C09a: contracting with the operators of `get_id_operators`. -/
theorem C09_actions (n : ℕ) (a : T2 n) :
    (∀ i j, (getIdOperators n).soid i j = if i = j then 1 else 0) ∧
    ddot42_1 (getIdOperators n).foid a = a ∧
    (ddot42_1 (getIdOperators n).fotransp a = fun i j => a j i) ∧
    (ddot42_1 (getIdOperators n).fosym a = fun i j => (a i j + a j i) / 2) ∧
    (ddot42_1 (getIdOperators n).fodiagtrace a = fun i j => if i = j then tr a else 0) ∧
    (ddot42_1 (getIdOperators n).fodevproj a =
      fun i j => a i j - (if i = j then tr a / 3 else 0)) ∧
    (ddot42_1 (getIdOperators n).fodevprojsym a =
      fun i j => (a i j + a j i) / 2 - (if i = j then tr a / 3 else 0)) := by
  have h1 := ddot_foid a
  have h2 := ddot_fotransp a
  have h3 := ddot_fodiagtrace a
  have hs : ddot42_1 (getIdOperators n).fosym a = fun i j => (a i j + a j i) / 2 := by
    funext i j
    have e : ddot42_1 (getIdOperators n).fosym a i j =
        0.5 * (ddot42_1 (getIdOperators n).foid a i j
          + ddot42_1 (getIdOperators n).fotransp a i j) := by
      simp only [ddot42_1, Finset.mul_sum, ← Finset.sum_add_distrib]
      refine Finset.sum_congr rfl fun k _ => Finset.sum_congr rfl fun l _ => ?_
      simp only [getIdOperators]; ring
    rw [e, h1, h2]; norm_num; ring
  refine ⟨fun i j => rfl, h1, h2, hs, h3, ?_, ?_⟩
  · funext i j
    have e : ddot42_1 (getIdOperators n).fodevproj a i j =
        ddot42_1 (getIdOperators n).foid a i j
          - (1 / 3) * ddot42_1 (getIdOperators n).fodiagtrace a i j := by
      simp only [ddot42_1, Finset.mul_sum, ← Finset.sum_sub_distrib]
      refine Finset.sum_congr rfl fun k _ => Finset.sum_congr rfl fun l _ => ?_
      simp only [getIdOperators]; ring
    rw [e, h1, h3]
    by_cases h : i = j
    · simp [h, tr]; ring
    · simp [h]
  · funext i j
    have e : ddot42_1 (getIdOperators n).fodevprojsym a i j =
        ddot42_1 (getIdOperators n).fosym a i j
          - (1 / 3) * ddot42_1 (getIdOperators n).fodiagtrace a i j := by
      simp only [ddot42_1, Finset.mul_sum, ← Finset.sum_sub_distrib]
      refine Finset.sum_congr rfl fun k _ => Finset.sum_congr rfl fun l _ => ?_
      simp only [getIdOperators]; ring
    rw [e, hs, h3]
    by_cases h : i = j
    · simp [h, tr]; ring
    · simp [h]

/-- C09b: the "deviatoric" operators give a traceless result for every tensor exactly when
`n_dim = 3` (or there are no dimensions); in 2D they do not. -/
theorem C09_traceless_iff (n : ℕ) :
    (∀ a : T2 n, tr (ddot42_1 (getIdOperators n).fodevproj a) = 0) ↔ n = 3 ∨ n = 0 := by
  have key : ∀ a : T2 n, tr (ddot42_1 (getIdOperators n).fodevproj a) =
      tr a - n * (tr a / 3) := by
    intro a
    rw [(C09_actions n a).2.2.2.2.2.1]
    simp [tr, Finset.sum_sub_distrib]
  constructor
  · intro h
    by_contra hne
    have := h (fun i j => if i = j then 1 else 0)
    rw [key] at this
    simp only [tr, if_true, Finset.sum_const, Finset.card_univ, Fintype.card_fin,
      nsmul_eq_mul, mul_one] at this
    have h2 : (n : ℝ) * (3 - n) = 0 := by linear_combination 3 * this
    rcases mul_eq_zero.1 h2 with h3 | h3
    · exact hne (Or.inr (by exact_mod_cast h3))
    · exact hne (Or.inl (by
        have : (n : ℝ) = 3 := by linarith
        exact_mod_cast this))
  · rintro (rfl | rfl) a
    · rw [key]; push_cast; ring
    · simp [tr]

/-- C09b for the symmetric deviatoric operator. -/
theorem C09_sym_traceless_iff (n : ℕ) :
    (∀ a : T2 n, tr (ddot42_1 (getIdOperators n).fodevprojsym a) = 0) ↔ n = 3 ∨ n = 0 := by
  have key : ∀ a : T2 n, tr (ddot42_1 (getIdOperators n).fodevprojsym a) =
      tr (ddot42_1 (getIdOperators n).fodevproj a) := by
    intro a
    rw [(C09_actions n a).2.2.2.2.2.1, (C09_actions n a).2.2.2.2.2.2]
    simp only [tr]
    refine Finset.sum_congr rfl fun k _ => ?_
    ring
  simp only [key]
  exact C09_traceless_iff n

/-- C09: the deviatoric operators are idempotent projections in 3D. -/
theorem C09_dev_idempotent_3d (a : T2 3) :
    ddot42_1 (getIdOperators 3).fodevproj (ddot42_1 (getIdOperators 3).fodevproj a) =
      ddot42_1 (getIdOperators 3).fodevproj a := by
  have h0 := (C09_traceless_iff 3).2 (Or.inl rfl) a
  rw [(C09_actions 3 (ddot42_1 (getIdOperators 3).fodevproj a)).2.2.2.2.2.1, h0]
  funext i j
  simp

/-- The 2D failure as a concrete witness: the deviatoric projection of the 2D identity has
trace 2/3. -/
theorem C09_traceless_2d_violated :
    tr (ddot42_1 (getIdOperators 2).fodevproj (fun i j => if i = j then 1 else 0)) = 2 / 3 := by
  rw [(C09_actions 2 _).2.2.2.2.2.1]
  simp [tr]
  norm_num

/-- C09: derivative of the inverse of a symmetric tensor.  `fo_dinv_sym(A⁻¹)` contracted with
a symmetric increment `H` is `-A⁻¹ H A⁻¹`, the directional derivative of the inverse. -/
theorem C09_fo_dinv_sym (inv h : T2 n) (hh : ∀ i j, h i j = h j i) :
    ddot42_1 (foDinvSym inv) h = fun i j => - ∑ k, ∑ l, inv i k * h k l * inv l j := by
  funext i j
  have e : ∑ k, ∑ l, inv i l * inv k j * h k l = ∑ k, ∑ l, inv i k * inv l j * h k l := by
    rw [Finset.sum_comm]
    refine Finset.sum_congr rfl fun k _ => Finset.sum_congr rfl fun l _ => ?_
    rw [hh l k]
  have e2 : ddot42_1 (foDinvSym inv) h i j =
      -0.5 * (∑ k, ∑ l, inv i k * inv l j * h k l + ∑ k, ∑ l, inv i l * inv k j * h k l) := by
    simp only [ddot42_1, foDinvSym, Finset.mul_sum, ← Finset.sum_add_distrib]
    refine Finset.sum_congr rfl fun k _ => Finset.sum_congr rfl fun l _ => ?_
    ring
  rw [e2, e]
  have e3 : ∑ k, ∑ l, inv i k * h k l * inv l j = ∑ k, ∑ l, inv i k * inv l j * h k l :=
    Finset.sum_congr rfl fun k _ => Finset.sum_congr rfl fun l _ => by ring
  rw [e3]; ring

example : ∀ i j : Fin 3, (fun i j => if i = j then (2 : ℝ) else 1 : T2 3) i j =
    (fun i j => if i = j then (2 : ℝ) else 1 : T2 3) j i := by
  intro i j; simp [eq_comm]

/-- C09: the Kronecker delta of two integers is 1 exactly on equal indexes; any other argument
fails (with `TypeError` rather than the intended `RuntimeError`). -/
theorem C09_dd (a b : DdArg) :
    (∀ i j, a = .int i → b = .int j → dd a b = .ok 1 ∧ i = j ∨ dd a b = .ok 0 ∧ i ≠ j) ∧
    ((a = .other ∨ b = .other) → dd a b = .error .typeError) := by
  constructor
  · rintro i j rfl rfl
    by_cases h : i = j <;> simp [dd, h]
  · rintro (rfl | rfl)
    · simp [dd]
    · cases a <;> simp [dd]

/-! ## C68 products and contractions -/

/-- Product of second-order tensors (specification). -/
def Spec.mulT (a b : T2 n) : T2 n := fun i j => ∑ k, a i k * b k j
/-- Transpose (specification). -/
def Spec.transp (a : T2 n) : T2 n := fun i j => a j i
/-- Double contraction (specification). -/
def Spec.inner (a b : T2 n) : ℝ := ∑ i, ∑ j, a i j * b i j

/-- C68a: the dyadic products as linear maps. -/
theorem C68_dyads (a b c : T2 n) (x y z : T1 n) :
    ddot42_1 (dyad22_1 a b) c = (fun i j => inner b c * a i j) ∧
    ddot42_1 (dyad22_2 a b) c = mulT (mulT a c) (transp b) ∧
    ddot42_1 (dyad22_3 a b) c = mulT (mulT a (transp c)) (transp b) ∧
    dot21_1 (dyad11 x y) z = (fun i => (∑ j, y j * z j) * x i) := by
  refine ⟨?_, ?_, ?_, ?_⟩
  · funext i j
    simp only [ddot42_1, dyad22_1, inner, Finset.sum_mul]
    refine Finset.sum_congr rfl fun k _ => Finset.sum_congr rfl fun l _ => by ring
  · funext i j
    simp only [ddot42_1, dyad22_2, mulT, transp, Finset.sum_mul]
    rw [Finset.sum_comm]
    refine Finset.sum_congr rfl fun k _ => Finset.sum_congr rfl fun l _ => by ring
  · funext i j
    simp only [ddot42_1, dyad22_3, mulT, transp, Finset.sum_mul]
    refine Finset.sum_congr rfl fun k _ => Finset.sum_congr rfl fun l _ => by ring
  · funext i
    simp only [dot21_1, dyad11, Finset.sum_mul]
    refine Finset.sum_congr rfl fun k _ => by ring

theorem sum4_swap (f : Fin n → Fin n → Fin n → Fin n → ℝ) :
    ∑ i, ∑ j, ∑ k, ∑ l, f i j k l = ∑ k, ∑ l, ∑ i, ∑ j, f i j k l := by
  calc ∑ i, ∑ j, ∑ k, ∑ l, f i j k l
      = ∑ i, ∑ k, ∑ l, ∑ j, f i j k l := by
        refine Finset.sum_congr rfl fun i _ => ?_
        rw [Finset.sum_comm]
        refine Finset.sum_congr rfl fun k _ => Finset.sum_comm
    _ = ∑ k, ∑ l, ∑ i, ∑ j, f i j k l := by
        rw [Finset.sum_comm]
        refine Finset.sum_congr rfl fun k _ => Finset.sum_comm

/-- C68b: double contractions: `ddot44_1` composes, `ddot24_1` is the adjoint of
`ddot42_1`, `ddot22_1` is the inner product. -/
theorem C68_contractions (A B : T4 n) (a c : T2 n) (m : T2 n) (x y : T1 n) :
    ddot42_1 (ddot44_1 A B) c = ddot42_1 A (ddot42_1 B c) ∧
    inner (ddot24_1 a A) c = inner a (ddot42_1 A c) ∧
    ddot22_1 a c = inner a c ∧
    (∑ j, dot12_1 x m j * y j = ∑ i, x i * dot21_1 m y i) := by
  refine ⟨?_, ?_, rfl, ?_⟩
  · funext i j
    simp only [ddot42_1, ddot44_1, Finset.sum_mul, Finset.mul_sum]
    rw [sum4_swap]
    refine Finset.sum_congr rfl fun i _ => Finset.sum_congr rfl fun j _ =>
      Finset.sum_congr rfl fun k _ => Finset.sum_congr rfl fun l _ => by ring
  · simp only [inner, ddot24_1, ddot42_1, Finset.sum_mul, Finset.mul_sum]
    rw [sum4_swap]
    refine Finset.sum_congr rfl fun i _ => Finset.sum_congr rfl fun j _ =>
      Finset.sum_congr rfl fun k _ => Finset.sum_congr rfl fun l _ => by ring
  · simp only [dot12_1, dot21_1, Finset.sum_mul, Finset.mul_sum]
    rw [Finset.sum_comm]
    refine Finset.sum_congr rfl fun i _ => Finset.sum_congr rfl fun j _ => by ring

/-- C68c: single contractions of a fourth-order with a second-order tensor, as maps: the
second-order tensor multiplies the result (`dot24_1`, `dot24_2`, `dot42_2`) or the
argument (`dot42_1`, `dot42_3`, `dot24_3`, `dot24_4`). -/
theorem C68_single_contractions (A : T4 n) (b c : T2 n) :
    ddot42_1 (dot24_1 b A) c = mulT b (ddot42_1 A c) ∧
    ddot42_1 (dot24_2 b A) c = mulT (ddot42_1 A c) (transp b) ∧
    ddot42_1 (dot42_2 A b) c = mulT (ddot42_1 A c) (transp b) ∧
    ddot42_1 (dot42_1 A b) c = ddot42_1 A (mulT c b) ∧
    ddot42_1 (dot42_3 A b) c = ddot42_1 A (mulT c (transp b)) ∧
    ddot42_1 (dot24_3 b A) c = ddot42_1 A (mulT (transp b) c) ∧
    ddot42_1 (dot24_4 b A) c = ddot42_1 A (mulT c b) := by
  have rot : ∀ f : Fin n → Fin n → Fin n → ℝ,
      ∑ k, ∑ l, ∑ m, f k l m = ∑ m, ∑ k, ∑ l, f k l m := by
    intro f
    rw [Finset.sum_comm (γ := Fin n) (s := Finset.univ) (t := Finset.univ) (f := fun m k => ∑ l, f k l m)]
    refine Finset.sum_congr rfl fun k _ => Finset.sum_comm
  refine ⟨?_, ?_, ?_, ?_, ?_, ?_, ?_⟩ <;> funext i j <;>
    simp only [ddot42_1, dot24_1, dot24_2, dot42_2, dot42_1, dot42_3, dot24_3, dot24_4, mulT,
      transp, Finset.sum_mul, Finset.mul_sum]
  · rw [rot]
    refine Finset.sum_congr rfl fun m _ => Finset.sum_congr rfl fun k _ =>
      Finset.sum_congr rfl fun l _ => by ring
  · rw [rot]
    refine Finset.sum_congr rfl fun m _ => Finset.sum_congr rfl fun k _ =>
      Finset.sum_congr rfl fun l _ => by ring
  · rw [rot]
    refine Finset.sum_congr rfl fun m _ => Finset.sum_congr rfl fun k _ =>
      Finset.sum_congr rfl fun l _ => by ring
  · refine Finset.sum_congr rfl fun k _ => ?_
    rw [Finset.sum_comm]
    refine Finset.sum_congr rfl fun m _ => Finset.sum_congr rfl fun l _ => by ring
  · refine Finset.sum_congr rfl fun k _ => ?_
    rw [Finset.sum_comm]
    refine Finset.sum_congr rfl fun m _ => Finset.sum_congr rfl fun l _ => by ring
  · rw [rot]
    refine Finset.sum_congr rfl fun m _ => ?_
    rw [Finset.sum_comm]
    refine Finset.sum_congr rfl fun l _ => Finset.sum_congr rfl fun k _ => by ring
  · refine Finset.sum_congr rfl fun k _ => ?_
    rw [Finset.sum_comm]
    refine Finset.sum_congr rfl fun m _ => Finset.sum_congr rfl fun l _ => by ring

end Hooke
