import Verif.Props.LouJacobian
import Verif.Props.VonMises

/-!
# The return mapping keeps plane states plane

A tensor is even if its components with an odd number of indices equal to the out-of-plane
direction vanish.
-/

noncomputable section

namespace Hooke

open Spec

/-- Sign of an index under reflection of the out-of-plane direction. -/
def par (i : Fin 3) : ℝ := if i = 2 then -1 else 1

theorem par_sq (i : Fin 3) : par i * par i = 1 := by unfold par; split <;> norm_num

/-- Invariant under reflection. -/
def Even2 (t : T2 3) : Prop := ∀ i j, t i j = par i * par j * t i j
/-- Invariant under reflection. -/
def Even4 (A : T4 3) : Prop := ∀ i j k l, A i j k l = par i * par j * par k * par l * A i j k l

theorem Even2.lin {s t : T2 3} (hs : Even2 s) (ht : Even2 t) (a b : ℝ) :
    Even2 fun i j => a * s i j + b * t i j := fun i j => by
  linear_combination a * hs i j + b * ht i j

theorem Even4.lin {A B : T4 3} (hA : Even4 A) (hB : Even4 B) (a b : ℝ) :
    Even4 fun i j k l => a * A i j k l + b * B i j k l := fun i j k l => by
  linear_combination a * hA i j k l + b * hB i j k l

theorem Even2.dyad {s t : T2 3} (hs : Even2 s) (ht : Even2 t) : Even4 (dyad22_1 s t) := by
  intro i j k l
  simp only [dyad22_1]
  calc s i j * t k l = (par i * par j * s i j) * (par k * par l * t k l) := by
        rw [← hs i j, ← ht k l]
    _ = _ := by ring

theorem Even4.ddot44 {A B : T4 3} (hA : Even4 A) (hB : Even4 B) : Even4 (ddot44_1 A B) := by
  intro i j k l
  simp only [ddot44_1, Finset.mul_sum]
  refine Finset.sum_congr rfl fun m _ => Finset.sum_congr rfl fun n _ => ?_
  calc A i j m n * B m n k l = (par i * par j * par m * par n * A i j m n) *
        (par m * par n * par k * par l * B m n k l) := by rw [← hA i j m n, ← hB m n k l]
    _ = (par m * par m) * (par n * par n) *
        (par i * par j * par k * par l * (A i j m n * B m n k l)) := by ring
    _ = _ := by rw [par_sq, par_sq]; ring

theorem Even4.ddot24 {a : T2 3} {B : T4 3} (ha : Even2 a) (hB : Even4 B) : Even2 (ddot24_1 a B) := by
  intro k l
  simp only [ddot24_1, Finset.mul_sum]
  refine Finset.sum_congr rfl fun m _ => Finset.sum_congr rfl fun n _ => ?_
  calc a m n * B m n k l = (par m * par n * a m n) *
        (par m * par n * par k * par l * B m n k l) := by rw [← ha m n, ← hB m n k l]
    _ = (par m * par m) * (par n * par n) * (par k * par l * (a m n * B m n k l)) := by ring
    _ = _ := by rw [par_sq, par_sq]; ring

theorem Even4.ddot42 {a : T2 3} {B : T4 3} (ha : Even2 a) (hB : Even4 B) : Even2 (ddot42_1 B a) := by
  intro k l
  simp only [ddot42_1, Finset.mul_sum]
  refine Finset.sum_congr rfl fun m _ => Finset.sum_congr rfl fun n _ => ?_
  calc B k l m n * a m n = (par k * par l * par m * par n * B k l m n) *
        (par m * par n * a m n) := by rw [← ha m n, ← hB k l m n]
    _ = (par m * par m) * (par n * par n) * (par k * par l * (B k l m n * a m n)) := by ring
    _ = _ := by rw [par_sq, par_sq]; ring

theorem even4_fosym : Even4 (getIdOperators 3).fosym := by
  intro i j k l
  simp only [fosym_eq]
  have h1 : ∀ a b c d : Fin 3, (if a = c ∧ b = d then (1 : ℝ) else 0) =
      par a * par b * par c * par d * (if a = c ∧ b = d then 1 else 0) := by
    intro a b c d
    split_ifs with h
    · obtain ⟨rfl, rfl⟩ := h
      have : par a * par b * par a * par b * 1 = (par a * par a) * (par b * par b) := by ring
      rw [this, par_sq, par_sq, one_mul]
    · ring
  have e1 := h1 i j k l
  have e2 := h1 i j l k
  linear_combination 0.5 * e1 + 0.5 * e2

theorem even4_fodiagtrace : Even4 (getIdOperators 3).fodiagtrace := by
  intro i j k l
  simp only [fodiagtrace_eq]
  have h1 : ∀ a b : Fin 3, (if a = b then (1 : ℝ) else 0) = par a * par b * (if a = b then 1 else 0) := by
    intro a b
    split_ifs with h
    · subst h; rw [par_sq, one_mul]
    · ring
  calc (if i = j then (1 : ℝ) else 0) * (if k = l then 1 else 0) =
      (par i * par j * (if i = j then 1 else 0)) * (par k * par l * (if k = l then 1 else 0)) := by
        rw [← h1, ← h1]
    _ = _ := by ring

theorem even4_devproj : Even4 (getIdOperators 3).fodevprojsym := by
  have : (getIdOperators 3).fodevprojsym = fun i j k l =>
      1 * (getIdOperators 3).fosym i j k l + (-(1 / 3)) * (getIdOperators 3).fodiagtrace i j k l := by
    funext i j k l; rw [fodevprojsym_eq]; ring
  rw [this]
  exact even4_fosym.lin even4_fodiagtrace _ _

theorem even4_tangent (m : LouParams) : Even4 m.tangent :=
  even4_fodiagtrace.lin even4_fosym (lamOf m.E m.v) (2 * miuOf m.E m.v)

theorem even4_dinv {M : T2 3} (h : Even2 M) : Even4 (foDinvSym M) := by
  intro i j k l
  simp only [foDinvSym]
  have e1 : M i k * M l j = par i * par j * par k * par l * (M i k * M l j) := by
    calc M i k * M l j = (par i * par k * M i k) * (par l * par j * M l j) := by rw [← h, ← h]
      _ = _ := by ring
  have e2 : M i l * M k j = par i * par j * par k * par l * (M i l * M k j) := by
    calc M i l * M k j = (par i * par l * M i l) * (par k * par j * M k j) := by rw [← h, ← h]
      _ = _ := by ring
  linear_combination -0.5 * e1 - 0.5 * e2

theorem even2_iff {t : T2 3} : Even2 t ↔ t 0 2 = 0 ∧ t 1 2 = 0 ∧ t 2 0 = 0 ∧ t 2 1 = 0 := by
  constructor
  · intro h
    have h1 := h 0 2; have h2 := h 1 2; have h3 := h 2 0; have h4 := h 2 1
    simp [par] at h1 h2 h3 h4
    refine ⟨?_, ?_, ?_, ?_⟩ <;> linarith
  · rintro ⟨h1, h2, h3, h4⟩ i j
    fin_cases i <;> fin_cases j <;> simp [par, h1, h2, h3, h4]

theorem even2_soid : Even2 (getIdOperators 3).soid := by
  rw [even2_iff]
  simp only [(C09_actions 3 0).1]
  simp

theorem even2_deviator {t : T2 3} (h : Even2 t) : Even2 (deviator t) := by
  rw [even2_iff] at h ⊢
  obtain ⟨h1, h2, h3, h4⟩ := h
  simp [deviator, h1, h2, h3, h4]

theorem even2_adjT {t : T2 3} (h : Even2 t) : Even2 (adjT t) := by
  rw [even2_iff] at h ⊢
  obtain ⟨h1, h2, h3, h4⟩ := h
  rw [adjT_eq]
  simp [h1, h2, h3, h4]

/-- The derivatives of the invariants of a plane stress state are even. -/
structure EvenCtx (k : LouCtx) : Prop where
  di1 : Even2 k.g.di1
  dj2 : Even2 k.g.dj2
  dj3 : Even2 k.g.dj3
  d2j2 : Even4 k.g.d2j2
  d2j3 : Even4 k.g.d2j3

theorem evenCtx (m : LouParams) {z : LouIx → ℝ} (h : Even2 (louS m z)) : EvenCtx (louK m z) := by
  have hd := even2_deviator h
  have hg : Even2 (gradJ3 (louS m z)) := even2_deviator (even2_adjT hd)
  have hs : ∀ {t : T2 3} (c : ℝ), Even2 t → Even2 fun i j => c * t i j := by
    intro t c ht i j
    linear_combination c * ht i j
  refine ⟨even2_soid, hd, hg, even4_devproj, ?_⟩
  have h1 := (hs (devJ3 (louS m z))⁻¹ hg).dyad hg
  have h2 := (even4_devproj.ddot44 (even4_dinv (hs (devJ3 (louS m z))⁻¹ (even2_adjT hd)))).ddot44
    even4_devproj
  have h3 := h1.lin h2 1 (devJ3 (louS m z))
  have e : (louK m z).g.d2j3 = fun i j k l =>
      1 * dyad22_1 (fun i j => (devJ3 (louS m z))⁻¹ * gradJ3 (louS m z) i j) (gradJ3 (louS m z)) i j k l
      + devJ3 (louS m z) * ddot44_1 (ddot44_1 (getIdOperators 3).fodevprojsym
        (foDinvSym fun i j => (devJ3 (louS m z))⁻¹ * adjT (deviator (louS m z)) i j))
        (getIdOperators 3).fodevprojsym i j k l := by
    funext i j k l
    rw [one_mul]
    rfl
  rw [e]
  exact h3

namespace EvenCtx
variable {k : LouCtx}

theorem dw4 (h : EvenCtx k) : Even2 k.dw4 := by
  intro i j
  simp only [LouCtx.dw4, LouCtx.dw2]
  linear_combination 3 * k.j2 ^ 2 * h.dj2 i j - 2 * k.c * k.j3 * h.dj3 i j

theorem dw5 (h : EvenCtx k) : Even2 k.dw5 := by
  intro i j
  simp only [LouCtx.dw5, LouCtx.dw3]
  linear_combination 1 / 2 * k.w4 ^ (-1 / 2 : ℝ) * h.dw4 i j - k.d * h.dj3 i j

theorem d2w4 (h : EvenCtx k) : Even4 k.d2w4 := by
  intro i j p q
  simp only [LouCtx.d2w4, LouCtx.d2w2]
  linear_combination 6 * k.j2 * h.dj2.dyad h.dj2 i j p q + 3 * k.j2 ^ 2 * h.d2j2 i j p q
    - 2 * k.c * (h.dj3.dyad h.dj3 i j p q + k.j3 * h.d2j3 i j p q)

theorem d2w5 (h : EvenCtx k) : Even4 k.d2w5 := by
  intro i j p q
  simp only [LouCtx.d2w5, LouCtx.d2w3]
  linear_combination -(1 / 4) * k.w4 ^ (-3 / 2 : ℝ) * h.dw4.dyad h.dw4 i j p q
    + 1 / 2 * k.w4 ^ (-1 / 2 : ℝ) * h.d2w4 i j p q - k.d * h.d2j3 i j p q

theorem flow (h : EvenCtx k) : Even2 k.flow := by
  intro i j
  simp only [LouCtx.flow, LouCtx.dw1]
  linear_combination k.a * (k.b * h.di1 i j + 1 / 3 * k.w5 ^ (-2 / 3 : ℝ) * h.dw5 i j)

theorem dflow (h : EvenCtx k) : Even4 k.dflow := by
  intro i j p q
  simp only [LouCtx.dflow]
  linear_combination 1 / 3 * k.a * (-(2 / 3) * k.w5 ^ (-5 / 3 : ℝ) * h.dw5.dyad h.dw5 i j p q
    + k.w5 ^ (-2 / 3 : ℝ) * h.d2w5 i j p q)

theorem d2w5acc (h : EvenCtx k) : Even2 k.d2w5acc := by
  intro i j
  simp only [LouCtx.d2w5acc, LouCtx.d2w4acc]
  linear_combination -(1 / 4) * k.w4 ^ (-3 / 2 : ℝ) * k.dw4acc * h.dw4 i j
    + 1 / 2 * k.w4 ^ (-1 / 2 : ℝ) * -(2 * k.j3 * k.hc * h.dj3 i j) - k.hd * h.dj3 i j

theorem dflowAcc (h : EvenCtx k) : Even2 k.dflowAcc := by
  intro i j
  simp only [LouCtx.dflowAcc, LouCtx.dw1, LouCtx.d2w1acc]
  linear_combination k.ha * (k.b * h.di1 i j + 1 / 3 * k.w5 ^ (-2 / 3 : ℝ) * h.dw5 i j)
    + k.a * (k.hb * even2_soid i j - 2 / 9 * k.w5 ^ (-5 / 3 : ℝ) * k.dw5acc * h.dw5 i j
      + 1 / 3 * k.w5 ^ (-2 / 3 : ℝ) * h.d2w5acc i j)

end EvenCtx

/-- Reflection of a vector of unknowns or residuals. -/
def parIx : LouIx → ℝ := Sum.elim (fun k => par (ci k) * par (cj k)) fun _ => 1

theorem parIx_sq (k : LouIx) : parIx k * parIx k = 1 := by
  rcases k with k | k
  · show par (ci k) * par (cj k) * (par (ci k) * par (cj k)) = 1
    have : par (ci k) * par (cj k) * (par (ci k) * par (cj k)) =
      (par (ci k) * par (ci k)) * (par (cj k) * par (cj k)) := by ring
    rw [this, par_sq, par_sq, one_mul]
  · simp [parIx]

theorem kel6_even {t : T2 3} (h : Even2 t) (k : Fin 6) : kel6 t k = parIx (.inl k) * kel6 t k := by
  show t (ci k) (cj k) * kf k = par (ci k) * par (cj k) * (t (ci k) (cj k) * kf k)
  linear_combination kf k * h (ci k) (cj k)

/-- The Jacobian of a plane state commutes with the reflection. -/
theorem louJacobian_even (m : LouParams) (x : LouPoint) {k : LouCtx} (h : EvenCtx k) (i j : LouIx) :
    louJacobian m x k i j = parIx i * parIx j * louJacobian m x k i j := by
  have hE := h.dflow.ddot44 (even4_tangent m)
  rcases i with i | i <;> rcases j with j | j
  · have h1 : ∀ a b c d, (getIdOperators 3).fosym a b c d + x.inc * ddot44_1 k.dflow m.tangent a b c d =
        par a * par b * par c * par d *
          ((getIdOperators 3).fosym a b c d + x.inc * ddot44_1 k.dflow m.tangent a b c d) := by
      intro a b c d
      linear_combination even4_fosym a b c d + x.inc * hE a b c d
    simp only [louJacobian, Matrix.fromBlocks_apply₁₁, Matrix.of_apply, kel66, parIx, Sum.elim_inl]
    linear_combination kf i * kf j * h1 (ci i) (cj i) (ci j) (cj j)
  · have h1 : Even2 fun i j => x.inc * k.dflowAcc i j := by
      intro i j
      linear_combination x.inc * h.dflowAcc i j
    have e1 := kel6_even h1 i
    have e2 := kel6_even h.flow i
    have hp : parIx (.inr j) = 1 := rfl
    rw [hp, mul_one]
    simp only [louJacobian, Matrix.fromBlocks_apply₁₂, Matrix.of_apply]
    fin_cases j
    · exact e1
    · exact e2
  · have hp : parIx (.inr i) = 1 := rfl
    rw [hp, one_mul]
    have h1 : Even2 (louDr2e m.assoc x k.flow (ddot44_1 k.dflow m.tangent)) := by
      unfold louDr2e
      split
      · intro i j; simp
      · intro i j
        linear_combination -x.inc * √(2 / 3) * (1 / normT2 k.flow) * (Even4.ddot24 h.flow hE) i j
    have h2 : Even2 fun i j => 1 / (m.y 0).1 * ddot24_1 k.flow m.tangent i j := by
      intro i j
      linear_combination 1 / (m.y 0).1 * (Even4.ddot24 h.flow (even4_tangent m)) i j
    simp only [louJacobian, Matrix.fromBlocks_apply₂₁, Matrix.of_apply]
    fin_cases i
    · exact kel6_even h1 j
    · exact kel6_even h2 j
  · simp [parIx]

/-- The solution of a regular system with an even matrix and an even right-hand side is even. -/
theorem solve_even {J : Matrix LouIx LouIx ℝ} (hJ : ∀ i j, J i j = parIx i * parIx j * J i j)
    (hd : J.det ≠ 0) {b : LouIx → ℝ} (hb : ∀ i, b i = parIx i * b i) (i : LouIx) :
    J⁻¹.mulVec b i = parIx i * J⁻¹.mulVec b i := by
  have hu : IsUnit J.det := isUnit_iff_ne_zero.mpr hd
  have h1 : J.mulVec (fun i => parIx i * J⁻¹.mulVec b i) = b := by
    funext k
    have h2 : J.mulVec (J⁻¹.mulVec b) k = b k := by
      rw [Matrix.mulVec_mulVec, Matrix.mul_nonsing_inv _ hu, Matrix.one_mulVec]
    rw [hb k, ← h2]
    simp only [Matrix.mulVec, dotProduct, Finset.mul_sum]
    refine Finset.sum_congr rfl fun l _ => ?_
    refine Finset.sum_congr rfl fun q _ => ?_
    conv_lhs => rw [hJ k l]
    linear_combination (parIx k * J k l * (J⁻¹ l q * b q)) * parIx_sq l
  have h2 : J⁻¹.mulVec (J.mulVec (fun i => parIx i * J⁻¹.mulVec b i)) i = J⁻¹.mulVec b i := by
    rw [h1]
  rw [Matrix.mulVec_mulVec, Matrix.nonsing_inv_mul _ hu, Matrix.one_mulVec] at h2
  exact h2.symm

theorem even2_unkel6 {v : V6} : Even2 (unkel6 v) ↔ v 4 = 0 ∧ v 5 = 0 := by
  have h0 : √(2 : ℝ) ≠ 0 := by positivity
  rw [even2_iff]
  simp [unkel6, pos6, kf, h0]
  tauto

theorem even2_planar {p : PType} {v : V6} : (p = .plane → Even2 (unkel6 v)) ↔ Planar p v := by
  simp only [even2_unkel6]
  rfl

/-- Outcome of an evaluation at a symmetric elastic strain. -/
theorem louEval_some {m : LouParams} {eTrial : T2 3} {accOld : ℝ} {x : LouPoint} (hx : IsSym x.e)
    {r : LouEval} (h : louEval m eTrial accOld x = .ok (some r)) :
    devJ3 (louS m (louVec x)) ≠ 0 ∧ (louK m (louVec x)).finite (m.y 0).1 ∧
      r.residual = louResidual m eTrial accOld (louVec x) ∧
      r = { r1 := louR1 eTrial x (louK m (louVec x)).flow
            r2 := louR2 m.assoc accOld x (louK m (louVec x)).flow
            r3 := louR3 (louK m (louVec x)).effective (m.y x.acc).1 (m.y 0).1
            jac := if louJacFinite m (louK m (louVec x)) then
                some (louJacobian m x (louK m (louVec x))) else none } := by
  have h' := h
  rw [← louPoint_louVec hx] at h'
  have := (louEval_ok_iff m eTrial accOld (louVec x) r).mp h'
  rw [louPoint_louVec hx] at this
  exact this

theorem louEval_even {m : LouParams} {eTrial : T2 3} {accOld : ℝ} {x : LouPoint} (hx : IsSym x.e)
    (he : Even2 x.e) (hT : Even2 eTrial) {r : LouEval} {J : Matrix LouIx LouIx ℝ}
    (h : louEval m eTrial accOld x = .ok (some r)) (hJ : r.jac = some J) :
    (∀ i, r.residual i = parIx i * r.residual i) ∧ ∀ i j, J i j = parIx i * parIx j * J i j := by
  obtain ⟨-, -, -, rfl⟩ := louEval_some hx h
  have hS : Even2 (louS m (louVec x)) := by
    rw [louS_louVec m hx, ← hooke_tensor m hx]
    exact Even4.ddot42 he (even4_tangent m)
  have hc := evenCtx m hS
  constructor
  · rintro (i | i)
    · refine kel6_even ?_ i
      intro i j
      simp only [louR1]
      linear_combination he i j - hT i j + x.inc * hc.flow i j
    · simp [parIx]
  · intro i j
    have hJ' : J = louJacobian m x (louK m (louVec x)) := by
      simp only at hJ
      split at hJ
      · exact (Option.some.inj hJ).symm
      · cases hJ
    rw [hJ']
    exact louJacobian_even m x hc i j

/-- Symmetric, and even for a plane problem. -/
def LouShape (p : PType) (e : T2 3) : Prop := IsSym e ∧ (p = .plane → Even2 e)

theorem louShape_unkel6 {p : PType} {v : V6} (h : Planar p v) : LouShape p (unkel6 v) :=
  ⟨unkel6_isSym v, even2_planar.mpr h⟩

/-- A result of the iterations on the surface has a small residual, and the symmetries of the
trial state. -/
theorem louConeLoop_some {p : PType} {m : LouParams} {eTrial : T2 3} {accOld : ℝ}
    (hT : LouShape p eTrial) : ∀ (fuel nr : ℕ) (x : LouPoint) (dn : ℝ) {y : LouPoint},
      LouShape p x.e → louConeLoop m eTrial accOld fuel nr x dn = .ok (some y) →
      LouShape p y.e ∧ ∃ r, louEval m eTrial accOld y = .ok (some r) ∧
        r.convNorm eTrial accOld < suTol := by
  intro fuel
  induction fuel with
  | zero =>
    intro nr x dn y hx h
    unfold louConeLoop at h
    cases hr : louEval m eTrial accOld x with
    | error e => rw [hr] at h; cases h
    | ok r =>
      rw [hr] at h
      cases r with
      | none => cases h
      | some r =>
        simp only [Except.bind] at h
        split_ifs at h with hc
        · obtain rfl := Option.some.inj (Except.ok.inj h)
          exact ⟨hx, r, hr, hc.1⟩
        · cases h
  | succ n ih =>
    intro nr x dn y hx h
    unfold louConeLoop at h
    cases hr : louEval m eTrial accOld x with
    | error e => rw [hr] at h; cases h
    | ok r =>
      rw [hr] at h
      cases r with
      | none => cases h
      | some r =>
        simp only [Except.bind] at h
        split_ifs at h with hc
        · obtain rfl := Option.some.inj (Except.ok.inj h)
          exact ⟨hx, r, hr, hc.1⟩
        · cases hj : r.jac with
          | none => simp [louSolve, hj] at h
          | some J =>
            simp only [louSolve, hj] at h
            by_cases hd : J.det = 0
            · simp [hd] at h
            · simp only [if_neg hd] at h
              refine ih _ _ _ ⟨?_, ?_⟩ h
              · intro i j
                simp only [LouPoint.add]
                rw [hx.1 i j, unkel6_isSym _ i j]
              · intro hp
                obtain ⟨h1, h2⟩ := louEval_even hx.1 (hx.2 hp) (hT.2 hp) hr hj
                have h3 := solve_even h2 hd (b := -r.residual) fun i => by
                  simp only [Pi.neg_apply]; linear_combination -h1 i
                have h4 : Even2 (unkel6 fun k => J⁻¹.mulVec (-r.residual) (.inl k)) := by
                  rw [even2_unkel6]
                  have a4 := h3 (.inl 4)
                  have a5 := h3 (.inl 5)
                  simp [parIx, par, ci, cj] at a4 a5
                  constructor
                  · simpa using (by linarith : J⁻¹.mulVec (-r.residual) (.inl 4) = 0)
                  · simpa using (by linarith : J⁻¹.mulVec (-r.residual) (.inl 5) = 0)
                intro i j
                simp only [LouPoint.add]
                linear_combination hx.2 hp i j + h4 i j

end Hooke
