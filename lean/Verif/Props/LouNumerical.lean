import Verif.Model.LouNumerical
import Verif.Spec.LouNumerical
import Verif.Props.LouJacobian
import Verif.Lemmas.StrainPath
import Verif.Lemmas.LouPlanar
import Verif.Props.LouVonMises

/-!
# C160: the numerical Jacobian of the Lou-Zhang-Yoon model checks the analytical one
-/

noncomputable section

namespace Hooke

open Spec Filter Topology

theorem louPert_eq (v : ℝ) : louPert v = stepSize v := by
  unfold louPert stepSize
  rw [mul_max_of_nonneg _ _ (by norm_num)]
  congr 1 <;> norm_num
  ring

theorem stepSize_pos (v : ℝ) : 0 < stepSize v := lt_max_of_lt_right (by norm_num)

theorem moved_vec (x : LouPoint) (i : LouIx) (t : ℝ) :
    louVec (movedUnknown x i t) = louVec x + t • Pi.single i 1 := by
  funext j
  rcases i with k | k
  · rcases j with j | j
    · have : kel6 (fun p q => x.e p q + t * unitTensor k p q) j = kel6 x.e j + t * kel6 (unitTensor k) j := by
        simp only [kel6]; ring
      simp only [louVec, movedUnknown, Sum.elim_inl, Pi.add_apply, Pi.smul_apply, smul_eq_mul]
      rw [this, unitTensor, kel6_unkel6]
      congr 2
      simp [Pi.single_apply]
    · simp [louVec, movedUnknown]
  · fin_cases k
    · rcases j with j | j
      · simp [louVec, movedUnknown]
      · fin_cases j <;> simp [louVec, movedUnknown]
    · rcases j with j | j
      · simp [louVec, movedUnknown]
      · fin_cases j <;> simp [louVec, movedUnknown]

theorem moved_sym {x : LouPoint} (hx : IsSym x.e) (i : LouIx) (t : ℝ) : IsSym (movedUnknown x i t).e := by
  rcases i with k | k
  · intro p q
    simp only [movedUnknown, hx p q]
    rw [show unitTensor k p q = unitTensor k q p from unkel6_isSym _ p q]
  · fin_cases k <;> exact hx

theorem moved_acc (x : LouPoint) (i : LouIx) (t : ℝ) : (movedUnknown x i t).acc = louVec (movedUnknown x i t) (.inr 0) := rfl

theorem perturbed_moved {x : LouPoint} (hx : IsSym x.e) (i : LouIx) :
    louPerturbed x i = (movedUnknown x i (stepSize (unknown x i)), stepSize (unknown x i)) := by
  rcases i with k | k
  · simp only [louPerturbed, louPert_eq, movedUnknown, unknown, Sum.elim_inl]
    congr 2
    have h1 : Function.update (kel6 x.e) k (kel6 x.e k + stepSize (kel6 x.e k)) =
        kel6 (fun p q => x.e p q + stepSize (kel6 x.e k) * unitTensor k p q) := by
      funext j
      have : kel6 (fun p q => x.e p q + stepSize (kel6 x.e k) * unitTensor k p q) j =
          kel6 x.e j + stepSize (kel6 x.e k) * kel6 (unitTensor k) j := by
        simp only [kel6]; ring
      rw [this, unitTensor, kel6_unkel6]
      by_cases hj : j = k
      · subst hj; simp
      · simp [hj]
    rw [h1, unkel6_kel6]
    exact moved_sym hx (.inl k) _
  · fin_cases k
    · simp [louPerturbed, louPert_eq, movedUnknown, unknown, unkel6_kel6 hx]
    · simp [louPerturbed, louPert_eq, movedUnknown, unknown, unkel6_kel6 hx]

theorem louNum_columns {m : LouParams} {eTrial : T2 3} {accOld : ℝ} {x : LouPoint}
    {N : LouIx → Option (LouIx → ℝ)} (h : louNumJacobian m eTrial accOld x = .ok N) :
    ∃ base, louEval m eTrial accOld x = .ok base ∧
      ∀ i, louNumColumn m eTrial accOld x base i = .ok (N i) := by
  obtain ⟨base, hb, h⟩ := bind_ok h
  obtain ⟨cols, hc, h⟩ := bind_ok h
  cases h
  refine ⟨base, hb, fun i => ?_⟩
  have hf := mapM_forall₂ hc
  have hlt : louPos i < louIxs.length := by
    rcases i with i | i
    · exact i.2.trans (by decide)
    · exact (Nat.add_lt_add_left i.2 6 : 6 + i.val < 6 + 2)
  have hpos : louIxs[louPos i] = i := by
    rcases i with i | i <;> fin_cases i <;> rfl
  have hget := hf.get (i := louPos i) hlt (hf.length_eq ▸ hlt)
  simp only [List.get_eq_getElem, hpos] at hget
  show _ = Except.ok (cols.getD (louPos i) none)
  rw [hget, List.getD_eq_getElem?_getD, List.getElem?_eq_getElem (hf.length_eq ▸ hlt), Option.getD_some]

/-- **C160.** Every entry of the numerical Jacobian is a forward difference: the change of a component of the
residual when only one unknown is moved, over the move, which is one millionth of the value of the unknown
(at least `1e-12`, so never zero). -/
theorem C160_differences {m : LouParams} {eTrial : T2 3} {accOld : ℝ} {x : LouPoint} (hx : IsSym x.e)
    {N : LouIx → Option (LouIx → ℝ)} (h : louNumJacobian m eTrial accOld x = .ok N) {i : LouIx}
    {col : LouIx → ℝ} (hi : N i = some col) :
    ∃ r r', louEval m eTrial accOld x = .ok (some r) ∧
      louEval m eTrial accOld (movedUnknown x i (stepSize (unknown x i))) = .ok (some r') ∧
      ∀ j, col j = (r'.residual j - r.residual j) / stepSize (unknown x i) := by
  obtain ⟨base, hb, hc⟩ := louNum_columns h
  have := hc i
  rw [louNumColumn, perturbed_moved hx, hi] at this
  cases hr : louEval m eTrial accOld (movedUnknown x i (stepSize (unknown x i))) with
  | error e => rw [hr] at this; cases this
  | ok r' =>
    rw [hr] at this
    have := Except.ok.inj this
    obtain ⟨r, rfl, this⟩ := Option.bind_eq_some_iff.1 this
    obtain ⟨r'', rfl, rfl⟩ := Option.map_eq_some_iff.1 this
    exact ⟨r, r'', hb, rfl, fun j => rfl⟩

/-- **C160.** The numerical Jacobian is returned, with all columns finite, whenever the residual is finite at
the state and at the eight states with one unknown moved. -/
theorem C160_returns {m : LouParams} {eTrial : T2 3} {accOld : ℝ} {x : LouPoint} (hx : IsSym x.e)
    (h : ∃ r, louEval m eTrial accOld x = .ok (some r))
    (h' : ∀ i, ∃ r, louEval m eTrial accOld (movedUnknown x i (stepSize (unknown x i))) = .ok (some r)) :
    ∃ N, louNumJacobian m eTrial accOld x = .ok N ∧ ∀ i, (N i).isSome := by
  obtain ⟨r, hr⟩ := h
  choose r' hr' using h'
  have hcol : ∀ i, louNumColumn m eTrial accOld x (some r) i =
      .ok (some fun j => ((r' i).residual j - r.residual j) / stepSize (unknown x i)) := by
    intro i
    rw [louNumColumn, perturbed_moved hx, hr' i]
    rfl
  refine ⟨fun i => (louIxs.map fun i => some fun j => ((r' i).residual j - r.residual j) /
    stepSize (unknown x i)).getD (louPos i) none, ?_, ?_⟩
  · rw [louNumJacobian, hr]
    show (louIxs.mapM (louNumColumn m eTrial accOld x (some r)) >>= _) = _
    rw [mapM_of_forall fun i _ => hcol i]
    rfl
  · intro i
    rcases i with i | i <;> fin_cases i <;> rfl

/-- The analytical Jacobian as the derivative of the residual along one unknown. -/
theorem residual_along {m : LouParams} {eTrial : T2 3} {accOld : ℝ} {x : LouPoint} (hx : IsSym x.e) {i : LouIx}
    {t : ℝ} (hl : LouLaws m (movedUnknown x i t).acc) {r : LouEval} {J : Matrix LouIx LouIx ℝ}
    (h : louEval m eTrial accOld (movedUnknown x i t) = .ok (some r)) (hJ : r.jac = some J) (j : LouIx) :
    HasDerivAt (fun s => louResidual m eTrial accOld (louVec x + s • Pi.single i 1) j) (J j i) t := by
  have hs := moved_sym hx i t
  rw [← louPoint_louVec hs] at h
  obtain ⟨R, hR, hd⟩ := C89_jacobian m eTrial accOld hl h hJ
  have hev : louResidual m eTrial accOld =ᶠ[𝓝 (louVec (movedUnknown x i t))] R := by
    filter_upwards [hR] with y hy
    obtain ⟨r', h1, h2⟩ := hy
    rw [← h2]
    exact ((louEval_ok_iff m eTrial accOld y r').1 h1).2.2.1.symm
  have hd' := hd.congr_of_eventuallyEq hev
  rw [moved_vec] at hd'
  have hline : HasDerivAt (fun s : ℝ => louVec x + s • (Pi.single i 1 : LouIx → ℝ)) (Pi.single i 1) t := by
    have := ((hasDerivAt_id t).smul_const (Pi.single i 1 : LouIx → ℝ)).const_add (louVec x)
    simpa using this
  have hc := hd'.comp_hasDerivAt t hline
  have := hasDerivAt_pi.1 hc j
  simpa using this

/-- **C160.** Every entry of the numerical Jacobian is the entry of the analytical Jacobian at a state with
only that unknown moved, by less than the step, when the residual and the Jacobian are finite in between and
the hardening laws return their derivatives. -/
theorem C160_mean_value {m : LouParams} {eTrial : T2 3} {accOld : ℝ} {x : LouPoint} (hx : IsSym x.e)
    {N : LouIx → Option (LouIx → ℝ)} (h : louNumJacobian m eTrial accOld x = .ok N) {i : LouIx}
    {col : LouIx → ℝ} (hi : N i = some col)
    (hseg : ∀ t, 0 ≤ t → t ≤ stepSize (unknown x i) → LouLaws m (movedUnknown x i t).acc ∧
      ∃ r J, louEval m eTrial accOld (movedUnknown x i t) = .ok (some r) ∧ r.jac = some J) (j : LouIx) :
    ∃ t, 0 < t ∧ t < stepSize (unknown x i) ∧ ∃ r J,
      louEval m eTrial accOld (movedUnknown x i t) = .ok (some r) ∧ r.jac = some J ∧ col j = J j i := by
  obtain ⟨r, r', h1, h2, hc⟩ := C160_differences hx h hi
  set p := stepSize (unknown x i) with hp
  have hp0 : 0 < p := stepSize_pos _
  choose hl ev J hev hJ using hseg
  set φ : ℝ → ℝ := fun s => louResidual m eTrial accOld (louVec x + s • Pi.single i 1) j with hφ
  have hder : ∀ t (h0 : 0 ≤ t) (h1 : t ≤ p), HasDerivAt φ (J t h0 h1 j i) t := fun t h0 h1 =>
    residual_along hx (hl t h0 h1) (hev t h0 h1) (hJ t h0 h1) j
  have hmv := exists_deriv_eq_slope φ hp0
    (fun t ht => (hder t ht.1 ht.2).continuousAt.continuousWithinAt)
    (fun t ht => (hder t ht.1.le ht.2.le).differentiableAt.differentiableWithinAt)
  obtain ⟨t, ht, hs⟩ := hmv
  refine ⟨t, ht.1, ht.2, ev t ht.1.le ht.2.le, J t ht.1.le ht.2.le, hev _ _ _, hJ _ _ _, ?_⟩
  rw [(hder t ht.1.le ht.2.le).deriv] at hs
  have e1 : φ 0 = r.residual j := by
    rw [← louPoint_louVec hx] at h1
    rw [((louEval_ok_iff m eTrial accOld _ r).1 h1).2.2.1]
    simp [hφ]
  have e2 : φ p = r'.residual j := by
    rw [← louPoint_louVec (moved_sym hx i p)] at h2
    rw [((louEval_ok_iff m eTrial accOld _ r').1 h2).2.2.1, moved_vec]
  rw [hs, e1, e2, sub_zero, hc]

/-- **C160.** So a numerical entry differs from the analytical one at the state by at most the variation of the
analytical entry over the step; a larger difference shows an error of the analytical Jacobian (or of a
hardening slope). -/
theorem C160_error {m : LouParams} {eTrial : T2 3} {accOld : ℝ} {x : LouPoint} (hx : IsSym x.e)
    {N : LouIx → Option (LouIx → ℝ)} (h : louNumJacobian m eTrial accOld x = .ok N) {i : LouIx}
    {col : LouIx → ℝ} (hi : N i = some col)
    (hseg : ∀ t, 0 ≤ t → t ≤ stepSize (unknown x i) → LouLaws m (movedUnknown x i t).acc ∧
      ∃ r J, louEval m eTrial accOld (movedUnknown x i t) = .ok (some r) ∧ r.jac = some J)
    {J₀ : Matrix LouIx LouIx ℝ} {j : LouIx} {η : ℝ}
    (hη : ∀ t, 0 < t → t < stepSize (unknown x i) → ∀ r J,
      louEval m eTrial accOld (movedUnknown x i t) = .ok (some r) → r.jac = some J → |J j i - J₀ j i| ≤ η) :
    |col j - J₀ j i| ≤ η := by
  obtain ⟨t, h0, h1, r, J, hr, hJ, hc⟩ := C160_mean_value hx h hi hseg j
  rw [hc]
  exact hη t h0 h1 r J hr hJ

/-- **C160.** The column of the plastic multiplier is exact: no error of the differences, whatever the hardening
laws and the slopes they report. -/
theorem C160_multiplier {m : LouParams} {eTrial : T2 3} {accOld : ℝ} {x : LouPoint} (hx : IsSym x.e)
    {N : LouIx → Option (LouIx → ℝ)} (h : louNumJacobian m eTrial accOld x = .ok N)
    {col : LouIx → ℝ} (hi : N (.inr 1) = some col) {r₀ : LouEval} {J : Matrix LouIx LouIx ℝ}
    (h₀ : louEval m eTrial accOld x = .ok (some r₀)) (hJ : r₀.jac = some J) (j : LouIx) :
    col j = J j (.inr 1) := by
  obtain ⟨r, r', h1, h2, hc⟩ := C160_differences hx h hi
  cases Option.some.inj (Except.ok.inj (h₀.symm.trans h1))
  set p := stepSize (unknown x (.inr 1)) with hp
  have hp0 : p ≠ 0 := (stepSize_pos _).ne'
  obtain ⟨-, -, -, e1⟩ := louEval_some hx h1
  obtain ⟨-, -, -, e2⟩ := louEval_some (moved_sym hx (.inr 1) p) h2
  have hk : louK m (louVec (movedUnknown x (.inr 1) p)) = louK m (louVec x) := rfl
  rw [hk] at e2
  set k := louK m (louVec x) with hkd
  have hJ' : J = louJacobian m x k := by
    rw [e1] at hJ
    simp only at hJ
    split at hJ
    · exact (Option.some.inj hJ).symm
    · cases hJ
  rw [hc, hJ', div_eq_iff hp0, e1, e2]
  rcases j with j | j
  · simp only [LouEval.residual, Sum.elim_inl, louJacobian, Matrix.fromBlocks_apply₁₂, Matrix.of_apply, louR1,
      movedUnknown, kel6]
    simp
    ring
  · fin_cases j
    · simp only [LouEval.residual, Sum.elim_inr, louJacobian, Matrix.fromBlocks_apply₂₂, Matrix.of_apply, louR2,
        movedUnknown, louDr2inc]
      simp
      split_ifs <;> ring
    · simp [LouEval.residual, louJacobian, louR3, movedUnknown]

/-! ## Second derivatives of the invariants -/

theorem kel66_column {D : T4 3} (h : ∀ i j k l, D i j k l = D i j l k) (k j : Fin 6) :
    kel6 (ddot42_1 D (unitTensor k)) j = kel66 D j k := by
  have h1 := h (ci j) (cj j) 1 0
  have h2 := h (ci j) (cj j) 2 0
  have h3 := h (ci j) (cj j) 2 1
  have hq : √(2 : ℝ) ≠ 0 := sqrt2_ne
  have hq2 : √(2 : ℝ) ^ 2 = 2 := sqrt2_sq
  simp only [kel6, kel66, ddot42_1, unitTensor, unkel6, Fin.sum_univ_three]
  fin_cases k <;> simp [pos6, ci, cj, kf] at h1 h2 h3 ⊢
  all_goals
    try rw [h1]
    try rw [h2]
    try rw [h3]
    field_simp
    try rw [hq2]
    try ring

theorem louDerivatives_ne {s : T2 3} (hs : IsSym s) {g : LouGrad} (h : louDerivatives s = .ok g) :
    devJ3 s ≠ 0 := by
  intro hd
  unfold louDerivatives at h
  rw [devproj_left hs] at h
  dsimp only at h
  rw [show Matrix.det (Matrix.of (deviator s)) = 0 from hd] at h
  simp only [raiseIf, decide_true] at h
  cases h

theorem d2j3_minor {t : T2 3} (ht : IsSym t) (i j k l : Fin 3) :
    (louGradOf t).d2j3 i j k l = (louGradOf t).d2j3 i j l k := by
  have h1 : gradJ3 t k l = gradJ3 t l k := deviator_isSym (adjT_isSym (deviator_isSym ht)) k l
  have h2 : ∀ p q, (getIdOperators 3).fodevprojsym p q k l = (getIdOperators 3).fodevprojsym p q l k := by
    intro p q
    simp only [fodevprojsym_eq, fosym_eq, fodiagtrace_eq]
    rw [add_comm]
    simp only [eq_comm (a := k) (b := l)]
  simp only [louGradOf, dyad22_1, ddot44_1, h1, h2]

theorem gradJ3_line (A B : T2 3) (p : ℝ) (i j : Fin 3) :
    gradJ3 (fun i j => A i j + p * B i j) i j =
      gradJ3 A i j + p * deviator (dadjT (deviator A) (deviator B)) i j + p ^ 2 * gradJ3 B i j := by
  unfold gradJ3
  rw [show deviator (fun i j => A i j + p * B i j) = fun i j => deviator A i j + p * deviator B i j from
    deviator_line A B p]
  generalize deviator A = A'
  generalize deviator B = B'
  simp only [deviator, trace, Fin.sum_univ_three, adjT_line]
  split_ifs <;> ring

/-- `gradJ3` in Kelvin notation, from the components of the deviator. -/
def gradVec (a b c f d e : ℝ) : V6 :=
  let x := b * c - d ^ 2
  let y := a * c - e ^ 2
  let z := a * b - f ^ 2
  let q := (x + y + z) / 3
  ![x - q, y - q, z - q, (d * e - f * c) * √2, (f * e - a * d) * √2, (f * d - e * b) * √2]

theorem gradJ3_vec {t : T2 3} (h : IsSym t) : kel6 (gradJ3 t) = gradVec (deviator t 0 0) (deviator t 1 1)
    (deviator t 2 2) (deviator t 0 1) (deviator t 1 2) (deviator t 0 2) := by
  have hs := deviator_isSym h
  have h1 : deviator t 1 0 = deviator t 0 1 := hs 1 0
  have h2 : deviator t 2 0 = deviator t 0 2 := hs 2 0
  have h3 : deviator t 2 1 = deviator t 1 2 := hs 2 1
  unfold gradJ3
  generalize deviator t = D at *
  rw [adjT_eq]
  generalize D 0 0 = a at *
  generalize D 1 1 = b at *
  generalize D 2 2 = c at *
  rw [h1, h2, h3]
  generalize D 0 1 = f
  generalize D 1 2 = d
  generalize D 0 2 = e
  funext k
  fin_cases k <;> simp [kel6, deviator, trace, ci, cj, kf, gradVec, Fin.sum_univ_three] <;> ring

theorem gradJ3_unkel (v : V6) : kel6 (gradJ3 (unkel6 v)) = gradVec (v 0 - (v 0 + v 1 + v 2) / 3)
    (v 1 - (v 0 + v 1 + v 2) / 3) (v 2 - (v 0 + v 1 + v 2) / 3) (v 3 * (1 / √2)) (v 4 * (1 / √2))
    (v 5 * (1 / √2)) := by
  rw [gradJ3_vec (unkel6_isSym v)]
  have p1 : unkel6 v 0 1 = v 3 * (1 / √2) := rfl
  have p2 : unkel6 v 1 2 = v 4 * (1 / √2) := rfl
  have p3 : unkel6 v 0 2 = v 5 * (1 / √2) := rfl
  have q0 : unkel6 v 0 0 = v 0 := (show v 0 * (1 / 1) = v 0 by ring)
  have q1 : unkel6 v 1 1 = v 1 := (show v 1 * (1 / 1) = v 1 by ring)
  have q2 : unkel6 v 2 2 = v 2 := (show v 2 * (1 / 1) = v 2 by ring)
  have ht : trace (unkel6 v) = v 0 + v 1 + v 2 := by rw [trace, Fin.sum_univ_three, q0, q1, q2]
  have h01 : deviator (unkel6 v) 0 1 = v 3 * (1 / √2) := by rw [deviator, if_neg (by decide), p1, sub_zero]
  have h12 : deviator (unkel6 v) 1 2 = v 4 * (1 / √2) := by rw [deviator, if_neg (by decide), p2, sub_zero]
  have h02 : deviator (unkel6 v) 0 2 = v 5 * (1 / √2) := by rw [deviator, if_neg (by decide), p3, sub_zero]
  rw [h01, h12, h02]
  simp only [deviator, if_true, ht, q0, q1, q2]

theorem gradVec_le {a b c f d e : ℝ} {r : ℝ}
    (h0 : |b * c - d ^ 2 - (b * c - d ^ 2 + (a * c - e ^ 2) + (a * b - f ^ 2)) / 3| ≤ r)
    (h1 : |a * c - e ^ 2 - (b * c - d ^ 2 + (a * c - e ^ 2) + (a * b - f ^ 2)) / 3| ≤ r)
    (h2 : |a * b - f ^ 2 - (b * c - d ^ 2 + (a * c - e ^ 2) + (a * b - f ^ 2)) / 3| ≤ r)
    (h3 : |(d * e - f * c) * √2| ≤ r) (h4 : |(f * e - a * d) * √2| ≤ r) (h5 : |(f * d - e * b) * √2| ≤ r)
    (j : Fin 6) : |gradVec a b c f d e j| ≤ r := by
  fin_cases j
  exacts [h0, h1, h2, h3, h4, h5]

theorem gradJ3_unit (k j : Fin 6) : |kel6 (gradJ3 (unitTensor k)) j| ≤ 1 / 3 := by
  have hq2 : (1 / √(2 : ℝ)) ^ 2 = 1 / 2 := by rw [div_pow, one_pow, sqrt2_sq]
  suffices key : ∀ v : V6, v = Pi.single k 1 → |kel6 (gradJ3 (unkel6 v)) j| ≤ 1 / 3 from key _ rfl
  intro v hv
  generalize hs : 1 / √(2 : ℝ) = s at hq2
  rw [gradJ3_unkel, hs]
  have h1 : v k = 1 := hv ▸ Pi.single_eq_same (M := fun _ => ℝ) k 1
  have h0 : ∀ i, i ≠ k → v i = 0 := fun i hi => hv ▸ Pi.single_eq_of_ne (M := fun _ => ℝ) hi 1
  clear hv
  fin_cases k
  · rw [show v 0 = 1 from h1, h0 1 (by decide), h0 2 (by decide), h0 3 (by decide), h0 4 (by decide), h0 5 (by decide)]
    refine gradVec_le ?_ ?_ ?_ ?_ ?_ ?_ j <;> norm_num [abs_le, hq2]
  · rw [h0 0 (by decide), show v 1 = 1 from h1, h0 2 (by decide), h0 3 (by decide), h0 4 (by decide), h0 5 (by decide)]
    refine gradVec_le ?_ ?_ ?_ ?_ ?_ ?_ j <;> norm_num [abs_le, hq2]
  · rw [h0 0 (by decide), h0 1 (by decide), show v 2 = 1 from h1, h0 3 (by decide), h0 4 (by decide), h0 5 (by decide)]
    refine gradVec_le ?_ ?_ ?_ ?_ ?_ ?_ j <;> norm_num [abs_le, hq2]
  · rw [h0 0 (by decide), h0 1 (by decide), h0 2 (by decide), show v 3 = 1 from h1, h0 4 (by decide), h0 5 (by decide)]
    refine gradVec_le ?_ ?_ ?_ ?_ ?_ ?_ j <;> norm_num [abs_le, hq2]
  · rw [h0 0 (by decide), h0 1 (by decide), h0 2 (by decide), h0 3 (by decide), show v 4 = 1 from h1, h0 5 (by decide)]
    refine gradVec_le ?_ ?_ ?_ ?_ ?_ ?_ j <;> norm_num [abs_le, hq2]
  · rw [h0 0 (by decide), h0 1 (by decide), h0 2 (by decide), h0 3 (by decide), h0 4 (by decide), show v 5 = 1 from h1]
    refine gradVec_le ?_ ?_ ?_ ?_ ?_ ?_ j <;> norm_num [abs_le, hq2]

/-- **C160.** The numerical second derivative of `J2` is exact, and that of `J3` is off by the step times a
constant of at most one third in each entry. -/
theorem C160_second_derivatives {s : T2 3} (hs : IsSym s) {k : Fin 6} {a b : V6}
    (h : louNumSecond s k = .ok (a, b)) :
    ∃ g, louDerivatives s = .ok g ∧ ∀ j, a j = kel66 g.d2j2 j k ∧
      |b j - kel66 g.d2j3 j k| ≤ stepSize (kel6 s k) / 3 := by
  obtain ⟨base, hb, h⟩ := bind_ok h
  obtain ⟨g, hg, h⟩ := bind_ok h
  have h' := Prod.mk.inj (Except.ok.inj h)
  have hd := louDerivatives_ne hs hb
  obtain ⟨e1, e2⟩ := louDerivatives_ok hs hd
  cases Except.ok.inj (hb.symm.trans e1)
  set p := stepSize (kel6 s k) with hp
  have hp0 : 0 < p := stepSize_pos _
  have hu : IsSym (unitTensor k) := unkel6_isSym _
  have hupd : unkel6 (Function.update (kel6 s) k (kel6 s k + louPert (kel6 s k))) =
      fun i j => s i j + p * unitTensor k i j := by
    have := congrArg (fun q => q.1.e) (perturbed_moved (x := ⟨s, 0, 0⟩) hs (.inl k))
    exact this
  have hs' : IsSym fun i j => s i j + p * unitTensor k i j := fun i j => by
    simp only [hs i j, hu i j]
  rw [hupd] at hg
  obtain ⟨e3, -⟩ := louDerivatives_ok hs' (louDerivatives_ne hs' hg)
  cases Except.ok.inj (hg.symm.trans e3)
  refine ⟨_, hb, fun j => ⟨?_, ?_⟩⟩
  · rw [← h'.1, louPert_eq, ← hp]
    have e4 : (louGradOf s).d2j2 = (getIdOperators 3).fodevprojsym := rfl
    rw [e4, ← kel66_column (fun p q k l => ?_), devproj_left hu, div_eq_iff hp0.ne']
    · show kel6 (deviator fun i j => s i j + p * unitTensor k i j) j - kel6 (deviator s) j = _
      rw [show deviator (fun i j => s i j + p * unitTensor k i j) = fun i j => deviator s i j +
        p * deviator (unitTensor k) i j from deviator_line s (unitTensor k) p]
      simp only [kel6]
      ring
    · simp only [fodevprojsym_eq, fosym_eq, fodiagtrace_eq]
      rw [add_comm]
      simp only [eq_comm (a := k) (b := l)]
  · rw [← h'.2, louPert_eq, ← hp, ← kel66_column (d2j3_minor hs), e2 _ hu]
    have : (kel6 (louGradOf fun i j => s i j + p * unitTensor k i j).dj3 j - kel6 (louGradOf s).dj3 j) / p -
        kel6 (deviator (dadjT (deviator s) (deviator (unitTensor k)))) j = p * kel6 (gradJ3 (unitTensor k)) j := by
      rw [sub_eq_iff_eq_add, div_eq_iff hp0.ne']
      show kel6 (gradJ3 fun i j => s i j + p * unitTensor k i j) j - kel6 (gradJ3 s) j = _
      simp only [kel6, gradJ3_line]
      ring
    rw [this, abs_mul, abs_of_pos hp0]
    have := mul_le_mul_of_nonneg_left (gradJ3_unit k j) hp0.le
    linarith

/-! ## Concrete case: uniaxial strain, von Mises parameters, associative hardening -/

theorem louDemo_eval {x : LouPoint} (hx : IsSym x.e) (h : devJ3 x.e ≠ 0) (eTrial : T2 3) (accOld : ℝ) :
    ∃ r J, louEval louDemo eTrial accOld x = .ok (some r) ∧ r.jac = some J := by
  have hS : louS louDemo (louVec x) = x.e := by rw [louS_louVec louDemo hx, louDemo_hooke]
  have h2 : 0 < devJ2 x.e := Real.sqrt_pos.1 (sqrt_devJ2_pos hx h)
  have h4 : 0 < (louK louDemo (louVec x)).w4 := by
    have : (louK louDemo (louVec x)).w4 = devJ2 x.e ^ 3 := by
      simp only [LouCtx.w4, louK, hS]
      simp [louDemo]
    rw [this]
    positivity
  have h5 : 0 < (louK louDemo (louVec x)).w5 := by
    have : (0 : ℝ) < (louK louDemo (louVec x)).w4 ^ (1 / 2 : ℝ) := Real.rpow_pos_of_pos h4 _
    have e : (louK louDemo (louVec x)).d = 0 := rfl
    rw [LouCtx.w5, e]
    linarith
  have := (louEval_ok_iff louDemo eTrial accOld (louVec x) _).mpr
    ⟨by rw [hS]; exact h, ⟨h4, h5, by simp [louDemo]⟩, rfl, rfl⟩
  rw [louPoint_louVec hx] at this
  exact ⟨_, _, this, if_pos (Or.inl rfl)⟩

theorem devJ3_unkel (v : V6) (m : ℝ) (hm : m = (v 0 + v 1 + v 2) / 3) :
    devJ3 (unkel6 v) = (v 0 - m) * (v 1 - m) * (v 2 - m) + √2 / 2 * v 3 * v 4 * v 5 -
      (v 0 - m) * v 4 ^ 2 / 2 - (v 1 - m) * v 5 ^ 2 / 2 - (v 2 - m) * v 3 ^ 2 / 2 := by
  have hs := deviator_isSym (unkel6_isSym v)
  have p1 : unkel6 v 0 1 = v 3 * (1 / √2) := rfl
  have p2 : unkel6 v 1 2 = v 4 * (1 / √2) := rfl
  have p3 : unkel6 v 0 2 = v 5 * (1 / √2) := rfl
  have q0 : unkel6 v 0 0 = v 0 := (show v 0 * (1 / 1) = v 0 by ring)
  have q1 : unkel6 v 1 1 = v 1 := (show v 1 * (1 / 1) = v 1 by ring)
  have q2 : unkel6 v 2 2 = v 2 := (show v 2 * (1 / 1) = v 2 by ring)
  have ht : trace (unkel6 v) / 3 = m := by rw [trace, Fin.sum_univ_three, q0, q1, q2, hm]
  have h01 : deviator (unkel6 v) 0 1 = v 3 * (1 / √2) := by rw [deviator, if_neg (by decide), p1, sub_zero]
  have h12 : deviator (unkel6 v) 1 2 = v 4 * (1 / √2) := by rw [deviator, if_neg (by decide), p2, sub_zero]
  have h02 : deviator (unkel6 v) 0 2 = v 5 * (1 / √2) := by rw [deviator, if_neg (by decide), p3, sub_zero]
  have h00 : deviator (unkel6 v) 0 0 = v 0 - m := by rw [deviator, if_pos rfl, q0, ht]
  have h11 : deviator (unkel6 v) 1 1 = v 1 - m := by rw [deviator, if_pos rfl, q1, ht]
  have h22 : deviator (unkel6 v) 2 2 = v 2 - m := by rw [deviator, if_pos rfl, q2, ht]
  have hr : (1 / √(2 : ℝ)) ^ 2 = 1 / 2 := by rw [div_pow, one_pow, sqrt2_sq]
  have hr3 : (1 / √(2 : ℝ)) ^ 3 = √2 / 4 := by
    rw [pow_succ, hr]
    have := sqrt2_sq
    field_simp
    linarith
  rw [devJ3, Matrix.det_fin_three]
  simp only [Matrix.of_apply]
  rw [hs 1 0, hs 2 0, hs 2 1, h01, h12, h02, h00, h11, h22]
  generalize 1 / √(2 : ℝ) = r at hr hr3
  linear_combination (2 * v 3 * v 4 * v 5) * hr3 - ((v 0 - m) * v 4 ^ 2 + (v 1 - m) * v 5 ^ 2 +
    (v 2 - m) * v 3 ^ 2) * hr

theorem demo_moved (k : Fin 6) {t : ℝ} (h0 : 0 ≤ t) (h1 : t ≤ 1 / 2) :
    devJ3 (movedUnknown ⟨uniaxial 2, 0, 0⟩ (.inl k) t).e ≠ 0 := by
  suffices key : ∀ v : V6, v = kel6 (movedUnknown ⟨uniaxial 2, 0, 0⟩ (.inl k) t).e → devJ3 (unkel6 v) ≠ 0 by
    have := key _ rfl
    rwa [unkel6_kel6 (moved_sym (uniaxial_isSym 2) _ _)] at this
  intro v hv
  have hval : ∀ i, v i = kel6 (uniaxial 2) i + t * (Pi.single k 1 : V6) i := by
    intro i
    have := congrFun (moved_vec ⟨uniaxial 2, 0, 0⟩ (.inl k) t) (.inl i)
    rw [hv]
    refine this.trans ?_
    simp only [louVec, Sum.elim_inl, Pi.add_apply, Pi.smul_apply, smul_eq_mul]
    congr 2
    simp [Pi.single_apply]
  have u0 : kel6 (uniaxial 2) 0 = 2 := (show (2 : ℝ) * 1 = 2 by norm_num)
  have u : ∀ i : Fin 6, i ≠ 0 → kel6 (uniaxial 2) i = 0 := by
    intro i hi
    have : ¬(ci i = 0 ∧ cj i = 0) := by revert i; decide
    rw [kel6, uniaxial, if_neg this, zero_mul]
  have e1 : (Pi.single k 1 : V6) k = 1 := Pi.single_eq_same (M := fun _ => ℝ) k 1
  have e0 : ∀ i, i ≠ k → (Pi.single k 1 : V6) i = 0 := fun i hi => Pi.single_eq_of_ne (M := fun _ => ℝ) hi 1
  rw [devJ3_unkel v _ rfl]
  simp only [hval, u0, u 1 (by decide), u 2 (by decide), u 3 (by decide), u 4 (by decide), u 5 (by decide)]
  generalize (Pi.single k 1 : V6) = w at e1 e0
  apply ne_of_gt
  fin_cases k
  · rw [show w 0 = 1 from e1, e0 1 (by decide), e0 2 (by decide), e0 3 (by decide), e0 4 (by decide), e0 5 (by decide)]
    nlinarith [mul_nonneg h0 h0, mul_nonneg h0 (sub_nonneg.2 h1), mul_nonneg (mul_nonneg h0 h0) h0]
  · rw [e0 0 (by decide), show w 1 = 1 from e1, e0 2 (by decide), e0 3 (by decide), e0 4 (by decide), e0 5 (by decide)]
    nlinarith [mul_nonneg h0 h0, mul_nonneg h0 (sub_nonneg.2 h1), mul_nonneg (mul_nonneg h0 h0) h0]
  · rw [e0 0 (by decide), e0 1 (by decide), show w 2 = 1 from e1, e0 3 (by decide), e0 4 (by decide), e0 5 (by decide)]
    nlinarith [mul_nonneg h0 h0, mul_nonneg h0 (sub_nonneg.2 h1), mul_nonneg (mul_nonneg h0 h0) h0]
  · rw [e0 0 (by decide), e0 1 (by decide), e0 2 (by decide), show w 3 = 1 from e1, e0 4 (by decide), e0 5 (by decide)]
    nlinarith [mul_nonneg h0 h0, mul_nonneg h0 (sub_nonneg.2 h1), mul_nonneg (mul_nonneg h0 h0) h0]
  · rw [e0 0 (by decide), e0 1 (by decide), e0 2 (by decide), e0 3 (by decide), show w 4 = 1 from e1, e0 5 (by decide)]
    nlinarith [mul_nonneg h0 h0, mul_nonneg h0 (sub_nonneg.2 h1), mul_nonneg (mul_nonneg h0 h0) h0]
  · rw [e0 0 (by decide), e0 1 (by decide), e0 2 (by decide), e0 3 (by decide), e0 4 (by decide), show w 5 = 1 from e1]
    nlinarith [mul_nonneg h0 h0, mul_nonneg h0 (sub_nonneg.2 h1), mul_nonneg (mul_nonneg h0 h0) h0]

/-- The hypotheses are met: the numerical Jacobian is returned at a state of uniaxial strain, and for each of
its columns the residual and the Jacobian are finite over the whole step. -/
example : ∃ N, louNumJacobian louDemo (uniaxial 2) 0 ⟨uniaxial 2, 0, 0⟩ = .ok N ∧ ∀ i, (N i).isSome ∧
    ∀ t, 0 ≤ t → t ≤ stepSize (unknown ⟨uniaxial 2, 0, 0⟩ i) →
      LouLaws louDemo (movedUnknown ⟨uniaxial 2, 0, 0⟩ i t).acc ∧
      ∃ r J, louEval louDemo (uniaxial 2) 0 (movedUnknown ⟨uniaxial 2, 0, 0⟩ i t) = .ok (some r) ∧ r.jac = some J := by
  have hsym := uniaxial_isSym 2
  have hdet : devJ3 (uniaxial 2) ≠ 0 := by rw [(uniaxial_inv 2).2.2]; norm_num
  have hstep : ∀ i, stepSize (unknown ⟨uniaxial 2, 0, 0⟩ i) ≤ 1 / 2 := by
    intro i
    have : |unknown ⟨uniaxial 2, 0, 0⟩ i| ≤ 2 := by
      rcases i with i | i
      · show |kel6 (uniaxial 2) i| ≤ 2
        by_cases hi : i = 0
        · subst hi
          rw [show kel6 (uniaxial 2) 0 = 2 from (show (2 : ℝ) * 1 = 2 by norm_num)]
          norm_num
        · have : ¬(ci i = 0 ∧ cj i = 0) := by revert i; decide
          rw [kel6, uniaxial, if_neg this, zero_mul]
          norm_num
      · fin_cases i <;> simp [unknown]
    unfold stepSize
    refine max_le ?_ (by norm_num)
    rw [div_le_iff₀ (by norm_num)]
    linarith
  have hall : ∀ i t, 0 ≤ t → t ≤ stepSize (unknown ⟨uniaxial 2, 0, 0⟩ i) →
      ∃ r J, louEval louDemo (uniaxial 2) 0 (movedUnknown ⟨uniaxial 2, 0, 0⟩ i t) = .ok (some r) ∧ r.jac = some J := by
    intro i t h0 h1
    refine louDemo_eval (moved_sym hsym i t) ?_ _ _
    rcases i with i | i
    · exact demo_moved i h0 (h1.trans (hstep _))
    · fin_cases i <;> exact hdet
  obtain ⟨N, hN, hs⟩ := C160_returns (m := louDemo) (eTrial := uniaxial 2) (accOld := 0) (x := ⟨uniaxial 2, 0, 0⟩)
    hsym (by
      obtain ⟨r, J, h, -⟩ := louDemo_eval (x := ⟨uniaxial 2, 0, 0⟩) hsym hdet (uniaxial 2) 0
      exact ⟨r, h⟩) (fun i => by
      obtain ⟨r, J, h, -⟩ := hall i _ (stepSize_pos _).le le_rfl
      exact ⟨r, h⟩)
  exact ⟨N, hN, fun i => ⟨hs i, fun t h0 h1 => ⟨louDemo_laws _, hall i t h0 h1⟩⟩⟩

/-- Likewise the numerical second derivatives of the invariants. -/
example (k : Fin 6) : ∃ a b, louNumSecond (uniaxial 2) k = .ok (a, b) := by
  have hsym := uniaxial_isSym 2
  have hdet : devJ3 (uniaxial 2) ≠ 0 := by rw [(uniaxial_inv 2).2.2]; norm_num
  have hstep : stepSize (kel6 (uniaxial 2) k) ≤ 1 / 2 := by
    have : |kel6 (uniaxial 2) k| ≤ 2 := by
      by_cases hk : k = 0
      · subst hk
        rw [show kel6 (uniaxial 2) 0 = 2 from (show (2 : ℝ) * 1 = 2 by norm_num)]
        norm_num
      · have : ¬(ci k = 0 ∧ cj k = 0) := by revert k; decide
        rw [kel6, uniaxial, if_neg this, zero_mul]
        norm_num
    unfold stepSize
    refine max_le ?_ (by norm_num)
    rw [div_le_iff₀ (by norm_num)]
    linarith
  have hupd : unkel6 (Function.update (kel6 (uniaxial 2)) k (kel6 (uniaxial 2) k +
      louPert (kel6 (uniaxial 2) k))) = (movedUnknown ⟨uniaxial 2, 0, 0⟩ (.inl k) (stepSize (kel6 (uniaxial 2) k))).e :=
    congrArg (fun q => q.1.e) (perturbed_moved (x := ⟨uniaxial 2, 0, 0⟩) hsym (.inl k))
  unfold louNumSecond
  dsimp only
  rw [hupd, (louDerivatives_ok hsym hdet).1, (louDerivatives_ok
    (moved_sym (x := ⟨uniaxial 2, 0, 0⟩) hsym (.inl k) _) (demo_moved k (stepSize_pos _).le hstep)).1]
  exact ⟨_, _, rfl⟩

end Hooke
