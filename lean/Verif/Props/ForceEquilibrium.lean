import Mathlib.Tactic.Ring
import Mathlib.Tactic.FieldSimp
import Mathlib.Tactic.Linarith
import Mathlib.Tactic.Positivity
import Mathlib.Algebra.Order.BigOperators.Group.Finset
import Verif.Model.ForceEquilibrium
import Verif.Spec.ForceEquilibrium
import Verif.Lemmas.Py
import Verif.Lemmas.Scalers
import Verif.Lemmas.StrainPath

/-! # C59, C60: force equilibrium loss -/

namespace Hooke

open Spec

variable {N n T : ℕ}

/-! ## Pointwise loss -/

theorem foldl_add_sum {α : Type*} (f : α → ℝ) (l : List α) (a : ℝ) :
    l.foldl (fun acc x => acc + f x) a = a + (l.map f).sum := by
  induction l generalizing a with
  | nil => simp
  | cons x l ih => simp [ih]; ring

theorem finRange_sum (f : Fin N → ℝ) : ((List.finRange N).map f).sum = ∑ i, f i := by
  rw [← List.ofFn_eq_map, List.sum_ofFn]

theorem loopLoss_eq (cfg : LossConfig n) (Fi Fe R : NodeMat N n ℝ) (bc : NodeMat N n ℤ) :
    loopLoss cfg Fi Fe R bc =
      pointwiseLoss (normForces cfg Fi) (normForces cfg Fe) (normForces cfg R) bc := by
  unfold loopLoss pointwiseLoss
  have h : ∀ (acc : ℝ) (i : Fin N) (j : Fin n),
      (if bc i j = 1 then acc + (normForces cfg Fi i j - normForces cfg Fe i j - normForces cfg R i j) ^ 2
        else acc + (normForces cfg Fi i j - normForces cfg Fe i j) ^ 2) =
      acc + (normForces cfg Fi i j - normForces cfg Fe i j -
        if bc i j = 1 then normForces cfg R i j else 0) ^ 2 := by
    intro acc i j; split <;> simp
  simp only [h, foldl_add_sum, finRange_sum, zero_add]

/-- **C59.** The loop and the vectorised pointwise losses are the same number, with or without
normalisation. -/
theorem C59_loop (cfg : LossConfig n) (hc : cfg.lossType = .pointwise) (Fi Fe R : NodeMat N n ℝ)
    (bc : NodeMat N n ℤ) : vLoss cfg Fi Fe R bc = .ok (loopLoss cfg Fi Fe R bc) := by
  rw [loopLoss_eq]; simp [vLoss, hc]

theorem pointwise_nonneg (Fi Fe R : NodeMat N n ℝ) (bc : NodeMat N n ℤ) : 0 ≤ pointwiseLoss Fi Fe R bc :=
  Finset.sum_nonneg fun _ _ => Finset.sum_nonneg fun _ _ => sq_nonneg _

theorem pointwise_zero (Fi Fe R : NodeMat N n ℝ) (bc : NodeMat N n ℤ) :
    pointwiseLoss Fi Fe R bc = 0 ↔ ∀ i j, Fi i j - Fe i j - (if bc i j = 1 then R i j else 0) = 0 := by
  unfold pointwiseLoss
  rw [Finset.sum_eq_zero_iff_of_nonneg fun _ _ => Finset.sum_nonneg fun _ _ => sq_nonneg _]
  constructor
  · intro h i j
    have := (Finset.sum_eq_zero_iff_of_nonneg fun _ _ => sq_nonneg _).1 (h i (Finset.mem_univ i)) j
      (Finset.mem_univ j)
    exact pow_eq_zero_iff (two_ne_zero) |>.1 this
  · intro h i _
    exact Finset.sum_eq_zero fun j _ => by rw [h i j]; simp

theorem residual_zero_iff (Fi Fe R : NodeMat N n ℝ) (bc : NodeMat N n ℤ) :
    (∀ i j, Fi i j - Fe i j - (if bc i j = 1 then R i j else 0) = 0) ↔ Equilibrium Fi Fe R bc := by
  constructor
  · intro h i j
    have := h i j
    constructor <;> intro hb
    · rw [if_pos hb] at this; linarith
    · rw [if_neg hb] at this; linarith
  · intro h i j
    by_cases hb : bc i j = 1
    · rw [if_pos hb, (h i j).1 hb]; ring
    · rw [if_neg hb, (h i j).2 hb]; ring

/-- **C59.** Without normalisation the pointwise loss is not negative and vanishes exactly at
equilibrium. -/
theorem C59_zero (cfg : LossConfig n) (hc : cfg.lossType = .pointwise) (hs : cfg.scaler = none)
    (Fi Fe R : NodeMat N n ℝ) (bc : NodeMat N n ℤ) :
    ∃ L, vLoss cfg Fi Fe R bc = .ok L ∧ 0 ≤ L ∧ (L = 0 ↔ Equilibrium Fi Fe R bc) := by
  refine ⟨pointwiseLoss Fi Fe R bc, ?_, pointwise_nonneg _ _ _ _, ?_⟩
  · simp [vLoss, hc, normForces, hs]
  · rw [pointwise_zero, residual_zero_iff]

theorem forceScale_diff {mn mx : ℝ} (h : mn ≠ mx) (a b : ℝ) :
    forceScale mn mx a - forceScale mn mx b = 2 * (a - b) / (mx - mn) := by
  have : mx - mn ≠ 0 := sub_ne_zero.2 h.symm
  unfold forceScale; field_simp; ring

theorem forceScale_diff3 {mn mx : ℝ} (h : mn ≠ mx) (a b c : ℝ) :
    forceScale mn mx a - forceScale mn mx b - forceScale mn mx c =
      (2 * (a - b - c) + (mn + mx)) / (mx - mn) := by
  have : mx - mn ≠ 0 := sub_ne_zero.2 h.symm
  unfold forceScale; field_simp; ring

/-- **C59.** With min-max normalisation the pointwise loss vanishes exactly when free degrees of
freedom are balanced and, at the constrained ones, the residual is minus the midpoint of the bounds of
the scaler. -/
theorem C59_normalised (cfg : LossConfig n) (hc : cfg.lossType = .pointwise) (mn mx : Fin n → ℝ)
    (hs : cfg.scaler = some (mn, mx)) (hne : ∀ j, mn j ≠ mx j)
    (Fi Fe R : NodeMat N n ℝ) (bc : NodeMat N n ℤ) :
    ∃ L, vLoss cfg Fi Fe R bc = .ok L ∧ 0 ≤ L ∧
      (L = 0 ↔ ∀ i j, (bc i j = 1 → Fi i j - Fe i j - R i j = -((mn j + mx j) / 2)) ∧
        (bc i j ≠ 1 → Fi i j = Fe i j)) := by
  refine ⟨pointwiseLoss (normForces cfg Fi) (normForces cfg Fe) (normForces cfg R) bc, ?_,
    pointwise_nonneg _ _ _ _, ?_⟩
  · simp [vLoss, hc]
  · rw [pointwise_zero]
    simp only [normForces, hs]
    refine forall_congr' fun i => forall_congr' fun j => ?_
    have hd : mx j - mn j ≠ 0 := sub_ne_zero.2 (hne j).symm
    by_cases hb : bc i j = 1
    · simp only [hb, if_true, forceScale_diff3 (hne j), div_eq_zero_iff, hd, or_false, ne_eq,
        not_true_eq_false, false_imp_iff, and_true, true_imp_iff]
      constructor <;> intro h <;> linarith
    · simp only [hb, if_false, sub_zero, forceScale_diff (hne j), div_eq_zero_iff, hd, or_false, ne_eq,
        not_false_eq_true, false_imp_iff, true_and, true_imp_iff]
      constructor <;> intro h <;> linarith

/-- **C59, violated.** With normalisation bounds that are not opposite to each other, an equilibrated
state with a constrained degree of freedom has a positive loss. -/
theorem C59_normalised_violated (cfg : LossConfig n) (hc : cfg.lossType = .pointwise) (mn mx : Fin n → ℝ)
    (hs : cfg.scaler = some (mn, mx)) (hne : ∀ j, mn j ≠ mx j)
    (Fi Fe R : NodeMat N n ℝ) (bc : NodeMat N n ℤ) (heq : Equilibrium Fi Fe R bc)
    (i : Fin N) (j : Fin n) (hb : bc i j = 1) (hm : mn j + mx j ≠ 0) :
    ∃ L, vLoss cfg Fi Fe R bc = .ok L ∧ 0 < L := by
  obtain ⟨L, h1, h2, h3⟩ := C59_normalised cfg hc mn mx hs hne Fi Fe R bc
  refine ⟨L, h1, lt_of_le_of_ne h2 fun h0 => hm ?_⟩
  have := (h3.1 h0.symm i j).1 hb
  rw [(heq i j).1 hb] at this
  linarith

example : ∃ (cfg : LossConfig 1) (mn mx : Fin 1 → ℝ) (Fi Fe R : NodeMat 1 1 ℝ) (bc : NodeMat 1 1 ℤ),
    cfg.lossType = .pointwise ∧ cfg.scaler = some (mn, mx) ∧ (∀ j, mn j ≠ mx j) ∧
    Equilibrium Fi Fe R bc ∧ bc 0 0 = 1 ∧ mn 0 + mx 0 ≠ 0 :=
  ⟨⟨.pointwise, some (fun _ => 0, fun _ => 1)⟩, fun _ => 0, fun _ => 1, fun _ _ => 1, fun _ _ => 0,
    fun _ _ => 1, fun _ _ => 1, rfl, rfl, by simp, by intro i j; simp, rfl, by simp⟩

/-! ## Loss over the history -/

theorem head_ofFn {α : Type} (f : Fin (T + 1) → α) : (List.ofFn f).head? = some (f 0) := by
  rw [List.ofFn_succ]; rfl

theorem zip_weights (w : Fin T → ℝ) (f : Fin T → ℝ) :
    (List.zipWith (· * ·) (List.ofFn w) ((List.finRange T).map f)).sum = ∑ t, w t * f t := by
  rw [List.ofFn_eq_map, List.zipWith_map, List.zipWith_self, finRange_sum]

theorem vHist_pointwise (cfg : LossConfig n) (hc : cfg.lossType = .pointwise) (h : ForceHist N n (T + 1)) :
    vHistLoss cfg h = .ok (∑ t, h.weights t *
      loopLoss cfg (h.internal t) (h.external t) (h.reaction t) (h.bc 0)) := by
  have : (List.finRange (T + 1)).mapM
      (fun t => vLoss cfg (h.internal t) (h.external t) (h.reaction t) (h.bc 0)) =
      .ok ((List.finRange (T + 1)).map fun t =>
        loopLoss cfg (h.internal t) (h.external t) (h.reaction t) (h.bc 0)) :=
    mapM_of_forall fun t _ => C59_loop cfg hc _ _ _ _
  simp only [vHistLoss, head_ofFn, orRaise, bind, Except.bind, this, pure, Except.pure, zip_weights]

/-- **C59.** With positive weights and no normalisation, the loss over the history is not negative and
vanishes exactly when the forces are in equilibrium at all times, under the boundary conditions of the
first time. -/
theorem C59_hist (cfg : LossConfig n) (hc : cfg.lossType = .pointwise) (hs : cfg.scaler = none)
    (h : ForceHist N n (T + 1)) (hw : ∀ t, 0 < h.weights t) :
    ∃ L, vHistLoss cfg h = .ok L ∧ 0 ≤ L ∧
      (L = 0 ↔ ∀ t, Equilibrium (h.internal t) (h.external t) (h.reaction t) (h.bc 0)) := by
  refine ⟨_, vHist_pointwise cfg hc h, ?_, ?_⟩
  · refine Finset.sum_nonneg fun t _ => mul_nonneg (hw t).le ?_
    rw [loopLoss_eq]; exact pointwise_nonneg _ _ _ _
  · rw [Finset.sum_eq_zero_iff_of_nonneg fun t _ => mul_nonneg (hw t).le (by
      rw [loopLoss_eq]; exact pointwise_nonneg _ _ _ _)]
    simp only [Finset.mem_univ, true_imp_iff, mul_eq_zero, (hw _).ne', false_or]
    refine forall_congr' fun t => ?_
    rw [loopLoss_eq, pointwise_zero, ← residual_zero_iff]
    simp [normForces, hs]

/-- **C59.** For the pointwise type the sequential modes and the vectorised mode compute the same loss,
when the flags of the mesh are the boundary conditions of the first time. -/
theorem C59_modes (cfg : LossConfig n) (hc : cfg.lossType = .pointwise) (h : ForceHist N n (T + 1)) :
    vHistLoss cfg h = .ok (seqHistLoss cfg h (h.bc 0)) := by
  rw [vHist_pointwise cfg hc, seqHistLoss, foldl_add_sum, finRange_sum, zero_add]

/-- **C59, violated.** A degree of freedom that becomes constrained after the first time: forces in
equilibrium under the boundary conditions of each time have a positive loss. -/
theorem C59_time_bc_violated : ∃ (cfg : LossConfig 1) (h : ForceHist 1 1 2), cfg.lossType = .pointwise ∧
    cfg.scaler = none ∧ (∀ t, 0 < h.weights t) ∧
    (∀ t, Equilibrium (h.internal t) (h.external t) (h.reaction t) (h.bc t)) ∧
    ∃ L, vHistLoss cfg h = .ok L ∧ 0 < L := by
  refine ⟨⟨.pointwise, none⟩, ⟨fun t _ _ => if t = 0 then 0 else 1, fun _ _ _ => 0,
    fun t _ _ => if t = 0 then 0 else 1, fun t _ _ => if t = 0 then 0 else 1, fun _ => 1⟩, rfl, rfl,
    fun _ => one_pos, ?_, ?_⟩
  · intro t i j
    by_cases ht : t = 0 <;> simp [ht]
  · refine ⟨_, vHist_pointwise _ rfl _, ?_⟩
    simp [loopLoss_eq, pointwiseLoss, normForces, Fin.sum_univ_two]

/-! ## Stored components -/

theorem components_pointwise (cfg : LossConfig n) (hc : cfg.lossType = .pointwise) (factor : Option ℝ)
    (h : ForceHist N n T) (hT : cfg.scaler = none ∨ T = n) :
    componentsHist cfg factor h = .ok ((List.finRange T).map fun t => [scaledLoss factor (h.weights t *
      pointwiseLoss (h.internal t) (h.external t) (h.reaction t) (h.bc t))]) := by
  have : (List.finRange T).mapM (fun t => do
      let c ← lossComponents cfg.lossType (h.internal t) (h.external t) (h.reaction t) (h.bc t)
      pure (c.map fun x => scaledLoss factor (h.weights t * x))) =
      (.ok ((List.finRange T).map fun t => [scaledLoss factor (h.weights t *
        pointwiseLoss (h.internal t) (h.external t) (h.reaction t) (h.bc t))]) : Py _) := by
    apply mapM_of_forall
    intro t _
    simp [lossComponents, hc, pure, Except.pure, bind, Except.bind]
  have hr : ¬ (cfg.scaler.isSome = true ∧ T ≠ n) := by
    rintro ⟨h1, h2⟩
    rcases hT with h | h
    · simp [h] at h1
    · exact h2 h
  simp only [componentsHist, raiseIf, if_neg hr, bind, Except.bind]
  exact this

theorem scaledLoss_eq (factor : Option ℝ) (x : ℝ) : scaledLoss factor x = factor.getD 1 * x := by
  cases factor <;> simp [scaledLoss]

/-- **C59.** Without normalisation and with constant boundary conditions the stored history of the loss
sums up to the loss, multiplied by the scaling factor if there is one. -/
theorem C59_components (cfg : LossConfig n) (hc : cfg.lossType = .pointwise) (hs : cfg.scaler = none)
    (factor : Option ℝ) (h : ForceHist N n (T + 1)) (hb : ∀ t, h.bc t = h.bc 0) :
    ∃ rows L, componentsHist cfg factor h = .ok rows ∧ rows.length = T + 1 ∧ vHistLoss cfg h = .ok L ∧
      rows.flatten.sum = factor.getD 1 * L := by
  refine ⟨_, _, components_pointwise cfg hc factor h (.inl hs), by simp, vHist_pointwise cfg hc h, ?_⟩
  have : ((List.finRange (T + 1)).map fun t => [scaledLoss factor (h.weights t *
      pointwiseLoss (h.internal t) (h.external t) (h.reaction t) (h.bc t))]).flatten =
      (List.finRange (T + 1)).map fun t => factor.getD 1 * (h.weights t *
      pointwiseLoss (h.internal t) (h.external t) (h.reaction t) (h.bc t)) := by
    generalize List.finRange (T + 1) = l
    induction l with
    | nil => rfl
    | cons t l ih => rw [List.map_cons, List.flatten_cons, ih, scaledLoss_eq]; rfl
  rw [this, finRange_sum, ← Finset.mul_sum]
  congr 1
  refine Finset.sum_congr rfl fun t _ => ?_
  rw [hb t, loopLoss_eq]
  simp [normForces, hs]

/-- **C59, violated.** With normalisation the loss components cannot be stored, unless there are as many
times as dimensions; then the stored history ignores the normalisation. -/
theorem C59_components_violated (cfg : LossConfig n) (hc : cfg.lossType = .pointwise)
    (hs : cfg.scaler.isSome = true) (factor : Option ℝ) (h : ForceHist N n T) :
    (T ≠ n → componentsHist cfg factor h = .error .runtimeError) ∧
    (T = n → componentsHist cfg factor h = componentsHist { cfg with scaler := none } factor h) := by
  constructor
  · intro hT
    simp [componentsHist, raiseIf, hs, hT, bind, Except.bind]
  · intro hT
    rw [components_pointwise cfg hc factor h (.inr hT),
      components_pointwise { cfg with scaler := none } hc factor h (.inl rfl)]

example : ∃ (cfg : LossConfig 1) (h : ForceHist 1 1 1) (rows : List (List ℝ)) (L : ℝ),
    cfg.lossType = .pointwise ∧ cfg.scaler.isSome = true ∧ componentsHist cfg none h = .ok rows ∧
    vHistLoss cfg h = .ok L ∧ rows.flatten.sum = 4 ∧ L = 16 := by
  refine ⟨⟨.pointwise, some (fun _ => 0, fun _ => 1)⟩, ⟨fun _ _ _ => 2, fun _ _ _ => 0, fun _ _ _ => 0,
    fun _ _ _ => 0, fun _ => 1⟩, _, _, rfl, rfl, components_pointwise _ rfl none _ (.inr rfl),
    vHist_pointwise _ rfl _, ?_, ?_⟩
  · simp [scaledLoss, pointwiseLoss]; norm_num
  · simp [loopLoss_eq, pointwiseLoss, normForces, forceScale]; norm_num

end Hooke
