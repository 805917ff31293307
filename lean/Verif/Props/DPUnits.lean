import Verif.Spec.DPUnits
import Verif.Lemmas.LouUnits
import Verif.Props.Units

/-!
# C146: the Drucker-Prager model in another unit of stress
-/

noncomputable section

namespace Hooke

open Spec

variable {k : ℝ}

theorem unitDP_K (m : DPParams) : (unitDP k m).K = k * m.K := by
  simp only [DPParams.K, unitDP, mul_div_assoc]

theorem unitDP_G (m : DPParams) : (unitDP k m).G = k * m.G := by
  simp only [DPParams.G, unitDP, mul_div_assoc]

/-- The function of the iterations in another unit. -/
def UnitTotalEval (k : ℝ) (f f' : ℝ → NewtonEval) : Prop :=
  ∀ x, f' x = ⟨k * (f x).residual, k * (f x).scale, k * (f x).jacobian⟩ ∧
    suSmall ≤ |(f x).scale| ∧ suSmall ≤ |k * (f x).scale|

theorem unit_dpLoop (hk : 0 < k) {f f' : ℝ → NewtonEval} (h : UnitTotalEval k f f') (tol : ℝ) (fuel : ℕ) :
    ∀ n x, dpLoop f' tol fuel n x = dpLoop f tol fuel n x := by
  have hk0 := hk.ne'
  have hj : ∀ x, (f' x).jacobian = 0 ↔ (f x).jacobian = 0 := by
    intro x
    rw [(h x).1]
    simp only [mul_eq_zero, hk0, false_or]
  have hr : ∀ x, -(f' x).residual / (f' x).jacobian = -(f x).residual / (f x).jacobian := by
    intro x
    rw [(h x).1, ← mul_neg, mul_div_mul_left _ _ hk0]
  have hn : ∀ x, (f' x).dpNorm = (f x).dpNorm := by
    intro x
    obtain ⟨h1, h2, h3⟩ := h x
    unfold NewtonEval.dpNorm
    rw [h1]
    simp only [if_neg (not_lt.2 h2), if_neg (not_lt.2 h3), mul_div_mul_left _ _ hk0]
  induction fuel with
  | zero =>
    intro n x
    unfold dpLoop
    simp only [hj, hr, hn]
  | succ fuel ih =>
    intro n x
    unfold dpLoop
    simp only [hj, hr, hn, ih]

theorem unit_dpCone (m : DPParams) {law : HardLaw} (hw : ∀ x, WellAbove k (law x).1) (q pT acc : ℝ) :
    UnitTotalEval k (dpConeEval m law q pT acc) (dpConeEval (unitDP k m) (unitLaw k law) (k * q) (k * pT) acc) := by
  intro x
  refine ⟨?_, wellAbove_small (hw _)⟩
  unfold dpConeEval
  simp only [unitDP_G, unitDP_K]
  simp only [unitDP, unitLaw, NewtonEval.mk.injEq, true_and]
  constructor <;> ring

theorem unit_dpApex (m : DPParams) {law : HardLaw} (hw : ∀ x, WellAbove k (law x).1) (pT acc : ℝ) :
    UnitTotalEval k (dpApexEval m law pT acc) (dpApexEval (unitDP k m) (unitLaw k law) (k * pT) acc) := by
  intro x
  refine ⟨?_, wellAbove_small (hw _)⟩
  unfold dpApexEval
  simp only [unitDP_K]
  simp only [unitDP, unitLaw, NewtonEval.mk.injEq, true_and]
  constructor <;> ring

theorem unit_dpElastic (hk : 0 < k) (m : DPParams) (q : ℝ) (dev : V6) :
    dpElastic (unitDP k m) (k * q) (fun i => k * dev i) = dpElastic m q dev := by
  have hk0 := hk.ne'
  have e1 : ∀ c z w : ℝ, 1 / (c * (k * z)) * (k * w) = 1 / (c * z) * w := by
    intro c z w
    rw [show c * (k * z) = k * (c * z) by ring, one_div, mul_inv, one_div]
    field_simp
  funext i
  simp only [dpElastic, unitDP_K, unitDP_G, e1]

/-- A return mapping of the Drucker-Prager model in another unit. -/
def unitDPReturn (k : ℝ) (r : DPReturn) : DPReturn :=
  { r with stress := fun i => k * r.stress i, tangent := fun i j => k * r.tangent i j }

theorem kel66_mul (T : T4 3) : kel66 (fun a b c d => k * T a b c d) = fun i j => k * kel66 T i j := by
  funext i j
  simp only [kel66]
  ring

theorem unit_dpConeTangent (hk : 0 < k) (m : DPParams) (e : V6) (inc H : ℝ) :
    dpConeTangent (unitDP k m) e inc (k * H) = fun a b c d => k * dpConeTangent m e inc H a b c d := by
  have hk0 := hk.ne'
  funext a b c d
  have hs : 1 / (k * m.G + k * m.K * m.etay * m.etaf + k * H * m.xi ^ 2) =
      k⁻¹ * (1 / (m.G + m.K * m.etay * m.etaf + H * m.xi ^ 2)) := by
    rw [show k * m.G + k * m.K * m.etay * m.etaf + k * H * m.xi ^ 2 =
      k * (m.G + m.K * m.etay * m.etaf + H * m.xi ^ 2) by ring, one_div, mul_inv, one_div]
  simp only [dpConeTangent, unitDP_K, unitDP_G]
  simp only [unitDP, hs]
  generalize 1 / (m.G + m.K * m.etay * m.etaf + H * m.xi ^ 2) = s2
  field_simp

theorem unit_dpApexTangent (hk : 0 < k) (m : DPParams) (H : ℝ) :
    dpApexTangent (unitDP k m) (k * H) = fun a b c d => k * dpApexTangent m H a b c d := by
  funext a b c d
  simp only [dpApexTangent, unitDP_K]
  simp only [unitDP]
  rw [show k * m.K + m.xi / m.etaf * (m.xi / m.etay) * (k * H) =
    k * (m.K + m.xi / m.etaf * (m.xi / m.etay) * H) by ring, mul_div_mul_left _ _ hk.ne']
  ring

theorem unit_dpPlastic (hk : 0 < k) (m : DPParams) {law : HardLaw} (hw : ∀ x, WellAbove k (law x).1)
    (e dev : V6) (q pT acc inc : ℝ) (hq : (∀ i, dev i = 0) ∨ (suSmall < q ∧ suSmall < k * q)) :
    dpPlastic (unitDP k m) (unitLaw k law) e (fun i => k * dev i) (k * q) (k * pT) acc inc =
      (dpPlastic m law e dev q pT acc inc).map (unitDPReturn k) := by
  have hk0 := hk.ne'
  unfold dpPlastic
  have hge : k * q - (unitDP k m).G * inc ≥ 0 ↔ q - m.G * inc ≥ 0 := by
    rw [unitDP_G, show k * q - k * m.G * inc = k * (q - m.G * inc) by ring]
    exact mul_nonneg_iff_of_pos_left hk
  by_cases h1 : q - m.G * inc ≥ 0
  · rw [if_pos h1, if_pos (hge.2 h1)]
    have hp : k * pT - (unitDP k m).K * (unitDP k m).etaf * inc = k * (pT - m.K * m.etaf * inc) := by
      rw [unitDP_K]
      simp only [unitDP]
      ring
    have hf : (fun i => (if k * q > suSmall then 1 - (unitDP k m).G * inc / (k * q) else 0) * (k * dev i)) =
        fun i => k * ((if q > suSmall then 1 - m.G * inc / q else 0) * dev i) := by
      funext i
      rcases hq with h0 | ⟨h2, h3⟩
      · rw [h0 i]
        ring
      · rw [if_pos h2, if_pos h3, unitDP_G, mul_assoc, mul_div_mul_left _ _ hk0]
        ring
    have hH : ((unitLaw k law) (acc + (unitDP k m).xi * inc)).2 = k * (law (acc + m.xi * inc)).2 := rfl
    simp only [hp, hf, hH, unit_dpConeTangent hk, kel66_mul, unit_dpElastic hk, Option.map_some, unitDPReturn,
      Option.some.injEq, DPReturn.mk.injEq, true_and]
    refine ⟨?_, rfl, trivial⟩
    funext i
    rw [congrFun hf i]
    ring
  · rw [if_neg h1, if_neg (fun h => h1 (hge.1 h))]
    have ha : ((unitDP k m).etaf = 0 ∨ (unitDP k m).etay = 0) ↔ (m.etaf = 0 ∨ m.etay = 0) := Iff.rfl
    by_cases h2 : m.etaf = 0 ∨ m.etay = 0
    · rw [if_pos h2, if_pos (ha.2 h2)]
      rfl
    · rw [if_neg h2, if_neg (fun h => h2 (ha.1 h)), unit_dpLoop hk (unit_dpApex m hw pT acc)]
      cases dpLoop (dpApexEval m law pT acc) suTol suMaxIter 0 0 with
      | none => rfl
      | some vol =>
        have hp : k * pT - (unitDP k m).K * vol = k * (pT - m.K * vol) := by
          rw [unitDP_K]
          ring
        have h0 : (0 : V6) = fun i => k * (0 : V6) i := by
          funext i
          simp
        have hel : dpElastic (unitDP k m) (k * (pT - m.K * vol)) 0 = dpElastic m (pT - m.K * vol) 0 := by
          conv_lhs => rw [h0]
          exact unit_dpElastic hk m _ 0
        have hH : ((unitLaw k law) (acc + (unitDP k m).xi / (unitDP k m).etaf * vol)).2 =
          k * (law (acc + m.xi / m.etaf * vol)).2 := rfl
        simp only [hp, hel, hH, unit_dpApexTangent hk, kel66_mul, Option.map_some, unitDPReturn,
          Option.some.injEq, DPReturn.mk.injEq, true_and]
        refine ⟨?_, rfl, trivial⟩
        funext i
        ring

theorem deviatorClear_cases (hk : 0 < k) {m : DPParams} {e : V6} (h : DeviatorClear k m e) :
    (∀ i, dev6 (hooke6 (lamOf m.E m.v) (miuOf m.E m.v) e) i = 0) ∨
      (suSmall < √(1 / 2 * norm6 (dev6 (hooke6 (lamOf m.E m.v) (miuOf m.E m.v) e)) ^ 2) ∧
        suSmall < k * √(1 / 2 * norm6 (dev6 (hooke6 (lamOf m.E m.v) (miuOf m.E m.v) e)) ^ 2)) := by
  rcases h with h | h
  · left
    intro i
    have hs : ∑ i, dev6 (hooke6 (lamOf m.E m.v) (miuOf m.E m.v) e) i ^ 2 = 0 :=
      (Real.sqrt_eq_zero (Finset.sum_nonneg fun _ _ => sq_nonneg _)).1 h
    have := (Finset.sum_eq_zero_iff_of_nonneg fun _ _ => sq_nonneg _).1 hs i (Finset.mem_univ _)
    exact pow_eq_zero_iff (two_ne_zero) |>.1 this
  · right
    change WellAbove k (norm6 (dev6 (hooke6 (lamOf m.E m.v) (miuOf m.E m.v) e))) at h
    obtain ⟨h1, h2⟩ := h
    generalize norm6 (dev6 (hooke6 (lamOf m.E m.v) (miuOf m.E m.v) e)) = n at h1 h2 ⊢
    have hn : 0 < n := lt_of_lt_of_le (by norm_num) h1
    have hs : n / 2 < √(1 / 2 * n ^ 2) := by
      apply Real.lt_sqrt_of_sq_lt
      nlinarith
    have hss : suSmall = 2e-8 / 2 := by unfold suSmall; norm_num
    rw [hss]
    have := mul_lt_mul_of_pos_left hs hk
    constructor <;> linarith

theorem unit_dpReturn (hk : 0 < k) (m : DPParams) {law : HardLaw} (hw : ∀ x, WellAbove k (law x).1) (e : V6)
    (acc : ℝ) (hd : DeviatorClear k m e) :
    dpReturn (unitDP k m) (unitLaw k law) e acc = (dpReturn m law e acc).map (unitDPReturn k) := by
  have hk0 := hk.ne'
  have hc := deviatorClear_cases hk hd
  unfold dpReturn
  have hE : (unitDP k m).E = k * m.E := rfl
  have hv : (unitDP k m).v = m.v := rfl
  simp only [mv6_iso, mv6_devprojsym, hE, hv, lamOf_mul, miuOf_mul, hooke6_mul, dev6_mul, unitNorm hk,
    unit_unkel6]
  set s := hooke6 (lamOf m.E m.v) (miuOf m.E m.v) e with hs
  have hq : √(1 / 2 * (k * norm6 (dev6 s)) ^ 2) = k * √(1 / 2 * norm6 (dev6 s) ^ 2) := by
    rw [show 1 / 2 * (k * norm6 (dev6 s)) ^ 2 = k ^ 2 * (1 / 2 * norm6 (dev6 s) ^ 2) by ring,
      Real.sqrt_mul (sq_nonneg k), Real.sqrt_sq hk.le]
  have hp : (1 / 3 : ℝ) * ∑ i, k * unkel6 s i i = k * (1 / 3 * ∑ i, unkel6 s i i) := by
    rw [← Finset.mul_sum]
    ring
  rw [hq, hp]
  set q := √(1 / 2 * norm6 (dev6 s) ^ 2)
  set pT := 1 / 3 * ∑ i, unkel6 s i i
  obtain ⟨h1, h2⟩ := wellAbove_small (hw acc)
  have hcons : (if |((unitLaw k law) acc).1| < suSmall then
        k * q + (unitDP k m).etay * (k * pT) - (unitDP k m).xi * ((unitLaw k law) acc).1
      else (k * q + (unitDP k m).etay * (k * pT) - (unitDP k m).xi * ((unitLaw k law) acc).1) /
        |((unitLaw k law) acc).1|) =
      if |(law acc).1| < suSmall then q + m.etay * pT - m.xi * (law acc).1
        else (q + m.etay * pT - m.xi * (law acc).1) / |(law acc).1| := by
    have hl : ((unitLaw k law) acc).1 = k * (law acc).1 := rfl
    rw [hl, if_neg (not_lt.2 h1), if_neg (not_lt.2 h2), abs_mul, abs_of_pos hk]
    have : k * q + (unitDP k m).etay * (k * pT) - (unitDP k m).xi * (k * (law acc).1) =
        k * (q + m.etay * pT - m.xi * (law acc).1) := by
      simp only [unitDP]
      ring
    rw [this, mul_div_mul_left _ _ hk0]
  rw [hcons]
  generalize (if |(law acc).1| < suSmall then q + m.etay * pT - m.xi * (law acc).1
        else (q + m.etay * pT - m.xi * (law acc).1) / |(law acc).1|) = co
  by_cases hco : co ≤ suTol
  · rw [if_pos hco, if_pos hco]
    simp only [Option.map_some, unitDPReturn, Option.some.injEq, DPReturn.mk.injEq, true_and]
    funext i j
    simp only [kel66, isoTensor_mul]
    ring
  · rw [if_neg hco, if_neg hco, unit_dpLoop hk (unit_dpCone m hw q pT acc)]
    cases dpLoop (dpConeEval m law q pT acc) suTol suMaxIter 0 0 with
    | none => rfl
    | some inc => exact unit_dpPlastic hk m hw e (dev6 s) q pT acc inc hc

theorem unit_dpUpdate (hk : 0 < k) {p : PType} (m : DPParams) {law : HardLaw} (hw : ∀ x, WellAbove k (law x).1)
    (inc : T2 p.dim) (s : DPState p)
    (hd : DeviatorClear k m (to3D p s.eStrain s.e33 + to3D p (mf p inc) 0)) :
    (dpUpdate p (unitDP k m) (unitLaw k law) inc (unitDPState p k s)).1 =
        unitDPVars p k (dpUpdate p m law inc s).1 ∧
      (dpUpdate p (unitDP k m) (unitLaw k law) inc (unitDPState p k s)).2 =
        (dpUpdate p m law inc s).2.map fun T i j => k * T i j := by
  have hr := unit_dpReturn hk m hw (to3D p s.eStrain s.e33 + to3D p (mf p inc) 0) s.acc hd
  unfold dpUpdate
  simp only [unitDPState, unitVM, hr]
  cases dpReturn m law (to3D p s.eStrain s.e33 + to3D p (mf p inc) 0) s.acc with
  | none => exact ⟨rfl, rfl⟩
  | some r =>
    simp only [Option.map_some, unitDPVars, unitDPState, unitVM, unitDPReturn, to2D_mul, get33_mul, to2DM_scale]
    exact ⟨trivial, trivial⟩

/-- **C146.** Drucker-Prager plasticity, every strain history: with Young's modulus and cohesion law in another
unit of stress, all strains, accumulated plastic strains, flags (plastic, apex, failure) are the same and the
stresses are those of the first unit in the other one.  The cohesions must be well above the number `1e-8` in
both units, and so must the trial deviators, unless they are zero. -/
theorem C146_drucker_prager {p : PType} (hk : 0 < k) (m : DPParams) {law : HardLaw}
    (hw : ∀ x, WellAbove k (law x).1) (incs : List (T2 p.dim))
    (hd : ∀ pre inc s, pre ++ [inc] <+: incs → dpRun p m law pre = .good s →
      DeviatorClear k m (to3D p s.eStrain s.e33 + to3D p (mf p inc) 0)) :
    dpRun p (unitDP k m) (unitLaw k law) incs = unitDPVars p k (dpRun p m law incs) := by
  induction incs using List.reverseRecOn with
  | nil =>
    show DPVars.good (dpInit p) = DPVars.good (unitDPState p k (dpInit p))
    simp only [dpInit, vmInit, unitDPState, unitVM, Pi.zero_apply, mul_zero]
    rfl
  | append_singleton incs inc ih =>
    have ih := ih fun pre i s h => hd pre i s (h.trans (List.prefix_append _ _))
    have hl : dpRun p m law (incs ++ [inc]) = dpStep p m law (dpRun p m law incs) inc := by
      simp only [dpRun, List.foldl_append, List.foldl_cons, List.foldl_nil]
    have hl' : dpRun p (unitDP k m) (unitLaw k law) (incs ++ [inc]) =
        dpStep p (unitDP k m) (unitLaw k law) (dpRun p (unitDP k m) (unitLaw k law) incs) inc := by
      simp only [dpRun, List.foldl_append, List.foldl_cons, List.foldl_nil]
    rw [hl, hl', ih]
    cases hs : dpRun p m law incs with
    | nan s => rfl
    | good s => exact (unit_dpUpdate hk m hw inc s (hd incs inc s (List.prefix_refl _) hs)).1

/-- **C146.** The consistent tangent of a Drucker-Prager step is a stress as well. -/
theorem C146_drucker_prager_tangent {p : PType} (hk : 0 < k) (m : DPParams) {law : HardLaw}
    (hw : ∀ x, WellAbove k (law x).1) (inc : T2 p.dim) (s : DPState p)
    (hd : DeviatorClear k m (to3D p s.eStrain s.e33 + to3D p (mf p inc) 0)) :
    (dpUpdate p (unitDP k m) (unitLaw k law) inc (unitDPState p k s)).2 =
      (dpUpdate p m law inc s).2.map fun T i j => k * T i j :=
  (unit_dpUpdate hk m hw inc s hd).2

/-- A step of shear and axial strain of a material given in MPa and in kPa meets the conditions. -/
example : dpRun .solid (unitDP 1000 ⟨100, 0.3, 1, 0.5, 0.5⟩) (unitLaw 1000 (linearHardening 5 2))
      [fun i j => if i + j = 1 then 0.1 else 0] =
    unitDPVars .solid 1000 (dpRun .solid ⟨100, 0.3, 1, 0.5, 0.5⟩ (linearHardening 5 2)
      [fun i j => if i + j = 1 then 0.1 else 0]) := by
  refine C146_drucker_prager (by norm_num) _ (fun x => ?_) _ fun pre inc s hpre hs => ?_
  · have : (0 : ℝ) ≤ relu x := le_max_right _ _
    constructor
    · simp only [linearHardening]
      norm_num
      linarith
    · simp only [linearHardening]
      norm_num
      linarith
  · have hl := hpre.length_le
    have hp : pre = [] := by
      cases pre with
      | nil => rfl
      | cons a l => simp at hl
    subst hp
    obtain ⟨rest, hrest⟩ := hpre
    simp only [List.nil_append, List.cons_append, List.cons.injEq] at hrest
    obtain ⟨rfl, -⟩ := hrest
    cases hs
    right
    have key : (1 : ℝ) ≤ √(∑ i, dev6 (hooke6 (lamOf 100 0.3) (miuOf 100 0.3)
        (to3D .solid (dpInit .solid).eStrain (dpInit .solid).e33 +
          to3D .solid (mf .solid fun i j => if i + j = 1 then 0.1 else 0) 0)) i ^ 2) := by
      apply Real.le_sqrt_of_sq_le
      refine le_trans ?_ (Finset.single_le_sum (fun _ _ => sq_nonneg _) (Finset.mem_univ (3 : Fin 6)))
      simp [dev6, hooke6, tr6, one6, to3D, mf, kel6, ci, cj, kf, dpInit, vmInit, miuOf]
      norm_num [mul_pow]
      have : (1 : ℝ) ≤ |√2| := le_trans (Real.one_le_sqrt.2 (by norm_num)) (le_abs_self _)
      linarith
    constructor
    · exact le_trans (by norm_num) key
    · refine le_trans (by norm_num) (mul_le_mul_of_nonneg_left key (by norm_num : (0 : ℝ) ≤ 1000))

end Hooke
