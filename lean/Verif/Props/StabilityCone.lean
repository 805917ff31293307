import Verif.Props.Stability
import Verif.Props.ConeReturnCases

/-!
# C143: perturbations of the strain history are not amplified (Drucker-Prager)
-/

noncomputable section

namespace Hooke

open Spec

/-- The point of the elastic domain next to a trial strain `e` and accumulated plastic strain `x`. -/
def IsNearest (m : DPParams) (c0 a : ℝ) (e : V6) (x : ℝ) (f : V6) (y : ℝ) : Prop :=
  dpYield m (hooke6 (lame m.E m.v) (shear m.E m.v) f) (c0 + a * y) ≤ 0 ∧
  ∀ g z, dpYield m (hooke6 (lame m.E m.v) (shear m.E m.v) g) (c0 + a * z) ≤ 0 →
    0 ≤ inner ℝ (stateVec m.E m.v a f y - stateVec m.E m.v a g z)
      (stateVec m.E m.v a e x - stateVec m.E m.v a f y)

theorem nearest_nonexpansive {m : DPParams} {c0 a : ℝ} {e f e' f' : V6} {x y x' y' : ℝ}
    (h : IsNearest m c0 a e x f y) (h' : IsNearest m c0 a e' x' f' y') :
    ‖stateVec m.E m.v a f y - stateVec m.E m.v a f' y'‖ ≤
      ‖stateVec m.E m.v a e x - stateVec m.E m.v a e' x'‖ := by
  refine norm_le_of_monotone
    (c := (stateVec m.E m.v a e x - stateVec m.E m.v a f y) -
      (stateVec m.E m.v a e' x' - stateVec m.E m.v a f' y')) (by abel) ?_
  have h1 := h.2 f' y' h'.1
  have h2 := h'.2 f y h.1
  rw [← neg_sub, inner_neg_left] at h2
  rw [inner_sub_right]
  linarith

theorem norm_dev_sqrtJ2 (s : V6) : norm6 (dev6 s) = √2 * sqrtJ2 s := by
  unfold sqrtJ2
  field_simp

theorem inner6_dev_le (t s : V6) : inner6 t (dev6 s) ≤ 2 * sqrtJ2 t * sqrtJ2 s := by
  rw [inner6_dev_of_tr (tr6_dev6 s)]
  refine (inner6_le _ _).trans (le_of_eq ?_)
  rw [norm_dev_sqrtJ2, norm_dev_sqrtJ2]
  have := Real.mul_self_sqrt (show (0 : ℝ) ≤ 2 by norm_num)
  linear_combination sqrtJ2 t * sqrtJ2 s * this

theorem norm_dev_sq (s : V6) : norm6 (dev6 s) ^ 2 = 2 * sqrtJ2 s ^ 2 := by
  rw [norm_dev_sqrtJ2, mul_pow, Real.sq_sqrt (by norm_num)]

theorem inner6_iso_left (t s : V6) (b g : ℝ) :
    inner6 t (fun k => b * one6 k + g * dev6 s k) = 3 * b * pressure6 t + g * inner6 t (dev6 s) := by
  simp only [inner6, Fin.sum_univ_six, one6, pressure6, tr6]
  simp
  ring

theorem tr6_scaled_dev (s : V6) (f : ℝ) : tr6 (fun k => f * dev6 s k) = 0 := by
  rw [tr6_smul, tr6_dev6, mul_zero]

/-- Elastic strain at a pressure `q` and `f` times the deviator of the stress of `e`. -/
def dpPoint (m : DPParams) (e : V6) (q f : ℝ) : V6 :=
  dpElastic m q fun k => f * dev6 (hooke6 (lame m.E m.v) (shear m.E m.v) e) k

theorem dpPoint_diff {m : DPParams} (hA : Admissible m.E m.v) (a : ℝ) (e : V6) (q f x y : ℝ) :
    stateVec m.E m.v a e x - stateVec m.E m.v a (dpPoint m e q f) y = stateVec m.E m.v a
      (fun k => (pressure6 (hooke6 (lame m.E m.v) (shear m.E m.v) e) - q) / (3 * bulk m.E m.v) * one6 k +
        (1 - f) / (2 * shear m.E m.v) * dev6 (hooke6 (lame m.E m.v) (shear m.E m.v) e) k) (x - y) := by
  rw [← stateVec_sub]
  congr 1
  funext k
  exact dp_increment hA e q f k

/-- Angle between the correction to a point and the way to it from another point. -/
theorem dpPoint_inner {m : DPParams} (hA : Admissible m.E m.v) {a : ℝ} (ha : 0 ≤ a) (e : V6)
    {q f : ℝ} (hf : f ≤ 1) (x y : ℝ) (g : V6) (z : ℝ) :
    let s := hooke6 (lame m.E m.v) (shear m.E m.v) e
    let t := hooke6 (lame m.E m.v) (shear m.E m.v) g
    (pressure6 s - q) / bulk m.E m.v * (q - pressure6 t) +
        (1 - f) / shear m.E m.v * sqrtJ2 s * (f * sqrtJ2 s - sqrtJ2 t) + a * (y - z) * (x - y) ≤
      inner ℝ (stateVec m.E m.v a (dpPoint m e q f) y - stateVec m.E m.v a g z)
        (stateVec m.E m.v a e x - stateVec m.E m.v a (dpPoint m e q f) y) := by
  intro s t
  have hK := hA.bulk_pos
  have hG := hA.shear_pos
  rw [dpPoint_diff hA, inner_sub_left, stateVec_inner hA ha, stateVec_inner hA ha, dpPoint,
    hooke6_dpElastic hA (tr6_scaled_dev _ _), inner6_iso _ _ _ _ (tr6_dev6 _), inner6_iso_left,
    norm_dev_sq]
  have h1 := inner6_dev_le t s
  have h2 : 0 ≤ (1 - f) / (2 * shear m.E m.v) := div_nonneg (by linarith) (by linarith)
  have h3 := mul_le_mul_of_nonneg_left h1 h2
  have e1 : (pressure6 s - q) / bulk m.E m.v * (q - pressure6 t) +
      (1 - f) / shear m.E m.v * sqrtJ2 s * (f * sqrtJ2 s - sqrtJ2 t) + a * (y - z) * (x - y) =
      3 * q * ((pressure6 s - q) / (3 * bulk m.E m.v)) +
        f * ((1 - f) / (2 * shear m.E m.v)) * (2 * sqrtJ2 s ^ 2) + a * y * (x - y) -
        (3 * ((pressure6 s - q) / (3 * bulk m.E m.v)) * pressure6 t +
          (1 - f) / (2 * shear m.E m.v) * (2 * sqrtJ2 t * sqrtJ2 s) + a * z * (x - y)) := by
    field_simp
    ring
  rw [e1]
  linarith

/-- Length of the correction. -/
theorem dpPoint_norm {m : DPParams} (hA : Admissible m.E m.v) {a : ℝ} (ha : 0 ≤ a) (e : V6) (q f x y : ℝ) :
    let s := hooke6 (lame m.E m.v) (shear m.E m.v) e
    ‖stateVec m.E m.v a e x - stateVec m.E m.v a (dpPoint m e q f) y‖ =
      √((pressure6 s - q) ^ 2 / bulk m.E m.v + (1 - f) ^ 2 * sqrtJ2 s ^ 2 / shear m.E m.v +
        a * (x - y) ^ 2) := by
  intro s
  have hK := hA.bulk_pos
  have hG := hA.shear_pos
  have hl := hA.lame_bulk
  rw [dpPoint_diff hA, stateVec_norm hA ha]
  congr 2
  have htr : tr6 (fun k => (pressure6 s - q) / (3 * bulk m.E m.v) * one6 k +
      (1 - f) / (2 * shear m.E m.v) * dev6 s k) = (pressure6 s - q) / bulk m.E m.v := by
    have := pressure6_iso (p := (pressure6 s - q) / (3 * bulk m.E m.v))
      (tr6_scaled_dev s ((1 - f) / (2 * shear m.E m.v)))
    unfold pressure6 at this ⊢
    have h3 : tr6 (fun k => (tr6 s / 3 - q) / (3 * bulk m.E m.v) * one6 k +
      (1 - f) / (2 * shear m.E m.v) * dev6 s k) = 3 * ((tr6 s / 3 - q) / (3 * bulk m.E m.v)) := by
      linarith
    rw [h3]
    field_simp
  have hh : hooke6 (lame m.E m.v) (shear m.E m.v) (fun k => (pressure6 s - q) / (3 * bulk m.E m.v) * one6 k +
      (1 - f) / (2 * shear m.E m.v) * dev6 s k) =
      fun k => (pressure6 s - q) * one6 k + (1 - f) * dev6 s k := by
    funext k
    simp only [hooke6]
    rw [htr, show lame m.E m.v = bulk m.E m.v - 2 / 3 * shear m.E m.v by linarith]
    field_simp
    ring
  refine (congrArg (fun w => inner6 w _) hh).trans ?_
  rw [inner6_iso _ _ _ _ (tr6_dev6 s), norm_dev_sq]
  change 3 * (pressure6 s - q) * ((pressure6 s - q) / (3 * bulk m.E m.v)) + _ = _
  field_simp

/-- Yield function at a point. -/
theorem dpPoint_yield {m : DPParams} (hA : Admissible m.E m.v) (e : V6) {q f : ℝ} (hf : 0 ≤ f) (c : ℝ) :
    dpYield m (hooke6 (lame m.E m.v) (shear m.E m.v) (dpPoint m e q f)) c =
      f * sqrtJ2 (hooke6 (lame m.E m.v) (shear m.E m.v) e) + m.etay * q - m.xi * c := by
  rw [dpPoint, hooke6_dpElastic hA (tr6_scaled_dev _ _), dpYield, sqrtJ2_smul,
    pressure6_iso (tr6_scaled_dev _ _), abs_of_nonneg hf]

/-- Bulk and hardening resistance of the cone. -/
def coneStiffness (m : DPParams) (a : ℝ) : ℝ := bulk m.E m.v * m.etay ^ 2 + m.xi ^ 2 * a

theorem coneStiffness_pos {m : DPParams} (hm : Frictional m) {a : ℝ} (ha : 0 ≤ a) : 0 < coneStiffness m a := by
  have := hm.elastic.bulk_pos
  have := hm.etay
  unfold coneStiffness
  positivity

/-- The nearest point on the cone. -/
theorem cone_nearest {m : DPParams} (hm : Frictional m) {c0 a : ℝ} (ha : 0 ≤ a) {e : V6} {x γ : ℝ}
    (hγ : 0 < γ) (hy : γ * (shear m.E m.v + coneStiffness m a) =
      dpYield m (hooke6 (lame m.E m.v) (shear m.E m.v) e) (c0 + a * x))
    (hJ : shear m.E m.v * γ ≤ sqrtJ2 (hooke6 (lame m.E m.v) (shear m.E m.v) e)) :
    let s := hooke6 (lame m.E m.v) (shear m.E m.v) e
    let f := dpPoint m e (pressure6 s - bulk m.E m.v * m.etay * γ) (1 - shear m.E m.v * γ / sqrtJ2 s)
    IsNearest m c0 a e x f (x + m.xi * γ) ∧
      ‖stateVec m.E m.v a e x - stateVec m.E m.v a f (x + m.xi * γ)‖ =
        γ * √(shear m.E m.v + coneStiffness m a) := by
  intro s f
  have hA := hm.elastic
  have hK := hA.bulk_pos
  have hG := hA.shear_pos
  have hJp : 0 < sqrtJ2 s := lt_of_lt_of_le (mul_pos hG hγ) hJ
  have hf0 : 0 ≤ 1 - shear m.E m.v * γ / sqrtJ2 s := by
    rw [sub_nonneg, div_le_one hJp]
    exact hJ
  have hf1 : 1 - shear m.E m.v * γ / sqrtJ2 s ≤ 1 := by
    have : 0 ≤ shear m.E m.v * γ / sqrtJ2 s := by positivity
    linarith
  have hfJ : (1 - shear m.E m.v * γ / sqrtJ2 s) * sqrtJ2 s = sqrtJ2 s - shear m.E m.v * γ := by
    field_simp
  have hy' : γ * (shear m.E m.v + coneStiffness m a) =
      sqrtJ2 s + m.etay * pressure6 s - m.xi * (c0 + a * x) := hy
  unfold coneStiffness at hy'
  refine ⟨⟨?_, fun g z hg => ?_⟩, ?_⟩
  · refine (dpPoint_yield hA e hf0 _).le.trans ?_
    refine le_of_eq ?_
    refine (congrArg (fun w => w + m.etay * (pressure6 s - bulk m.E m.v * m.etay * γ) -
      m.xi * (c0 + a * (x + m.xi * γ))) hfJ).trans ?_
    linear_combination -hy'
  · refine le_trans ?_ (dpPoint_inner hA ha e hf1 x (x + m.xi * γ) g z)
    unfold dpYield at hg
    set t := hooke6 (lame m.E m.v) (shear m.E m.v) g with ht
    have e1 : (pressure6 s - (pressure6 s - bulk m.E m.v * m.etay * γ)) / bulk m.E m.v = m.etay * γ := by
      field_simp
      ring
    have e2 : (1 - (1 - shear m.E m.v * γ / sqrtJ2 s)) / shear m.E m.v * sqrtJ2 s = γ := by
      field_simp
      ring
    have e3 : (pressure6 s - (pressure6 s - bulk m.E m.v * m.etay * γ)) / bulk m.E m.v *
          (pressure6 s - bulk m.E m.v * m.etay * γ - pressure6 t) +
        (1 - (1 - shear m.E m.v * γ / sqrtJ2 s)) / shear m.E m.v * sqrtJ2 s *
          ((1 - shear m.E m.v * γ / sqrtJ2 s) * sqrtJ2 s - sqrtJ2 t) +
        a * (x + m.xi * γ - z) * (x - (x + m.xi * γ)) =
        γ * -(sqrtJ2 t + m.etay * pressure6 t - m.xi * (c0 + a * z)) := by
      rw [e1, e2, hfJ]
      linear_combination -γ * hy'
    exact (mul_nonneg hγ.le (by linarith)).trans e3.ge
  · refine (dpPoint_norm hA ha e _ _ _ _).trans ?_
    rw [← Real.sqrt_sq hγ.le, ← Real.sqrt_mul (sq_nonneg _), Real.sqrt_sq hγ.le]
    congr 1
    unfold coneStiffness
    have e2 : (1 - (1 - shear m.E m.v * γ / sqrtJ2 s)) ^ 2 * sqrtJ2 s ^ 2 / shear m.E m.v =
        shear m.E m.v * γ ^ 2 := by
      field_simp
      ring
    refine (congrArg (fun w => (pressure6 s - (pressure6 s - bulk m.E m.v * m.etay * γ)) ^ 2 /
      bulk m.E m.v + w + a * (x - (x + m.xi * γ)) ^ 2) e2).trans ?_
    field_simp
    ring

/-- The nearest point if the cone is missed: the apex. -/
theorem apex_nearest {m : DPParams} (hm : Frictional m) {c0 a : ℝ} (ha : 0 ≤ a) {e : V6} {x w : ℝ}
    (hw : 0 ≤ w) (hy : w * coneStiffness m a =
      dpYield m (hooke6 (lame m.E m.v) (shear m.E m.v) e) (c0 + a * x) -
        sqrtJ2 (hooke6 (lame m.E m.v) (shear m.E m.v) e))
    (hJ : sqrtJ2 (hooke6 (lame m.E m.v) (shear m.E m.v) e) ≤ shear m.E m.v * w) :
    let s := hooke6 (lame m.E m.v) (shear m.E m.v) e
    let f := dpPoint m e (pressure6 s - bulk m.E m.v * m.etay * w) 0
    IsNearest m c0 a e x f (x + m.xi * w) ∧
      ‖stateVec m.E m.v a e x - stateVec m.E m.v a f (x + m.xi * w)‖ ≤
        dpYield m s (c0 + a * x) / √(coneStiffness m a) := by
  intro s f
  have hA := hm.elastic
  have hK := hA.bulk_pos
  have hG := hA.shear_pos
  have hM := coneStiffness_pos hm ha
  have hJ0 := sqrtJ2_nonneg s
  have hy' : w * (bulk m.E m.v * m.etay ^ 2 + m.xi ^ 2 * a) =
      m.etay * pressure6 s - m.xi * (c0 + a * x) := by
    have : w * coneStiffness m a = sqrtJ2 s + m.etay * pressure6 s - m.xi * (c0 + a * x) - sqrtJ2 s := hy
    unfold coneStiffness at this
    linarith
  refine ⟨⟨?_, fun g z hg => ?_⟩, ?_⟩
  · refine (dpPoint_yield hA e le_rfl _).le.trans (le_of_eq ?_)
    rw [zero_mul]
    change 0 + m.etay * (pressure6 s - bulk m.E m.v * m.etay * w) - m.xi * (c0 + a * (x + m.xi * w)) = 0
    linear_combination -hy'
  · refine le_trans ?_ (dpPoint_inner hA ha e zero_le_one x (x + m.xi * w) g z)
    unfold dpYield at hg
    set t := hooke6 (lame m.E m.v) (shear m.E m.v) g with ht
    change 0 ≤ (pressure6 s - (pressure6 s - bulk m.E m.v * m.etay * w)) / bulk m.E m.v *
          (pressure6 s - bulk m.E m.v * m.etay * w - pressure6 t) +
        (1 - 0) / shear m.E m.v * sqrtJ2 s * (0 * sqrtJ2 s - sqrtJ2 t) +
        a * (x + m.xi * w - z) * (x - (x + m.xi * w))
    have e1 : (pressure6 s - (pressure6 s - bulk m.E m.v * m.etay * w)) / bulk m.E m.v = m.etay * w := by
      field_simp
      ring
    have e3 : (pressure6 s - (pressure6 s - bulk m.E m.v * m.etay * w)) / bulk m.E m.v *
          (pressure6 s - bulk m.E m.v * m.etay * w - pressure6 t) +
        (1 - 0) / shear m.E m.v * sqrtJ2 s * (0 * sqrtJ2 s - sqrtJ2 t) +
        a * (x + m.xi * w - z) * (x - (x + m.xi * w)) =
        w * -(sqrtJ2 t + m.etay * pressure6 t - m.xi * (c0 + a * z)) +
          sqrtJ2 t * (w - sqrtJ2 s / shear m.E m.v) := by
      rw [e1]
      linear_combination -w * hy'
    rw [e3]
    refine add_nonneg (mul_nonneg hw (by linarith)) (mul_nonneg (sqrtJ2_nonneg _) ?_)
    rw [sub_nonneg, div_le_iff₀ hG]
    have : sqrtJ2 s ≤ shear m.E m.v * w := hJ
    linarith
  · have hn := dpPoint_norm hA ha e (pressure6 s - bulk m.E m.v * m.etay * w) 0 x (x + m.xi * w)
    refine hn.le.trans ?_
    have hΦ : dpYield m s (c0 + a * x) = w * coneStiffness m a + sqrtJ2 s := by
      have : w * coneStiffness m a = dpYield m s (c0 + a * x) - sqrtJ2 s := hy
      linarith
    have hΦ0 : 0 ≤ dpYield m s (c0 + a * x) := by
      rw [hΦ]
      exact add_nonneg (mul_nonneg hw hM.le) hJ0
    rw [le_div_iff₀ (Real.sqrt_pos.mpr hM), ← Real.sqrt_mul' _ hM.le]
    refine Real.sqrt_le_iff.mpr ⟨hΦ0, ?_⟩
    rw [hΦ]
    change ((pressure6 s - (pressure6 s - bulk m.E m.v * m.etay * w)) ^ 2 / bulk m.E m.v +
      (1 - 0) ^ 2 * sqrtJ2 s ^ 2 / shear m.E m.v + a * (x - (x + m.xi * w)) ^ 2) * coneStiffness m a ≤ _
    have e1 : (pressure6 s - (pressure6 s - bulk m.E m.v * m.etay * w)) ^ 2 / bulk m.E m.v =
        bulk m.E m.v * m.etay ^ 2 * w ^ 2 := by
      field_simp
      ring
    have e2 : (1 - 0) ^ 2 * sqrtJ2 s ^ 2 / shear m.E m.v ≤ sqrtJ2 s * w := by
      rw [div_le_iff₀ hG]
      have : sqrtJ2 s ≤ shear m.E m.v * w := hJ
      nlinarith
    have e3 : bulk m.E m.v * m.etay ^ 2 * w ^ 2 + a * (x - (x + m.xi * w)) ^ 2 = coneStiffness m a * w ^ 2 := by
      unfold coneStiffness
      ring
    rw [e1]
    have e4 := mul_le_mul_of_nonneg_right e2 hM.le
    have e5 := mul_nonneg (mul_nonneg hJ0 hw) hM.le
    nlinarith [sq_nonneg (sqrtJ2 s)]

/-- Every state outside of the elastic domain has a nearest point in it. -/
theorem nearest_of_yield {m : DPParams} (hm : Frictional m) (hf : m.etaf = m.etay) {c0 a : ℝ} (ha : 0 ≤ a)
    {e : V6} {x : ℝ} (hy : 0 < dpYield m (hooke6 (lame m.E m.v) (shear m.E m.v) e) (c0 + a * x)) :
    let s := hooke6 (lame m.E m.v) (shear m.E m.v) e
    let γ := coneMultiplier m a (dpYield m s (c0 + a * x))
    ∃ f y, IsNearest m c0 a e x f y ∧
      ‖stateVec m.E m.v a e x - stateVec m.E m.v a f y‖ ≤ dpYield m s (c0 + a * x) / √(coneStiffness m a) ∧
      (0 ≤ sqrtJ2 s - shear m.E m.v * γ → y = x + m.xi * γ ∧
        f = dpPoint m e (pressure6 s - bulk m.E m.v * m.etay * γ) (1 - shear m.E m.v * γ / sqrtJ2 s) ∧
        0 ≤ γ ∧ 0 < sqrtJ2 s) ∧
      (sqrtJ2 s - shear m.E m.v * γ < 0 → ∃ w, 0 ≤ w ∧
        w * coneStiffness m a = m.etay * pressure6 s - m.xi * (c0 + a * x) ∧ y = x + m.xi * w ∧
        f = dpPoint m e (pressure6 s - bulk m.E m.v * m.etay * w) 0) := by
  intro s γ
  have hA := hm.elastic
  have hG := hA.shear_pos
  have hM := coneStiffness_pos hm ha
  have hγd : γ = dpYield m s (c0 + a * x) / (shear m.E m.v + coneStiffness m a) := by
    simp only [γ, coneMultiplier, hf, coneStiffness]
    congr 1
    ring
  have hGM : 0 < shear m.E m.v + coneStiffness m a := by linarith
  have hγ : 0 < γ := by rw [hγd]; exact div_pos hy hGM
  have hγy : γ * (shear m.E m.v + coneStiffness m a) = dpYield m s (c0 + a * x) := by
    rw [hγd, div_mul_cancel₀ _ hGM.ne']
  rcases le_or_gt 0 (sqrtJ2 s - shear m.E m.v * γ) with hc | hc
  · obtain ⟨h1, h2⟩ := cone_nearest hm ha (e := e) (x := x) hγ hγy (by linarith)
    refine ⟨_, _, h1, h2.le.trans ?_, fun _ => ⟨rfl, rfl, hγ.le, ?_⟩, fun h => absurd hc (not_le.mpr h)⟩
    · rw [← hγy, le_div_iff₀ (Real.sqrt_pos.mpr hM)]
      have h3 := Real.sqrt_le_sqrt (show coneStiffness m a ≤ shear m.E m.v + coneStiffness m a by linarith)
      have h4 := Real.mul_self_sqrt hGM.le
      have h5 := Real.sqrt_nonneg (shear m.E m.v + coneStiffness m a)
      have h6 := mul_le_mul_of_nonneg_left h3 h5
      rw [h4] at h6
      have h7 := mul_le_mul_of_nonneg_left h6 hγ.le
      linarith
    · have := mul_pos hG hγ
      linarith
  · have hw : 0 ≤ (dpYield m s (c0 + a * x) - sqrtJ2 s) / coneStiffness m a := by
      refine div_nonneg ?_ hM.le
      have := mul_pos hγ hM
      linarith
    have hwy : (dpYield m s (c0 + a * x) - sqrtJ2 s) / coneStiffness m a * coneStiffness m a =
        dpYield m s (c0 + a * x) - sqrtJ2 s := div_mul_cancel₀ _ hM.ne'
    obtain ⟨h1, h2⟩ := apex_nearest hm ha (e := e) (x := x) hw hwy (by
      have h3 : γ ≤ (dpYield m s (c0 + a * x) - sqrtJ2 s) / coneStiffness m a := by
        rw [le_div_iff₀ hM]
        linarith
      have := mul_le_mul_of_nonneg_left h3 hG.le
      change sqrtJ2 s ≤ _
      linarith)
    refine ⟨_, _, h1, h2, fun h => absurd hc (not_lt.mpr h), fun _ => ⟨_, hw, ?_, rfl, rfl⟩⟩
    rw [hwy]
    unfold dpYield
    ring

/-- Points at the same pressure with and without a deviator. -/
theorem dpPoint_zero_dist {m : DPParams} (hA : Admissible m.E m.v) {a : ℝ} (ha : 0 ≤ a) (e : V6) (q y : ℝ)
    {f : ℝ} (h0 : 0 ≤ f) :
    ‖stateVec m.E m.v a (dpPoint m e q 0) y - stateVec m.E m.v a (dpPoint m e q f) y‖ =
      f * sqrtJ2 (hooke6 (lame m.E m.v) (shear m.E m.v) e) / √(shear m.E m.v) := by
  have hG := hA.shear_pos
  set s := hooke6 (lame m.E m.v) (shear m.E m.v) e with hs
  have hJ := sqrtJ2_nonneg s
  have hd : ∀ k, dpPoint m e q 0 k - dpPoint m e q f k = -(f / (2 * shear m.E m.v)) * dev6 s k := by
    intro k
    have hGd : m.G = shear m.E m.v := rfl
    simp only [dpPoint, dpElastic, hGd, ← hs]
    field_simp
    ring
  rw [← stateVec_sub, sub_self, stateVec_norm hA ha]
  simp only [hd]
  rw [hooke6_dev (by rw [tr6_smul, tr6_dev6, mul_zero]), inner6_smul, inner6_comm, inner6_smul,
    inner6_smul, inner6_self, norm_dev_sq,
    ← Real.sqrt_sq (show 0 ≤ f * sqrtJ2 s from mul_nonneg h0 hJ), ← Real.sqrt_div (sq_nonneg _)]
  congr 1
  field_simp
  ring

/-- A step of the code as a return to the nearest point. -/
theorem nearest_of_step {p : PType} {m : DPParams} (hm : Frictional m) (hf : m.etaf = m.etay) {c0 a : ℝ}
    (ha : 0 ≤ a) {inc : T2 p.dim} {old new : DPState p} {T : Option (Fin p.len → Fin p.len → ℝ)}
    (hx : 0 ≤ old.acc) (h : dpUpdate p m (linearHardening c0 a) inc old = (.good new, T)) :
    ∃ f y, IsNearest m c0 a (trial3D old.toVMState inc) old.acc f y ∧
      ‖stateVec m.E m.v a (elastic3D new.toVMState) new.acc - stateVec m.E m.v a f y‖ ≤
        cohesionTol (c0 + a * old.acc) / √(coneStiffness m a) + 1e-8 / √(shear m.E m.v) := by
  have hA := hm.elastic
  have hG := hA.shear_pos
  have hK := hA.bulk_pos
  have hM := coneStiffness_pos hm ha
  have hM0 := Real.sqrt_nonneg (coneStiffness m a)
  have hG0 := Real.sqrt_nonneg (shear m.E m.v)
  have htol := cohesionTol_pos (c0 + a * old.acc)
  have t1 : 0 ≤ cohesionTol (c0 + a * old.acc) / √(coneStiffness m a) := div_nonneg htol.le hM0
  have t2 : (0 : ℝ) ≤ 1e-8 / √(shear m.E m.v) := div_nonneg (by norm_num) hG0
  obtain ⟨r, hr, r1, -, r3, -⟩ := dpUpdate_good h
  rw [r1, r3]
  have hc := dpReturn_cases hr
  simp only [linear_nonneg hx] at hc
  set e := trial3D old.toVMState inc with he
  set s := hooke6 (lame m.E m.v) (shear m.E m.v) e with hs
  rcases hc with ⟨-, -, hle, hE, -, hacc, -⟩ | ⟨-, -, hne, x, hx', hge, hacc, hE, -⟩ |
    ⟨-, -, hne, -, -, ⟨x, hx', hlt⟩, z, hz, hacc, hE, -⟩
  · rw [hE, hacc]
    rcases le_or_gt (dpYield m s (c0 + a * old.acc)) 0 with h0 | h0
    · refine ⟨e, old.acc, ⟨h0, fun g z _ => by rw [sub_self, inner_zero_right]⟩, ?_⟩
      rw [sub_self, norm_zero]
      exact add_nonneg t1 t2
    · obtain ⟨f, y, h1, h2, -⟩ := nearest_of_yield hm hf ha h0
      have h3 := div_le_div_of_nonneg_right hle hM0
      exact ⟨f, y, h1, by linarith⟩
  · have h0 : 0 < dpYield m s (c0 + a * old.acc) := htol.trans (not_le.mp hne)
    have hxe : x = _ := firstConverged_unique hx' (cone_linear hm ha hx h0.le)
    obtain ⟨f, y, h1, -, h3, -⟩ := nearest_of_yield hm hf ha h0
    rw [hxe] at hge hacc hE
    obtain ⟨hy, hfe, hg0, hJ⟩ := h3 hge
    refine ⟨f, y, h1, ?_⟩
    rw [hacc, hE, hy, hfe, hf]
    rw [← hs]
    split
    · refine le_trans (le_of_eq ?_) (add_nonneg t1 t2)
      rw [dpPoint, ← hs, sub_self, norm_zero]
    · rename_i hsm
      have h01 : 0 ≤ 1 - shear m.E m.v * coneMultiplier m a (dpYield m s (c0 + a * old.acc)) / sqrtJ2 s := by
        rw [sub_nonneg, div_le_one hJ]
        linarith
      have h02 := dpPoint_zero_dist hA ha e
        (pressure6 s - bulk m.E m.v * m.etay * coneMultiplier m a (dpYield m s (c0 + a * old.acc)))
        (old.acc + m.xi * coneMultiplier m a (dpYield m s (c0 + a * old.acc))) h01
      refine h02.le.trans (le_trans ?_ (le_add_of_nonneg_left t1))
      refine div_le_div_of_nonneg_right ?_ hG0
      have h03 : 0 ≤ shear m.E m.v * coneMultiplier m a (dpYield m s (c0 + a * old.acc)) / sqrtJ2 s := by
        positivity
      have h04 : sqrtJ2 s ≤ 1e-8 := not_lt.mp hsm
      rw [← hs]
      nlinarith
  · have h0 : 0 < dpYield m s (c0 + a * old.acc) := htol.trans (not_le.mp hne)
    have hxe : x = _ := firstConverged_unique hx' (cone_linear hm ha hx h0.le)
    rw [hxe] at hlt
    have hze : z = _ := firstConverged_unique hz (apex_linear hm ha hx (apex_pressure hm ha hlt).le)
    obtain ⟨f, y, h1, -, -, h4⟩ := nearest_of_yield hm hf ha h0
    obtain ⟨w, hw, hwy, hy, hfe⟩ := h4 hlt
    refine ⟨f, y, h1, ?_⟩
    have hey := hm.etay
    have hzw : z = m.etay * w := by
      rw [hze, hf]
      have : 0 < bulk m.E m.v + m.xi / m.etay * (m.xi / m.etay) * a := by
        have := hm.xi
        positivity
      rw [div_eq_iff this.ne']
      unfold coneStiffness at hwy
      rw [← hs] at hwy
      field_simp
      linear_combination -hwy
    have e1 : m.xi / m.etaf * z = m.xi * w := by
      rw [hzw, hf]
      field_simp
    have e2 : dpElastic m (pressure6 s - bulk m.E m.v * z) 0 =
        dpPoint m e (pressure6 s - bulk m.E m.v * m.etay * w) 0 := by
      rw [hzw, ← mul_assoc, dpPoint]
      congr 1
      funext k
      simp
    rw [hacc, hE, hy, hfe, e1, e2, ← hs, sub_self, norm_zero]
    exact add_nonneg t1 t2

/-! ### The statements -/

theorem trial_diff {p : PType} {E v a : ℝ} (s t : VMState p) (i j : T2 p.dim) :
    stateVec E v a (trial3D s i) s.acc - stateVec E v a (trial3D t j) t.acc =
      (stateVec E v a (elastic3D s) s.acc - stateVec E v a (elastic3D t) t.acc) +
        stateVec E v a (increment3D p (i - j)) 0 := by
  have hinc : ∀ k, increment3D p (i - j) k = increment3D p i k - increment3D p j k := by
    intro k
    cases p
    · fin_cases k <;> simp [increment3D, to3D, mf] <;> ring
    · simp [increment3D, to3D, mf, kel6]
      ring
  rw [← stateVec_sub, ← stateVec_sub, ← stateVec_add, add_zero]
  congr 1
  funext k
  simp only [trial3D, hinc]
  ring

/-- **C143 (a step, Drucker-Prager).** With associated flow and linear hardening of the cohesion, a step from
two states with two strain increments: the new states are no further apart than the old ones and the
increments, up to the yield tolerance and to the size below which the code drops the deviatoric stress. -/
theorem C143_step_drucker_prager {p : PType} {m : DPParams} (hm : Frictional m) (hf : m.etaf = m.etay)
    {c0 a : ℝ} (ha : 0 ≤ a) {i j : T2 p.dim} {s t s' t' : DPState p}
    {T T' : Option (Fin p.len → Fin p.len → ℝ)} (h1 : 0 ≤ s.acc) (h2 : 0 ≤ t.acc)
    (hu : dpUpdate p m (linearHardening c0 a) i s = (.good s', T))
    (hv : dpUpdate p m (linearHardening c0 a) j t = (.good t', T')) :
    stateDistance m.E m.v a s'.toVMState t'.toVMState ≤
      stateDistance m.E m.v a s.toVMState t.toVMState + energyNorm m.E m.v (increment3D p (i - j)) +
      (cohesionTol (c0 + a * s.acc) + cohesionTol (c0 + a * t.acc)) /
        √(bulk m.E m.v * m.etay ^ 2 + m.xi ^ 2 * a) + 2 * (1e-8 / √(shear m.E m.v)) := by
  have hA := hm.elastic
  obtain ⟨f, y, n1, e1⟩ := nearest_of_step hm hf ha h1 hu
  obtain ⟨g, z, n2, e2⟩ := nearest_of_step hm hf ha h2 hv
  have e3 := nearest_nonexpansive n1 n2
  rw [trial_diff] at e3
  have e5 := norm_add_le (stateVec m.E m.v a (elastic3D s.toVMState) s.acc -
    stateVec m.E m.v a (elastic3D t.toVMState) t.acc) (stateVec m.E m.v a (increment3D p (i - j)) 0)
  rw [stateDistance_eq hA ha, stateDistance_eq hA ha, energyNorm_eq hA ha, add_div]
  refine (norm_sub_le_norm_sub_add_norm_sub _ (stateVec m.E m.v a f y) _).trans ?_
  have e6 := norm_sub_le_norm_sub_add_norm_sub (stateVec m.E m.v a f y) (stateVec m.E m.v a g z)
    (stateVec m.E m.v a (elastic3D t'.toVMState) t'.acc)
  rw [norm_sub_rev] at e2
  unfold coneStiffness at e1 e2
  linarith

/-- **C143 (histories, Drucker-Prager).** With associated flow and linear hardening of the cohesion, two
histories of the same number of steps from two states. -/
theorem C143_history_drucker_prager {p : PType} {m : DPParams} (hm : Frictional m) (hf : m.etaf = m.etay)
    {c0 a : ℝ} (ha : 0 ≤ a) (hc : 1e-8 ≤ c0) (l k : List (T2 p.dim)) (hlk : l.length = k.length)
    (s t : DPState p) (h1 : 0 ≤ s.acc) (h2 : 0 ≤ t.acc) :
    ∃ s' t', l.foldl (dpStep p m (linearHardening c0 a)) (.good s) = .good s' ∧
      k.foldl (dpStep p m (linearHardening c0 a)) (.good t) = .good t' ∧
      s.acc ≤ s'.acc ∧ t.acc ≤ t'.acc ∧
      stateDistance m.E m.v a s'.toVMState t'.toVMState ≤
        stateDistance m.E m.v a s.toVMState t.toVMState + historyDistance m.E m.v l k +
        l.length * (1e-6 * ((c0 + a * s'.acc) + (c0 + a * t'.acc)) /
          √(bulk m.E m.v * m.etay ^ 2 + m.xi ^ 2 * a) + 2 * (1e-8 / √(shear m.E m.v))) := by
  induction l generalizing k s t with
  | nil =>
    obtain rfl : k = [] := List.length_eq_zero_iff.mp hlk.symm
    exact ⟨s, t, rfl, rfl, le_rfl, le_rfl, by simp [historyDistance]⟩
  | cons i l ih =>
    obtain ⟨j, k, rfl⟩ : ∃ j k', k = j :: k' := by
      cases k with
      | nil => simp at hlk
      | cons j k => exact ⟨j, k, rfl⟩
    obtain ⟨u, T, hu, -⟩ := C36_linear hm (c0 := c0) ha (inc := i) h1
    obtain ⟨w, T', hw, -⟩ := C36_linear hm (c0 := c0) ha (inc := j) h2
    have a1 := dp_linear_acc hm ha h1 hu
    have a2 := dp_linear_acc hm ha h2 hw
    obtain ⟨s', t', b1, b2, b3, b4, b5⟩ := ih k (by simpa using hlk) u w (h1.trans a1) (h2.trans a2)
    have c1 := C143_step_drucker_prager hm hf ha h1 h2 hu hw
    refine ⟨s', t', ?_, ?_, a1.trans b3, a2.trans b4, ?_⟩
    · rw [List.foldl_cons, dpStep, hu]
      exact b1
    · rw [List.foldl_cons, dpStep, hw]
      exact b2
    · have d1 := mul_le_mul_of_nonneg_left (a1.trans b3) ha
      have d2 := mul_le_mul_of_nonneg_left (a2.trans b4) ha
      have d3 := mul_nonneg ha h1
      have d4 := mul_nonneg ha h2
      rw [cohesionTol_large (by linarith), cohesionTol_large (by linarith), ← mul_add] at c1
      have c2 : 1e-6 * ((c0 + a * s.acc) + (c0 + a * t.acc)) / √(bulk m.E m.v * m.etay ^ 2 + m.xi ^ 2 * a) ≤
          1e-6 * ((c0 + a * s'.acc) + (c0 + a * t'.acc)) / √(bulk m.E m.v * m.etay ^ 2 + m.xi ^ 2 * a) := by
        refine div_le_div_of_nonneg_right (mul_le_mul_of_nonneg_left ?_ (by norm_num)) (Real.sqrt_nonneg _)
        linarith
      have c3 : historyDistance m.E m.v (i :: l) (j :: k) =
          energyNorm m.E m.v (increment3D p (i - j)) + historyDistance m.E m.v l k := by
        simp [historyDistance]
      rw [c3, List.length_cons, Nat.cast_succ, add_mul, one_mul]
      linarith

/-! ### Non-associated flow -/

/-- A frictional material with hardly any dilatancy. -/
def dpSlip : DPParams := ⟨1, 0, 1, 1, 1 / 100⟩

theorem frictional_slip : Frictional dpSlip :=
  ⟨admissible_one, by norm_num [dpSlip], by norm_num [dpSlip], by norm_num [dpSlip]⟩

/-- Shear by `2` and hydrostatic compression by `d`. -/
def pressedInc (d : ℝ) : T2 3 := fun i j => shearInc 2 i j - hydroInc d i j

theorem pressed_trial (d : ℝ) :
    trial3D (dpInit .solid).toVMState (pressedInc d) = ![-d, -d, -d, √2 * 2, 0, 0] := by
  funext k
  fin_cases k <;>
    simp [trial3D, elastic3D, increment3D, dpInit, vmInit, to3D, mf, kel6, pressedInc, shearInc, hydroInc,
      ci, cj, kf]
  ring

theorem pressed_stress (d : ℝ) : hooke6 (lame 1 0) (shear 1 0)
    (trial3D (dpInit .solid).toVMState (pressedInc d)) = ![-d, -d, -d, √2 * 2, 0, 0] := by
  rw [pressed_trial]
  funext k
  fin_cases k <;> simp [hooke6, lame, shear, one6, tr6]

theorem pressed_dev (d : ℝ) : dev6 ![-d, -d, -d, √2 * 2, 0, 0] = ![0, 0, 0, √2 * 2, 0, 0] := by
  funext k
  fin_cases k <;> simp [dev6, tr6, one6] <;> ring

theorem pressed_sqrtJ2 (d : ℝ) : sqrtJ2 ![-d, -d, -d, √2 * 2, 0, 0] = 2 := by
  have h := sqrtJ2_shear (show (0 : ℝ) ≤ 2 by norm_num)
  have h0 : dev6 ![0, 0, 0, √2 * 2, 0, 0] = ![0, 0, 0, √2 * 2, 0, 0] := by
    have := pressed_dev 0
    simpa using this
  unfold sqrtJ2 at h ⊢
  rw [pressed_dev]
  rwa [h0] at h

theorem pressed_pressure (d : ℝ) : pressure6 ![-d, -d, -d, √2 * 2, 0, 0] = -d := by
  simp [pressure6, tr6]
  ring

theorem pressed_yield (d : ℝ) : dpYield dpSlip ![-d, -d, -d, √2 * 2, 0, 0] 1 = 1 - d := by
  rw [dpYield, pressed_sqrtJ2, pressed_pressure]
  norm_num [dpSlip]
  ring

/-- **C143 is violated for Drucker-Prager plasticity with non-associated flow.** Perfect plasticity with
`E = 1`, `ν = 0`, `ξ = η = 1` and the flow parameter `1/100`: from the initial state, the same shear with and
without a hydrostatic compression gives states which are more than `1.2` times as far apart as the
increments are. -/
theorem C143_nonassociated_violated : ∃ s t T T',
    dpUpdate .solid dpSlip (linearHardening 1 0) (pressedInc 0) (dpInit .solid) = (.good s, T) ∧
    dpUpdate .solid dpSlip (linearHardening 1 0) (pressedInc 1) (dpInit .solid) = (.good t, T') ∧
    1.2 * energyNorm dpSlip.E dpSlip.v (increment3D .solid (pressedInc 0 - pressedInc 1)) <
      stateDistance dpSlip.E dpSlip.v 0 s.toVMState t.toVMState := by
  have hE : dpSlip.E = 1 := rfl
  have hv : dpSlip.v = 0 := rfl
  have hacc : (dpInit .solid).acc = 0 := rfl
  obtain ⟨s, T, hs, -⟩ := C36_linear frictional_slip (c0 := 1) (le_refl (0 : ℝ)) (inc := pressedInc 0)
    (old := dpInit .solid) le_rfl
  obtain ⟨t, T', ht, -⟩ := C36_linear frictional_slip (c0 := 1) (le_refl (0 : ℝ)) (inc := pressedInc 1)
    (old := dpInit .solid) le_rfl
  refine ⟨s, t, T, T', hs, ht, ?_⟩
  have hr2 : √(2 : ℝ) ^ 2 = 2 := Real.sq_sqrt (by norm_num)
  -- the second step is elastic
  have hte : elastic3D t.toVMState = ![-1, -1, -1, √2 * 2, 0, 0] := by
    have hel : DPTrialElastic dpSlip (linearHardening 1 0) (dpInit .solid) (pressedInc 1) := by
      unfold DPTrialElastic
      rw [hacc, linear_nonneg le_rfl, hE, hv, pressed_stress]
      simp only [mul_zero, add_zero, pressed_yield]
      have := cohesionTol_pos 1
      linarith
    obtain ⟨h1, h2⟩ := C36_elastic_step ht
    rw [(h2 (h1.mpr hel)).1, pressed_trial]
  -- the first one returns to the cone
  have hse : elastic3D s.toVMState = ![-1 / 151, -1 / 151, -1 / 151, 76 / 151 * (√2 * 2), 0, 0] := by
    obtain ⟨r, hr, r1, -⟩ := dpUpdate_good hs
    have hc := dpReturn_cases hr
    simp only [hacc, linear_nonneg (le_refl (0 : ℝ)), hE, hv, pressed_stress, pressed_yield, pressed_sqrtJ2,
      pressed_pressure, mul_zero, add_zero, zero_mul] at hc
    have htol : cohesionTol 1 < 1 - 0 := by norm_num [cohesionTol]
    have hfc := cone_linear frictional_slip (c0 := 1) (le_refl (0 : ℝ))
      (s := ![-0, -0, -0, √2 * 2, 0, 0]) (acc := 0) le_rfl (by rw [mul_zero, add_zero, pressed_yield]; norm_num)
    have hcm : coneMultiplier dpSlip 0 (dpYield dpSlip ![-0, -0, -0, √2 * 2, 0, 0] (1 + 0 * 0)) = 300 / 151 := by
      rw [mul_zero, add_zero, pressed_yield]
      norm_num [coneMultiplier, dpSlip, shear, bulk]
    rw [hcm] at hfc
    rcases hc with ⟨-, -, hle, -⟩ | ⟨-, -, -, x, hx, -, -, hE', -⟩ | ⟨-, -, -, -, -, ⟨x, hx, hlt⟩, -⟩
    · linarith
    · obtain rfl := firstConverged_unique hx hfc
      rw [r1, hE']
      have hsm : (2 : ℝ) > suSmall := by norm_num [suSmall]
      rw [if_pos hsm, pressed_dev]
      have hKd : dpSlip.K = bulk 1 0 := rfl
      have hGd : dpSlip.G = shear 1 0 := rfl
      funext k
      simp only [dpElastic, soid6_eq, hKd, hGd]
      fin_cases k <;> norm_num [one6, dpSlip, shear, bulk]
    · obtain rfl := firstConverged_unique hx hfc
      norm_num [shear] at hlt
  have hinc : increment3D .solid (pressedInc 0 - pressedInc 1) = ![1, 1, 1, 0, 0, 0] := by
    funext k
    fin_cases k <;>
      simp [increment3D, to3D, mf, kel6, pressedInc, shearInc, hydroInc, ci, cj, kf]
  have e1 : energyNorm dpSlip.E dpSlip.v (increment3D .solid (pressedInc 0 - pressedInc 1)) = √3 := by
    rw [hinc, energyNorm, hE, hv]
    congr 1
    simp [inner6, Fin.sum_univ_six, hooke6, lame, shear, one6, tr6]
    norm_num
  have e2 : stateDistance dpSlip.E dpSlip.v 0 s.toVMState t.toVMState = √(112500 / 22801) := by
    rw [stateDistance, hse, hte, hE, hv]
    congr 1
    simp [inner6, Fin.sum_univ_six, hooke6, lame, shear, one6, tr6]
    ring_nf
    rw [hr2]
    norm_num
  rw [e1, e2]
  refine Real.lt_sqrt_of_sq_lt ?_
  rw [mul_pow, Real.sq_sqrt (by norm_num)]
  norm_num

/-! ### Concrete cases -/

/-- Two histories of a material with associated flow: shear and the same with a hydrostatic disturbance. -/
example : ∃ s t, [shearInc 3, hydroInc 3].foldl (dpStep .solid dpOne (linearHardening 1 1))
      (.good (dpInit .solid)) = .good s ∧
    [shearInc 3, hydroInc 3.1].foldl (dpStep .solid dpOne (linearHardening 1 1))
      (.good (dpInit .solid)) = .good t ∧ (dpInit .solid).acc ≤ s.acc ∧ (dpInit .solid).acc ≤ t.acc ∧
    stateDistance dpOne.E dpOne.v 1 s.toVMState t.toVMState ≤
      stateDistance dpOne.E dpOne.v 1 (dpInit .solid).toVMState (dpInit .solid).toVMState +
      historyDistance (p := .solid) dpOne.E dpOne.v [shearInc 3, hydroInc 3] [shearInc 3, hydroInc 3.1] +
      2 * (1e-6 * ((1 + 1 * s.acc) + (1 + 1 * t.acc)) /
        √(bulk dpOne.E dpOne.v * dpOne.etay ^ 2 + dpOne.xi ^ 2 * 1) + 2 * (1e-8 / √(shear dpOne.E dpOne.v))) :=
  C143_history_drucker_prager (p := .solid) frictional_one rfl zero_le_one (by norm_num)
    [shearInc 3, hydroInc 3] [shearInc 3, hydroInc 3.1] rfl (dpInit .solid) (dpInit .solid) le_rfl le_rfl

end Hooke
