import Verif.Model.YieldConvexity
import Verif.Spec.YieldConvexity
import Verif.Props.LouStress
import Verif.Props.ConvexityMapping
import Mathlib.Topology.Algebra.Order.Field
import Mathlib.Analysis.Convex.Deriv
import Mathlib.Analysis.Calculus.Deriv.Mul
import Mathlib.Analysis.Calculus.Deriv.Pow
import Mathlib.Analysis.SpecialFunctions.Pow.Continuity
import Mathlib.Topology.Order.LeftRightNhds

/-!
# C92: convexity check of the yield surface
-/

noncomputable section

namespace Hooke

open Spec

/-! ### Coordinates in the deviatoric plane -/

def devX (s : Fin 3 → ℝ) : ℝ := (2 * s 0 - s 1 - s 2) / (2 * √3)
def devY (s : Fin 3 → ℝ) : ℝ := (s 1 - s 2) / 2

/-- `J2³ - c J3²` in the coordinates, with `κ = 4 c / 27`. -/
def polyXY (κ x y : ℝ) : ℝ := (x ^ 2 + y ^ 2) ^ 3 - κ * (x ^ 3 - 3 * x * y ^ 2) ^ 2

theorem principal_isSym (s : Fin 3 → ℝ) : IsSym (principal s) := by
  intro i j
  simp only [principal]
  by_cases h : i = j
  · subst h; rfl
  · rw [if_neg h, if_neg (Ne.symm h)]

theorem sq3 : √(3 : ℝ) ^ 2 = 3 := Real.sq_sqrt (by norm_num)

theorem sq3_pos : 0 < √(3 : ℝ) := by positivity

theorem devX_mul (s : Fin 3 → ℝ) : devX s * √3 = (2 * s 0 - s 1 - s 2) / 2 := by
  have := sq3_pos
  unfold devX
  field_simp

theorem devX_sq (s : Fin 3 → ℝ) : devX s ^ 2 = (2 * s 0 - s 1 - s 2) ^ 2 / 12 := by
  unfold devX
  rw [div_pow, mul_pow, sq3]
  norm_num

theorem devJ_principal (s : Fin 3 → ℝ) : devJ2 (principal s) = devX s ^ 2 + devY s ^ 2 ∧
    devJ3 (principal s) * (3 * √3) = 2 * (devX s ^ 3 - 3 * devX s * devY s ^ 2) := by
  constructor
  · rw [devX_sq]
    simp only [devJ2, deviator, trace, principal, devY, Fin.sum_univ_three]
    simp
    ring
  · have h : devX s ^ 3 - 3 * devX s * devY s ^ 2 = devX s * (devX s ^ 2 - 3 * devY s ^ 2) := by ring
    have h2 := sq3
    have h1 : devJ3 (principal s) * 3 * √3 * √3 = 2 * (devX s * √3) * (devX s ^ 2 - 3 * devY s ^ 2) := by
      rw [devX_mul, devX_sq, mul_assoc _ √3, ← pow_two, h2]
      simp only [devJ3, deviator, trace, principal, devY, Fin.sum_univ_three, Matrix.det_fin_three,
        Matrix.of_apply]
      simp
      ring
    rw [h]
    have h3 : √(3 : ℝ) ≠ 0 := sq3_pos.ne'
    refine mul_right_cancel₀ h3 ?_
    linear_combination h1

theorem poly_principal (c : ℝ) (s : Fin 3 → ℝ) :
    devJ2 (principal s) ^ 3 - c * devJ3 (principal s) ^ 2 = polyXY (4 * c / 27) (devX s) (devY s) := by
  obtain ⟨h2, h3⟩ := devJ_principal s
  have h4 : devJ3 (principal s) ^ 2 * 27 = 4 * (devX s ^ 3 - 3 * devX s * devY s ^ 2) ^ 2 := by
    have : (devJ3 (principal s) * (3 * √3)) ^ 2 = devJ3 (principal s) ^ 2 * 27 := by
      rw [mul_pow, mul_pow, sq3]; norm_num
    rw [← this, h3]; ring
  rw [h2, polyXY]
  linear_combination (-c / 27) * h4

theorem cbrt_le_one {u : ℝ} (hu : 0 ≤ u) : u ^ (1 / 3 : ℝ) ≤ 1 ↔ u ≤ 1 := by
  constructor
  · intro h
    by_contra hc
    exact absurd h (not_le.mpr (Real.one_lt_rpow (not_le.mp hc) (by norm_num)))
  · intro h
    exact Real.rpow_le_one hu h (by norm_num)

/-- Domain for `d = 0`. -/
theorem mem_drucker (c : ℝ) (s : Fin 3 → ℝ) : s ∈ yieldDomain c 0 ↔
    0 ≤ polyXY (4 * c / 27) (devX s) (devY s) ∧ polyXY (4 * c / 27) (devX s) (devY s) ≤ 1 := by
  unfold yieldDomain LzyDefined lzyStress
  simp only [Set.mem_setOf_eq, zero_mul, sub_zero, zero_add, one_mul, poly_principal]
  rw [cbrt_le_one (Real.sqrt_nonneg _), Real.sqrt_le_one]
  constructor
  · rintro ⟨⟨h1, -⟩, h2⟩; exact ⟨h1, h2⟩
  · rintro ⟨h1, h2⟩; exact ⟨⟨h1, Real.sqrt_nonneg _⟩, h2⟩

/-! ### The polynomial -/

/-- Second directional derivative is nonnegative at the two ends of the range. -/
theorem quad_nonneg (x y u w : ℝ) :
    0 ≤ (20 * x ^ 4 + 60 * x ^ 2 * y ^ 2) * u ^ 2 + 2 * (40 * x ^ 3 * y) * (u * w) +
      (10 * x ^ 4 + 30 * y ^ 4) * w ^ 2 := by
  by_cases hx : x = 0
  · subst hx
    have : 0 ≤ 30 * y ^ 4 * w ^ 2 := by positivity
    nlinarith
  · set A := 20 * x ^ 4 + 60 * x ^ 2 * y ^ 2 with hA
    have hApos : 0 < A := by
      have : 0 < x ^ 4 := by positivity
      have : 0 ≤ x ^ 2 * y ^ 2 := by positivity
      rw [hA]; linarith
    have h : A * (A * u ^ 2 + 2 * (40 * x ^ 3 * y) * (u * w) + (10 * x ^ 4 + 30 * y ^ 4) * w ^ 2) =
        (A * u + 40 * x ^ 3 * y * w) ^ 2 +
          200 * x ^ 2 * (x ^ 2 - 3 * y ^ 2) ^ 2 * (x ^ 2 + y ^ 2) * w ^ 2 := by
      rw [hA]; ring
    have h2 : 0 ≤ A * (A * u ^ 2 + 2 * (40 * x ^ 3 * y) * (u * w) +
        (10 * x ^ 4 + 30 * y ^ 4) * w ^ 2) := by rw [h]; positivity
    exact nonneg_of_mul_nonneg_right h2 hApos

/-- The extreme polynomial. -/
def extremePoly (x y : ℝ) : ℝ := 2 / 3 * x ^ 6 + 5 * x ^ 4 * y ^ 2 + y ^ 6

theorem extremePoly_mid (x y u w : ℝ) :
    2 * extremePoly x y + 2 * extremePoly u w ≤
      extremePoly (x + u) (y + w) + extremePoly (x - u) (y - w) := by
  have h1 := quad_nonneg x y u w
  have h2 := quad_nonneg u w x y
  have h : extremePoly (x + u) (y + w) + extremePoly (x - u) (y - w) =
      2 * extremePoly x y + 2 * extremePoly u w +
      ((20 * x ^ 4 + 60 * x ^ 2 * y ^ 2) * u ^ 2 + 2 * (40 * x ^ 3 * y) * (u * w) +
        (10 * x ^ 4 + 30 * y ^ 4) * w ^ 2) +
      ((20 * u ^ 4 + 60 * u ^ 2 * w ^ 2) * x ^ 2 + 2 * (40 * u ^ 3 * w) * (x * y) +
        (10 * u ^ 4 + 30 * w ^ 4) * y ^ 2) := by
    unfold extremePoly; ring
  rw [h]; linarith

theorem polyXY_upper (x y : ℝ) : polyXY (1 / 3) x y = extremePoly x y := by
  unfold polyXY extremePoly; ring

theorem polyXY_lower (x y : ℝ) : polyXY (-1 / 2) x y = 3 / 2 * extremePoly y x := by
  unfold polyXY extremePoly; ring

/-- The polynomial is a combination of the two extreme ones. -/
theorem polyXY_comb (κ x y : ℝ) :
    polyXY κ x y = (6 / 5 * κ + 3 / 5) * polyXY (1 / 3) x y + (2 / 5 - 6 / 5 * κ) * polyXY (-1 / 2) x y := by
  unfold polyXY; ring

theorem extremePoly_nonneg (x y : ℝ) : 0 ≤ extremePoly x y := by unfold extremePoly; positivity

theorem polyXY_nonneg {κ : ℝ} (h1 : -1 / 2 ≤ κ) (h2 : κ ≤ 1 / 3) (x y : ℝ) : 0 ≤ polyXY κ x y := by
  rw [polyXY_comb, polyXY_upper, polyXY_lower]
  have := extremePoly_nonneg x y
  have := extremePoly_nonneg y x
  have : 0 ≤ 6 / 5 * κ + 3 / 5 := by linarith
  have : 0 ≤ 2 / 5 - 6 / 5 * κ := by linarith
  positivity

theorem polyXY_mid {κ : ℝ} (h1 : -1 / 2 ≤ κ) (h2 : κ ≤ 1 / 3) (x y u w : ℝ) :
    2 * polyXY κ x y + 2 * polyXY κ u w ≤ polyXY κ (x + u) (y + w) + polyXY κ (x - u) (y - w) := by
  rw [polyXY_comb κ x y, polyXY_comb κ u w, polyXY_comb κ (x + u), polyXY_comb κ (x - u)]
  simp only [polyXY_upper, polyXY_lower]
  have e1 := extremePoly_mid x y u w
  have e2 := extremePoly_mid y x w u
  have h3 : 0 ≤ 6 / 5 * κ + 3 / 5 := by linarith
  have h4 : 0 ≤ 2 / 5 - 6 / 5 * κ := by linarith
  nlinarith [mul_le_mul_of_nonneg_left e1 h3, mul_le_mul_of_nonneg_left e2 h4]

theorem polyXY_hom (κ l x y : ℝ) : polyXY κ (l * x) (l * y) = l ^ 6 * polyXY κ x y := by
  unfold polyXY; ring

/-! ### Convexity of the domain for `d = 0` -/

theorem extremePoly_line (x y u w : ℝ) :
    ConvexOn ℝ Set.univ fun t => extremePoly (x + t * u) (y + t * w) := by
  have hx : ∀ t : ℝ, HasDerivAt (fun t => x + t * u) u t := fun t => by
    simpa using ((hasDerivAt_id t).mul_const u).const_add x
  have hy : ∀ t : ℝ, HasDerivAt (fun t => y + t * w) w t := fun t => by
    simpa using ((hasDerivAt_id t).mul_const w).const_add y
  set X : ℝ → ℝ := fun t => x + t * u with hX
  set Y : ℝ → ℝ := fun t => y + t * w with hY
  have h1 : ∀ t, HasDerivAt (fun t => extremePoly (X t) (Y t))
      ((4 * X t ^ 5 + 20 * X t ^ 3 * Y t ^ 2) * u + (10 * X t ^ 4 * Y t + 6 * Y t ^ 5) * w) t := by
    intro t
    have e := ((((hx t).pow 6).const_mul (2 / 3)).add
      ((((hx t).pow 4).const_mul 5).mul ((hy t).pow 2))).add ((hy t).pow 6)
    refine (e.congr_deriv ?_)
    simp only [hX, hY, Pi.pow_apply]
    push_cast
    ring
  have h2 : ∀ t, HasDerivAt (fun t => (4 * X t ^ 5 + 20 * X t ^ 3 * Y t ^ 2) * u +
        (10 * X t ^ 4 * Y t + 6 * Y t ^ 5) * w)
      ((20 * X t ^ 4 + 60 * X t ^ 2 * Y t ^ 2) * u ^ 2 + 2 * (40 * X t ^ 3 * Y t) * (u * w) +
      (10 * X t ^ 4 + 30 * Y t ^ 4) * w ^ 2) t := by
    intro t
    have e := (((((hx t).pow 5).const_mul 4).add
      ((((hx t).pow 3).const_mul 20).mul ((hy t).pow 2))).mul_const u).add
      ((((((hx t).pow 4).const_mul 10).mul (hy t)).add (((hy t).pow 5).const_mul 6)).mul_const w)
    refine (e.congr_deriv ?_)
    simp only [hX, hY, Pi.pow_apply]
    push_cast
    ring
  refine convexOn_of_hasDerivWithinAt2_nonneg convex_univ
    (fun t _ => (h1 t).continuousAt.continuousWithinAt)
    (fun t _ => (h1 t).hasDerivWithinAt) (fun t _ => (h2 t).hasDerivWithinAt)
    (fun t _ => quad_nonneg (X t) (Y t) u w)

theorem extremePoly_jensen (x y x' y' : ℝ) {a b : ℝ} (ha : 0 ≤ a) (hb : 0 ≤ b) (hab : a + b = 1) :
    extremePoly (a * x + b * x') (a * y + b * y') ≤ a * extremePoly x y + b * extremePoly x' y' := by
  have h := (extremePoly_line x y (x' - x) (y' - y)).2 (Set.mem_univ 0) (Set.mem_univ 1) ha hb hab
  simp only [smul_eq_mul, mul_zero, mul_one, zero_add, zero_mul, add_zero, one_mul,
    add_sub_cancel] at h
  have ea : a = 1 - b := by linarith
  have e1 : a * x + b * x' = x + b * (x' - x) := by rw [ea]; ring
  have e2 : a * y + b * y' = y + b * (y' - y) := by rw [ea]; ring
  rw [e1, e2]
  exact h

theorem polyXY_jensen {κ : ℝ} (h1 : -1 / 2 ≤ κ) (h2 : κ ≤ 1 / 3) (x y x' y' : ℝ) {a b : ℝ}
    (ha : 0 ≤ a) (hb : 0 ≤ b) (hab : a + b = 1) :
    polyXY κ (a * x + b * x') (a * y + b * y') ≤ a * polyXY κ x y + b * polyXY κ x' y' := by
  rw [polyXY_comb κ x y, polyXY_comb κ x' y', polyXY_comb κ (a * x + b * x')]
  simp only [polyXY_upper, polyXY_lower]
  have e1 := extremePoly_jensen x y x' y' ha hb hab
  have e2 := extremePoly_jensen y x y' x' ha hb hab
  have h3 : 0 ≤ 6 / 5 * κ + 3 / 5 := by linarith
  have h4 : 0 ≤ 2 / 5 - 6 / 5 * κ := by linarith
  nlinarith [mul_le_mul_of_nonneg_left e1 h3, mul_le_mul_of_nonneg_left e2 h4]

theorem devXY_lin (s t : Fin 3 → ℝ) (a b : ℝ) :
    devX (a • s + b • t) = a * devX s + b * devX t ∧ devY (a • s + b • t) = a * devY s + b * devY t := by
  constructor
  · simp only [devX, Pi.add_apply, Pi.smul_apply, smul_eq_mul]; ring
  · simp only [devY, Pi.add_apply, Pi.smul_apply, smul_eq_mul]; ring

theorem drucker_convex {c : ℝ} (h1 : -27 / 8 ≤ c) (h2 : c ≤ 9 / 4) : Convex ℝ (yieldDomain c 0) := by
  have k1 : -1 / 2 ≤ 4 * c / 27 := by linarith
  have k2 : 4 * c / 27 ≤ 1 / 3 := by linarith
  intro s hs t ht a b ha hb hab
  rw [mem_drucker] at hs ht ⊢
  rw [(devXY_lin s t a b).1, (devXY_lin s t a b).2]
  refine ⟨polyXY_nonneg k1 k2 _ _, (polyXY_jensen k1 k2 _ _ _ _ ha hb hab).trans ?_⟩
  nlinarith [mul_le_mul_of_nonneg_left hs.2 ha, mul_le_mul_of_nonneg_left ht.2 hb]

/-- Principal stresses with given coordinates. -/
def ofXY (x y : ℝ) : Fin 3 → ℝ := ![2 * x / √3, y - x / √3, -y - x / √3]

theorem devXY_ofXY (x y : ℝ) : devX (ofXY x y) = x ∧ devY (ofXY x y) = y := by
  have h := sq3_pos
  have h2 := sq3
  constructor
  · simp only [devX, ofXY, Matrix.cons_val_zero, Matrix.cons_val_one, Matrix.cons_val]
    field_simp
    rw [h2]
    ring
  · simp only [devY, ofXY, Matrix.cons_val_one, Matrix.cons_val]
    ring

/-- Two points of the plane with the same value below that of their midpoint. -/
theorem not_convex_of {c x y u w A : ℝ} (h1 : polyXY (4 * c / 27) (x + u) (y + w) = A)
    (h2 : polyXY (4 * c / 27) (x - u) (y - w) = A) (h0 : 0 ≤ A)
    (h3 : A < polyXY (4 * c / 27) x y) : ¬ Convex ℝ (yieldDomain c 0) := by
  intro hc
  set κ := 4 * c / 27 with hκ
  set B := polyXY κ x y with hB
  set l : ℝ := ((A + B) / 2) ^ (-(1 / 6) : ℝ) with hl
  have hAB : 0 < (A + B) / 2 := by linarith
  have hl6 : l ^ 6 * ((A + B) / 2) = 1 := by
    rw [hl, ← Real.rpow_natCast, ← Real.rpow_mul hAB.le]
    norm_num
    rw [Real.rpow_neg_one]
    exact inv_mul_cancel₀ hAB.ne'
  have hlpos : 0 < l ^ 6 := by
    have : 0 < l := Real.rpow_pos_of_pos hAB _
    positivity
  have mem : ∀ {x' y'}, polyXY κ x' y' = A → ofXY (l * x') (l * y') ∈ yieldDomain c 0 := by
    intro x' y' h
    rw [mem_drucker, (devXY_ofXY _ _).1, (devXY_ofXY _ _).2, ← hκ, polyXY_hom, h]
    exact ⟨by positivity, by nlinarith⟩
  have hm := hc (mem h1) (mem h2) (by norm_num : (0 : ℝ) ≤ 1 / 2) (by norm_num : (0 : ℝ) ≤ 1 / 2)
    (by norm_num)
  rw [mem_drucker, (devXY_lin _ _ _ _).1, (devXY_lin _ _ _ _).2, (devXY_ofXY _ _).1,
    (devXY_ofXY _ _).1, (devXY_ofXY _ _).2, (devXY_ofXY _ _).2, ← hκ] at hm
  have e1 : 1 / 2 * (l * (x + u)) + 1 / 2 * (l * (x - u)) = l * x := by ring
  have e2 : 1 / 2 * (l * (y + w)) + 1 / 2 * (l * (y - w)) = l * y := by ring
  rw [e1, e2, polyXY_hom, ← hB] at hm
  nlinarith [hm.2]

theorem small_cubic {α : ℝ} (h : 0 < α) (β γ : ℝ) : ∃ q : ℝ, 0 < q ∧ q ≤ 1 ∧ α * q < 1 ∧
    -α * q + β * q ^ 2 + γ * q ^ 3 < 0 := by
  set D := α ^ 2 + |β| + |γ| + 1 + α with hD
  have hb := abs_nonneg β
  have hg := abs_nonneg γ
  have hDpos : 0 < D := by positivity
  have e : α / D * D = α := div_mul_cancel₀ _ hDpos.ne'
  have hq0 : 0 < α / D := by positivity
  generalize α / D = q at e hq0
  have hq1 : q ≤ 1 := by
    by_contra hc
    push Not at hc
    nlinarith [mul_pos (sub_pos.mpr hc) hDpos, sq_nonneg α]
  have h1 : β * q ≤ |β| * q := mul_le_mul_of_nonneg_right (le_abs_self β) hq0.le
  have h2 : γ * q ^ 2 ≤ |γ| * q := by
    have : γ * q ^ 2 ≤ |γ| * q ^ 2 := mul_le_mul_of_nonneg_right (le_abs_self γ) (sq_nonneg q)
    nlinarith [mul_le_mul_of_nonneg_left hq1 (mul_nonneg hg hq0.le)]
  have h3 : (|β| + |γ|) * q < α := by nlinarith [sq_nonneg α, mul_pos hq0 (show (0 : ℝ) < α ^ 2 + 1 + α by positivity)]
  refine ⟨q, hq0, hq1, ?_, ?_⟩
  · by_contra hc
    push Not at hc
    have h4 : α ^ 2 * q + (|β| + |γ| + 1 + α) * q = α := by rw [hD] at e; linarith
    have h5 : 0 < (|β| + |γ| + 1 + α) * q := by positivity
    nlinarith
  · have h4 : -α + β * q + γ * q ^ 2 < 0 := by nlinarith
    have h5 := mul_neg_of_neg_of_pos h4 hq0
    linarith [show (-α + β * q + γ * q ^ 2) * q = -α * q + β * q ^ 2 + γ * q ^ 3 by ring]

theorem drucker_not_convex {c : ℝ} (h : c < -27 / 8 ∨ 9 / 4 < c) : ¬ Convex ℝ (yieldDomain c 0) := by
  rcases h with h | h
  · -- points `(1, ±t)`
    set κ := 4 * c / 27 with hκ
    have hk : κ < -1 / 2 := by rw [hκ]; linarith
    obtain ⟨q, hq0, hq1, -, hq⟩ := small_cubic (α := -(3 + 6 * κ)) (by linarith) (3 - 9 * κ) 1
    have hs : √q ^ 2 = q := Real.sq_sqrt hq0.le
    have e : polyXY κ 1 (√q) = 1 - κ + ((3 + 6 * κ) * q + (3 - 9 * κ) * q ^ 2 + q ^ 3) := by
      unfold polyXY; rw [hs]; ring
    have e0 : polyXY κ 1 0 = 1 - κ := by unfold polyXY; ring
    refine not_convex_of (c := c) (x := 1) (y := 0) (u := 0) (w := √q) (A := polyXY κ 1 (√q))
      (by rw [add_zero, zero_add]) ?_ ?_ ?_
    · rw [← hκ, sub_zero, zero_sub]; unfold polyXY; ring
    · unfold polyXY
      have : 0 ≤ -κ * (1 ^ 3 - 3 * 1 * √q ^ 2) ^ 2 := mul_nonneg (by linarith) (sq_nonneg _)
      have : (0 : ℝ) ≤ (1 ^ 2 + √q ^ 2) ^ 3 := by positivity
      linarith
    · rw [← hκ, e, e0]; linarith
  · -- points `(±t, 1)`
    set κ := 4 * c / 27 with hκ
    have hk : 1 / 3 < κ := by rw [hκ]; linarith
    obtain ⟨q, hq0, hq1, hq2, hq⟩ := small_cubic (α := 9 * κ - 3) (by linarith) (3 + 6 * κ) (1 - κ)
    have hs : √q ^ 2 = q := Real.sq_sqrt hq0.le
    have e : polyXY κ (√q) 1 = 1 + (-(9 * κ - 3) * q + (3 + 6 * κ) * q ^ 2 + (1 - κ) * q ^ 3) := by
      have : polyXY κ (√q) 1 = (√q ^ 2 + 1) ^ 3 - κ * (√q ^ 2 * (√q ^ 2 - 3) ^ 2) := by
        unfold polyXY; ring
      rw [this, hs]; ring
    have e0 : polyXY κ 0 1 = 1 := by unfold polyXY; ring
    refine not_convex_of (c := c) (x := 0) (y := 1) (u := √q) (w := 0) (A := polyXY κ (√q) 1)
      (by rw [add_zero, zero_add]) ?_ ?_ ?_
    · rw [← hκ, sub_zero, zero_sub]; unfold polyXY; ring
    · rw [e]
      have h6 : 0 ≤ (3 + 6 * κ) * q ^ 2 + (1 - κ) * q ^ 3 := by
        have : 0 ≤ (3 + 6 * κ) + (1 - κ) * q := by nlinarith
        have := mul_nonneg (sq_nonneg q) this
        nlinarith
      linarith
    · rw [← hκ, e, e0]; linarith

/-- The domain of the Drucker criterion (`d = 0`) is convex exactly for `-27/8 ≤ c ≤ 9/4`. -/
theorem C92_drucker_convex (c : ℝ) :
    Convex ℝ (yieldDomain c 0) ↔ -27 / 8 ≤ c ∧ c ≤ 9 / 4 := by
  constructor
  · intro h
    by_contra hc
    exact drucker_not_convex (by
      by_cases h1 : -27 / 8 ≤ c
      · exact Or.inr (not_le.mp fun h2 => hc ⟨h1, h2⟩)
      · exact Or.inl (not_le.mp h1)) h
  · rintro ⟨h1, h2⟩
    exact drucker_convex h1 h2

/-! ### The check -/

/-- Principal stresses of the sampled state. -/
def lodeVec (lode : ℝ) : Fin 3 → ℝ :=
  ![2 / 3 * Real.cos lode, 2 / 3 * Real.cos (2 * Real.pi / 3 - lode),
    2 / 3 * Real.cos (4 * Real.pi / 3 - lode)]

theorem lodeStress_eq (l : ℝ) : lodeStress l = principal (lodeVec l) := rfl

theorem cos_two_pi_thirds : Real.cos (2 * Real.pi / 3) = -1 / 2 ∧ Real.sin (2 * Real.pi / 3) = √3 / 2 := by
  have e : 2 * Real.pi / 3 = Real.pi - Real.pi / 3 := by ring
  rw [e, Real.cos_pi_sub, Real.sin_pi_sub, Real.cos_pi_div_three, Real.sin_pi_div_three]
  exact ⟨by norm_num, rfl⟩

theorem cos_four_pi_thirds : Real.cos (4 * Real.pi / 3) = -1 / 2 ∧ Real.sin (4 * Real.pi / 3) = -(√3 / 2) := by
  have e : 4 * Real.pi / 3 = Real.pi / 3 + Real.pi := by ring
  rw [e, Real.cos_add_pi, Real.sin_add_pi, Real.cos_pi_div_three, Real.sin_pi_div_three]
  exact ⟨by norm_num, rfl⟩

theorem lodeVec_val (l : ℝ) : lodeVec l 0 = 2 / 3 * Real.cos l ∧
    lodeVec l 1 = 2 / 3 * (-1 / 2 * Real.cos l + √3 / 2 * Real.sin l) ∧
    lodeVec l 2 = 2 / 3 * (-1 / 2 * Real.cos l - √3 / 2 * Real.sin l) := by
  refine ⟨rfl, ?_, ?_⟩
  · show 2 / 3 * Real.cos (2 * Real.pi / 3 - l) = _
    rw [Real.cos_sub, cos_two_pi_thirds.1, cos_two_pi_thirds.2]
  · show 2 / 3 * Real.cos (4 * Real.pi / 3 - l) = _
    rw [Real.cos_sub, cos_four_pi_thirds.1, cos_four_pi_thirds.2]
    ring

theorem lodeVec_trace (l : ℝ) : lodeVec l 0 + lodeVec l 1 + lodeVec l 2 = 0 := by
  obtain ⟨h0, h1, h2⟩ := lodeVec_val l
  rw [h0, h1, h2]; ring

theorem lodeVec_xy (l : ℝ) : devX (lodeVec l) = Real.cos l / √3 ∧ devY (lodeVec l) = Real.sin l / √3 := by
  obtain ⟨h0, h1, h2⟩ := lodeVec_val l
  have h := sq3_pos
  have h3 := sq3
  constructor
  · rw [devX, h0, h1, h2]
    field_simp
    ring
  · rw [devY, h1, h2]
    field_simp
    linear_combination (2 * Real.sin l) * h3

theorem lodeVec_not_hydrostatic (l : ℝ) : ¬ (lodeVec l 0 = lodeVec l 1 ∧ lodeVec l 1 = lodeVec l 2) := by
  rintro ⟨ha, hb⟩
  have hx : devX (lodeVec l) = 0 := by rw [devX, ← hb, ← ha]; ring
  have hy : devY (lodeVec l) = 0 := by rw [devY, ← hb]; ring
  rw [(lodeVec_xy l).1, div_eq_zero_iff] at hx
  rw [(lodeVec_xy l).2, div_eq_zero_iff] at hy
  have h3 := sq3_pos.ne'
  have hc : Real.cos l = 0 := hx.resolve_right h3
  have hs : Real.sin l = 0 := hy.resolve_right h3
  have := Real.sin_sq_add_cos_sq l
  rw [hc, hs] at this
  norm_num at this

open Classical in
/-- The function on traceless principal stresses. -/
theorem convexityFunction_principal {s : Fin 3 → ℝ} (h : s 0 + s 1 + s 2 = 0) (c d : ℝ) :
    convexityFunction (principal s) c d =
      if LzyDefined c d (principal s) then some (lzyStress 1 0 c d (principal s)) else none := by
  have ht : trace (principal s) = 0 := by
    simp only [trace, principal, Fin.sum_univ_three]; simpa using h
  have hdev : deviator (principal s) = principal s := by
    funext i j
    simp only [deviator, ht]
    simp
  have hj2 : (0.5 * ∑ i : Fin 3, ∑ j : Fin 3, principal s i j * principal s i j : ℝ) =
      devJ2 (principal s) := by
    rw [devJ2, hdev]
    simp only [Fin.sum_univ_three]
    ring
  have hj3 : Matrix.det (Matrix.of (principal s)) = devJ3 (principal s) := by rw [devJ3, hdev]
  simp only [convexityFunction, hj2, hj3]
  unfold LzyDefined lzyStress
  set A := devJ2 (principal s) ^ 3 - c * devJ3 (principal s) ^ 2 with hA
  by_cases h1 : 0 ≤ A
  · rw [fpow_of_pos h1 (by norm_num), Option.bind_some, ← Real.sqrt_eq_rpow]
    by_cases h2 : 0 ≤ √A - d * devJ3 (principal s)
    · rw [fpow_of_pos h2 (by norm_num), if_pos ⟨h1, h2⟩, zero_mul, zero_add, one_mul]
    · rw [fpow, if_pos (Or.inl (not_le.mp h2)), if_neg fun h => h2 h.2]
  · rw [fpow, if_pos (Or.inl (not_le.mp h1)), Option.bind_none, if_neg fun h => h1 h.1]

theorem lzy_smul {t : T2 3} (h : IsSym t) {k : ℝ} (hk : 0 < k) {c d : ℝ} (hd : LzyDefined c d t) :
    LzyDefined c d (k • t) ∧ lzyStress 1 0 c d (k • t) = k * lzyStress 1 0 c d t := by
  have hs : IsSym (k • t) := fun i j => by simp [h i j]
  have e := C88_homogeneous h hk 1 0 c d
  rw [(C88_effective h _ _ _ _).1 hd, Option.map_some] at e
  by_cases hd' : LzyDefined c d (k • t)
  · rw [(C88_effective hs _ _ _ _).1 hd', Option.some_inj] at e
    exact ⟨hd', e⟩
  · rw [(C88_effective hs _ _ _ _).2 hd'] at e
    exact absurd e (by simp)

theorem principal_smul (k : ℝ) (s : Fin 3 → ℝ) : principal (k • s) = k • principal s := by
  funext i j
  simp only [principal, Pi.smul_apply, smul_eq_mul]
  split_ifs <;> simp

/-- A sampled state scaled to the surface. -/
theorem scaleToSurface_lode {c d : ℝ} {s : Fin 3 → ℝ} (h0 : s 0 + s 1 + s 2 = 0)
    (hd : LzyDefined c d (principal s)) (hp : 0 < lzyStress 1 0 c d (principal s)) :
    scaleToSurface (principal s) c d =
      some (principal ((lzyStress 1 0 c d (principal s))⁻¹ • s)) := by
  classical
  rw [scaleToSurface, convexityFunction_principal h0, if_pos hd, Option.bind_some, if_neg hp.ne']
  congr 1
  funext i j
  simp only [principal, Pi.smul_apply, smul_eq_mul]
  split_ifs
  · rw [div_eq_inv_mul]
  · rw [zero_div]

/-- Midpoint of the chord the check evaluates. -/
def chordMid (lode c d : ℝ) : Fin 3 → ℝ :=
  (1 / 2 : ℝ) • ((lzyStress 1 0 c d (principal (lodeVec lode)))⁻¹ • lodeVec lode) +
    (1 / 2 : ℝ) • ((lzyStress 1 0 c d (principal (lodeVec (lode + lodeSmall))))⁻¹ •
      lodeVec (lode + lodeSmall))

open Classical in
theorem evaluate_eq {c d : ℝ} (hp : YieldPositive c d) (l : ℝ) : evaluateConvexityLode l c d =
    if LzyDefined c d (principal (chordMid l c d)) then
      some (lzyStress 1 0 c d (principal (chordMid l c d))) else none := by
  obtain ⟨d1, p1⟩ := hp _ (lodeVec_not_hydrostatic l)
  obtain ⟨d2, p2⟩ := hp _ (lodeVec_not_hydrostatic (l + lodeSmall))
  rw [evaluateConvexityLode, lodeStress_eq, lodeStress_eq, scaleToSurface_lode (lodeVec_trace _) d1 p1,
    scaleToSurface_lode (lodeVec_trace _) d2 p2, Option.bind_some, Option.bind_some]
  have e : (fun i j => (principal ((lzyStress 1 0 c d (principal (lodeVec l)))⁻¹ • lodeVec l) i j +
      principal ((lzyStress 1 0 c d (principal (lodeVec (l + lodeSmall))))⁻¹ •
        lodeVec (l + lodeSmall)) i j) / 2) = principal (chordMid l c d) := by
    funext i j
    simp only [principal, chordMid, Pi.add_apply, Pi.smul_apply, smul_eq_mul]
    split_ifs
    · ring
    · norm_num
  have h0 : chordMid l c d 0 + chordMid l c d 1 + chordMid l c d 2 = 0 := by
    have h1 := lodeVec_trace l
    have h2 := lodeVec_trace (l + lodeSmall)
    simp only [chordMid, Pi.add_apply, Pi.smul_apply, smul_eq_mul]
    linear_combination (1 / 2 * (lzyStress 1 0 c d (principal (lodeVec l)))⁻¹) * h1 +
      (1 / 2 * (lzyStress 1 0 c d (principal (lodeVec (l + lodeSmall))))⁻¹) * h2
  rw [e, convexityFunction_principal h0]

/-- A convex yield surface, defined and positive in all non-hydrostatic stress states, is
accepted. -/
theorem C92_accepts {c d : ℝ} (hp : YieldPositive c d) (hc : Convex ℝ (yieldDomain c d)) :
    checkConvexity c d := by
  classical
  intro k _
  generalize (360 * (k : ℝ) / 999) * Real.pi / 180 = l
  have mem : ∀ l', (lzyStress 1 0 c d (principal (lodeVec l')))⁻¹ • lodeVec l' ∈ yieldDomain c d := by
    intro l'
    obtain ⟨d1, p1⟩ := hp _ (lodeVec_not_hydrostatic l')
    obtain ⟨d2, e2⟩ := lzy_smul (principal_isSym (lodeVec l')) (inv_pos.mpr p1) d1
    rw [← principal_smul] at d2 e2
    refine ⟨d2, ?_⟩
    rw [e2, inv_mul_cancel₀ p1.ne']
  have hm := hc (mem l) (mem (l + lodeSmall)) (by norm_num : (0 : ℝ) ≤ 1 / 2)
    (by norm_num : (0 : ℝ) ≤ 1 / 2) (by norm_num)
  change chordMid l c d ∈ yieldDomain c d at hm
  rw [evaluate_eq hp, if_pos hm.1]
  exact hm.2

/-- A yield surface on which the effective stress under uniaxial tension is undefined is rejected. -/
theorem C92_rejects {c d : ℝ} (h : ¬ LzyDefined c d (uniaxial 1)) : ¬ checkConvexity c d := by
  classical
  intro hc
  have h0 := hc 0 (by norm_num)
  have e0 : (360 * ((0 : ℕ) : ℝ) / 999) * Real.pi / 180 = 0 := by norm_num
  rw [e0] at h0
  obtain ⟨hj2, hj3⟩ := devJ_principal (lodeVec 0)
  obtain ⟨hx, hy⟩ := lodeVec_xy 0
  rw [Real.cos_zero] at hx
  rw [Real.sin_zero, zero_div] at hy
  have h3 := sq3
  have h3p := sq3_pos
  have k2 : devJ2 (principal (lodeVec 0)) = devJ2 (uniaxial 1) := by
    rw [hj2, (uniaxial_inv 1).2.1, hx, hy, div_pow, h3]; norm_num
  have k3 : devJ3 (principal (lodeVec 0)) = devJ3 (uniaxial 1) := by
    rw [(uniaxial_inv 1).2.2]
    rw [hx, hy] at hj3
    have : devJ3 (principal (lodeVec 0)) * (3 * √3) = 2 / 27 * 1 ^ 3 * (3 * √3) := by
      rw [hj3]
      field_simp
      linear_combination (-3) * (√3 ^ 2 + 3) * h3
    exact mul_right_cancel₀ (by positivity) this
  have hn : ¬ LzyDefined c d (principal (lodeVec 0)) := by
    intro hd
    refine h ?_
    unfold LzyDefined at hd ⊢
    rwa [k2, k3] at hd
  rw [evaluateConvexityLode, lodeStress_eq, scaleToSurface,
    convexityFunction_principal (lodeVec_trace 0), if_neg hn] at h0
  exact h0

/-! ### The Drucker criterion -/

theorem cos3_sq_le (x y : ℝ) : (x ^ 3 - 3 * x * y ^ 2) ^ 2 ≤ (x ^ 2 + y ^ 2) ^ 3 := by
  have : (x ^ 2 + y ^ 2) ^ 3 - (x ^ 3 - 3 * x * y ^ 2) ^ 2 = (3 * x ^ 2 * y - y ^ 3) ^ 2 := by ring
  nlinarith [sq_nonneg (3 * x ^ 2 * y - y ^ 3)]

theorem polyXY_pos {κ x y : ℝ} (hk : κ < 1) (h : ¬ (x = 0 ∧ y = 0)) : 0 < polyXY κ x y := by
  have h1 := cos3_sq_le x y
  have h2 : 0 < x ^ 2 + y ^ 2 := by
    rcases not_and_or.mp h with h | h
    · have := sq_nonneg y
      have : 0 < x ^ 2 := by positivity
      linarith
    · have := sq_nonneg x
      have : 0 < y ^ 2 := by positivity
      linarith
  have h3 : 0 < (x ^ 2 + y ^ 2) ^ 3 := by positivity
  have h4 := sq_nonneg (x ^ 3 - 3 * x * y ^ 2)
  unfold polyXY
  by_cases hk0 : 0 ≤ κ
  · nlinarith [mul_le_mul_of_nonneg_left h1 hk0]
  · nlinarith [mul_nonneg (neg_nonneg.mpr (not_le.mp hk0).le) h4]

theorem lzy_drucker (c : ℝ) (s : Fin 3 → ℝ) :
    lzyStress 1 0 c 0 (principal s) = (√(polyXY (4 * c / 27) (devX s) (devY s))) ^ (1 / 3 : ℝ) := by
  unfold lzyStress
  rw [poly_principal, zero_mul, zero_mul, zero_add, sub_zero, one_mul]

theorem hydrostatic_xy (s : Fin 3 → ℝ) : (devX s = 0 ∧ devY s = 0) ↔ (s 0 = s 1 ∧ s 1 = s 2) := by
  have h := sq3_pos
  have hx := devX_mul s
  constructor
  · rintro ⟨h1, h2⟩
    rw [h1, zero_mul] at hx
    rw [devY] at h2
    constructor <;> linarith
  · rintro ⟨h1, h2⟩
    constructor
    · rw [devX, ← h2, ← h1]; ring
    · rw [devY, ← h2]; ring

theorem drucker_positive {c : ℝ} (h : c < 27 / 4) : YieldPositive c 0 := by
  intro s hs
  rw [← hydrostatic_xy] at hs
  have hp := polyXY_pos (κ := 4 * c / 27) (by linarith) hs
  constructor
  · unfold LzyDefined
    rw [poly_principal, zero_mul, sub_zero]
    exact ⟨hp.le, Real.sqrt_nonneg _⟩
  · rw [lzy_drucker]
    have := Real.sqrt_pos.mpr hp
    positivity

/-- The Drucker criterion is accepted for all parameters for which it is convex. -/
theorem C92_drucker_accepted {c : ℝ} (h : Convex ℝ (yieldDomain c 0)) : checkConvexity c 0 :=
  C92_accepts (drucker_positive (by linarith [((C92_drucker_convex c).1 h).2])) h

/-- Points scaled to the surface have the value one. -/
theorem drucker_on_surface {c : ℝ} {s : Fin 3 → ℝ}
    (hp : 0 < polyXY (4 * c / 27) (devX s) (devY s)) :
    polyXY (4 * c / 27) ((lzyStress 1 0 c 0 (principal s))⁻¹ * devX s)
      ((lzyStress 1 0 c 0 (principal s))⁻¹ * devY s) = 1 := by
  rw [polyXY_hom, lzy_drucker]
  set A := polyXY (4 * c / 27) (devX s) (devY s)
  have h : ((√A) ^ (1 / 3 : ℝ)) ^ 6 = A := by
    rw [← Real.rpow_natCast, ← Real.rpow_mul (Real.sqrt_nonneg _)]
    norm_num
    exact Real.sq_sqrt hp.le
  rw [inv_pow, h, inv_mul_cancel₀ hp.ne']

/-- Strict convexity of the extreme domain. -/
theorem extreme_strict {x y x' y' : ℝ} (h1 : extremePoly x y = 1) (h2 : extremePoly x' y' = 1)
    (hne : ¬ (x = x' ∧ y = y')) :
    extremePoly (1 / 2 * x + 1 / 2 * x') (1 / 2 * y + 1 / 2 * y') < 1 := by
  have h := extremePoly_mid (1 / 2 * x + 1 / 2 * x') (1 / 2 * y + 1 / 2 * y')
    (1 / 2 * x - 1 / 2 * x') (1 / 2 * y - 1 / 2 * y')
  rw [show 1 / 2 * x + 1 / 2 * x' + (1 / 2 * x - 1 / 2 * x') = x by ring,
    show 1 / 2 * y + 1 / 2 * y' + (1 / 2 * y - 1 / 2 * y') = y by ring,
    show 1 / 2 * x + 1 / 2 * x' - (1 / 2 * x - 1 / 2 * x') = x' by ring,
    show 1 / 2 * y + 1 / 2 * y' - (1 / 2 * y - 1 / 2 * y') = y' by ring, h1, h2] at h
  have hp : 0 < extremePoly (1 / 2 * x - 1 / 2 * x') (1 / 2 * y - 1 / 2 * y') := by
    rw [← polyXY_upper]
    refine polyXY_pos (by norm_num) fun h => hne ⟨by linarith [h.1], by linarith [h.2]⟩
  linarith

theorem lodeSmall_sin : Real.sin lodeSmall ≠ 0 := by
  have h1 := Real.pi_pos
  refine (Real.sin_pos_of_pos_of_lt_pi ?_ ?_).ne' <;> · unfold lodeSmall; norm_num; linarith

/-- Value the check compares with one, for the Drucker criterion. -/
def druckerChord (l c : ℝ) : ℝ :=
  polyXY (4 * c / 27) (devX (chordMid l c 0)) (devY (chordMid l c 0))

theorem chordMid_xy (l c : ℝ) :
    devX (chordMid l c 0) =
      1 / 2 * ((lzyStress 1 0 c 0 (principal (lodeVec l)))⁻¹ * devX (lodeVec l)) + 1 / 2 *
      ((lzyStress 1 0 c 0 (principal (lodeVec (l + lodeSmall))))⁻¹ * devX (lodeVec (l + lodeSmall))) ∧
    devY (chordMid l c 0) =
      1 / 2 * ((lzyStress 1 0 c 0 (principal (lodeVec l)))⁻¹ * devY (lodeVec l)) + 1 / 2 *
      ((lzyStress 1 0 c 0 (principal (lodeVec (l + lodeSmall))))⁻¹ *
        devY (lodeVec (l + lodeSmall))) := by
  have hs : ∀ (k : ℝ) (s : Fin 3 → ℝ), devX (k • s) = k * devX s ∧ devY (k • s) = k * devY s := by
    intro k s
    constructor
    · simp only [devX, Pi.smul_apply, smul_eq_mul]; ring
    · simp only [devY, Pi.smul_apply, smul_eq_mul]; ring
  rw [chordMid]
  constructor
  · rw [(devXY_lin _ _ _ _).1, (hs _ _).1, (hs _ _).1]
  · rw [(devXY_lin _ _ _ _).2, (hs _ _).2, (hs _ _).2]

theorem lode_poly_pos {c : ℝ} (h : c < 27 / 4) (l : ℝ) :
    0 < polyXY (4 * c / 27) (devX (lodeVec l)) (devY (lodeVec l)) :=
  polyXY_pos (by linarith) fun hh => lodeVec_not_hydrostatic l ((hydrostatic_xy _).1 hh)

theorem druckerChord_strict (l : ℝ) : druckerChord l (9 / 4) < 1 := by
  have hk : (4 : ℝ) * (9 / 4) / 27 = 1 / 3 := by norm_num
  rw [druckerChord, (chordMid_xy l _).1, (chordMid_xy l _).2]
  have e1 := drucker_on_surface (lode_poly_pos (by norm_num : (9 / 4 : ℝ) < 27 / 4) l)
  have e2 := drucker_on_surface (lode_poly_pos (by norm_num : (9 / 4 : ℝ) < 27 / 4) (l + lodeSmall))
  have p1 : 0 < lzyStress 1 0 (9 / 4) 0 (principal (lodeVec l)) :=
    (drucker_positive (by norm_num) _ (lodeVec_not_hydrostatic _)).2
  have p2 : 0 < lzyStress 1 0 (9 / 4) 0 (principal (lodeVec (l + lodeSmall))) :=
    (drucker_positive (by norm_num) _ (lodeVec_not_hydrostatic _)).2
  rw [hk, polyXY_upper] at e1 e2 ⊢
  refine extreme_strict e1 e2 ?_
  rintro ⟨h1, h2⟩
  obtain ⟨x1, y1⟩ := lodeVec_xy l
  obtain ⟨x2, y2⟩ := lodeVec_xy (l + lodeSmall)
  rw [x1, x2] at h1
  rw [y1, y2] at h2
  set a := (lzyStress 1 0 (9 / 4) 0 (principal (lodeVec l)))⁻¹ with ha
  set b := (lzyStress 1 0 (9 / 4) 0 (principal (lodeVec (l + lodeSmall))))⁻¹ with hb
  have ha0 : a ≠ 0 := inv_ne_zero p1.ne'
  have hb0 : b ≠ 0 := inv_ne_zero p2.ne'
  have h3 := sq3_pos.ne'
  have k1 : a * Real.cos l = b * Real.cos (l + lodeSmall) := by
    field_simp at h1; exact h1
  have k2 : a * Real.sin l = b * Real.sin (l + lodeSmall) := by
    field_simp at h2; exact h2
  have hd : Real.sin lodeSmall = Real.sin (l + lodeSmall) * Real.cos l - Real.cos (l + lodeSmall) * Real.sin l := by
    rw [← Real.sin_sub]; congr 1; ring
  have : b * Real.sin lodeSmall = 0 := by
    rw [hd]
    linear_combination Real.sin l * k1 - Real.cos l * k2
  rcases mul_eq_zero.mp this with h | h
  · exact hb0 h
  · exact lodeSmall_sin h

theorem druckerChord_continuousAt (l : ℝ) : ContinuousAt (druckerChord l) (9 / 4) := by
  have hl : ∀ l', ContinuousAt (fun c => (lzyStress 1 0 c 0 (principal (lodeVec l')))⁻¹) (9 / 4) := by
    intro l'
    refine ContinuousAt.inv₀ ?_ (drucker_positive (by norm_num) _ (lodeVec_not_hydrostatic _)).2.ne'
    simp only [lzy_drucker]
    refine Continuous.continuousAt ?_
    refine Continuous.rpow_const ?_ fun _ => Or.inr (by norm_num)
    unfold polyXY
    fun_prop
  have e : druckerChord l = fun c => polyXY (4 * c / 27)
      (1 / 2 * ((lzyStress 1 0 c 0 (principal (lodeVec l)))⁻¹ * devX (lodeVec l)) + 1 / 2 *
      ((lzyStress 1 0 c 0 (principal (lodeVec (l + lodeSmall))))⁻¹ * devX (lodeVec (l + lodeSmall))))
      (1 / 2 * ((lzyStress 1 0 c 0 (principal (lodeVec l)))⁻¹ * devY (lodeVec l)) + 1 / 2 *
      ((lzyStress 1 0 c 0 (principal (lodeVec (l + lodeSmall))))⁻¹ *
        devY (lodeVec (l + lodeSmall)))) := by
    funext c
    rw [druckerChord, (chordMid_xy l c).1, (chordMid_xy l c).2]
  have h1 := hl l
  have h2 := hl (l + lodeSmall)
  rw [e]
  unfold polyXY
  fun_prop

/-- The check accepts yield surfaces which are not convex: it samples finitely many chords, and for a
Drucker parameter slightly above the convexity limit `9/4` all of them pass. -/
theorem C92_false_accept_violated :
    ∃ c : ℝ, checkConvexity c 0 ∧ YieldPositive c 0 ∧ ¬ Convex ℝ (yieldDomain c 0) := by
  classical
  have hev : ∀ᶠ c in nhds (9 / 4 : ℝ), ∀ k ∈ Finset.range 1000,
      druckerChord ((360 * (k : ℕ) / 999) * Real.pi / 180) c < 1 := by
    rw [Filter.eventually_all_finset]
    intro k _
    exact (druckerChord_continuousAt _).eventually_lt continuousAt_const (druckerChord_strict _)
  have hev2 : ∀ᶠ c in nhds (9 / 4 : ℝ), c < 27 / 4 := eventually_lt_nhds (by norm_num)
  have hev3 : ∀ᶠ c in nhdsWithin (9 / 4 : ℝ) (Set.Ioi (9 / 4)), 9 / 4 < c :=
    eventually_nhdsWithin_of_forall fun c hc => hc
  obtain ⟨c, ⟨hc1, hc2⟩, hc3⟩ := (((hev.and hev2).filter_mono nhdsWithin_le_nhds).and hev3).exists
  have hp := drucker_positive hc2
  refine ⟨c, ?_, hp, drucker_not_convex (Or.inr hc3)⟩
  intro k hk
  have h1 := hc1 k (Finset.mem_range.mpr hk)
  rw [evaluate_eq hp]
  generalize (360 * (k : ℝ) / 999) * Real.pi / 180 = l at h1
  have hmem : chordMid l c 0 ∈ yieldDomain c 0 := by
    rw [mem_drucker]
    refine ⟨?_, h1.le⟩
    by_cases h0 : devX (chordMid l c 0) = 0 ∧ devY (chordMid l c 0) = 0
    · rw [h0.1, h0.2]; norm_num [polyXY]
    · exact (polyXY_pos (by linarith) h0).le
  rw [if_pos hmem.1]
  exact hmem.2

open Classical in
/-- With this check, the return mapping leaves the parameters of a convex yield surface as they
are. -/
theorem C92_mapping_keeps {c d : ℝ} (hp : YieldPositive c d) (hc : Convex ℝ (yieldDomain c d))
    (fuel : ℕ) (hf : 24 ≤ fuel) :
    convexityReturnMapping (fun c d => decide (checkConvexity c d)) fuel c d =
      some (.ok (true, c, d)) :=
  (C73_mapping _ c d fuel hf).1 (decide_eq_true (C92_accepts hp hc))

/-- The parameters of von Mises (`c = d = 0`) meet the hypotheses and are accepted; `c = 7` is
rejected. -/
example : checkConvexity 0 0 ∧ ¬ checkConvexity 7 0 :=
  ⟨C92_accepts (drucker_positive (by norm_num)) ((C92_drucker_convex 0).2 ⟨by norm_num, by norm_num⟩),
    C92_rejects fun h => by
      have h1 := h.1
      rw [(uniaxial_inv 1).2.1, (uniaxial_inv 1).2.2] at h1
      norm_num at h1⟩

end Hooke
