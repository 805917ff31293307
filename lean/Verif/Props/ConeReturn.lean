import Verif.Props.ReturnMappingCases
import Verif.Props.DruckerPrager

/-!
# Convergence of the Drucker-Prager return mappings for saturating cohesion
-/

noncomputable section

namespace Hooke

open Spec

/-- One Newton step for a decreasing convex function: residuals `R`, `r` and negative slopes `J`, `j` at the
old and the new iterate. -/
theorem convex_step {R J r j d : ℝ} (hR : 0 ≤ R) (hJ : 0 < J) (hj : 0 < j) (hd : d = R / J)
    (h1 : R - J * d ≤ r) (h2 : r + j * d ≤ R) : 0 ≤ d ∧ 0 ≤ r ∧ 4 * (r * j) ≤ R * J := by
  have hd0 : 0 ≤ d := by rw [hd]; exact div_nonneg hR hJ.le
  have hJd : J * d = R := by rw [hd]; field_simp
  have hr : 0 ≤ r := by linarith
  refine ⟨hd0, hr, ?_⟩
  rcases hR.lt_or_eq with hR0 | hR0
  · have h5 : r * J + j * R ≤ R * J := by
      have := mul_le_mul_of_nonneg_right h2 hJ.le
      nlinarith
    have h6 : 4 * ((r * J) * (j * R)) ≤ (R * J) * (R * J) := by
      have hp : 0 ≤ r * J + j * R := by positivity
      nlinarith [sq_nonneg (r * J - j * R), mul_self_le_mul_self hp h5]
    have h7 : (4 * (r * j)) * (R * J) ≤ (R * J) * (R * J) := by
      have : (4 * (r * j)) * (R * J) = 4 * ((r * J) * (j * R)) := by ring
      linarith
    exact le_of_mul_le_mul_right h7 (mul_pos hR0 hJ)
  · have : r = 0 := le_antisymm (by nlinarith) hr
    rw [this, ← hR0]
    linarith

/-- The function `A - D x - b c(acc + a x)` and its negative slope. -/
structure SatEquation (law : HardLaw) (H A D a b acc : ℝ) (R J : ℝ → ℝ) : Prop where
  sat : Saturating law H
  hD : 0 < D
  ha : 0 < a
  hb : 0 ≤ b
  hacc : 0 ≤ acc
  steep : a * b * H < D
  res : ∀ x, R x = A - D * x - b * (law (acc + a * x)).1
  slope : ∀ x, J x = D + a * b * (law (acc + a * x)).2

theorem SatEquation.slope_bounds {law : HardLaw} {H A D a b acc : ℝ} {R J : ℝ → ℝ}
    (h : SatEquation law H A D a b acc R J) {x : ℝ} (hx : 0 ≤ x) : D ≤ J x ∧ J x ≤ 2 * D := by
  have hax : 0 ≤ acc + a * x := add_nonneg h.hacc (mul_nonneg h.ha.le hx)
  obtain ⟨h1, h2⟩ := h.sat.slope_bounds hax
  have hab := mul_nonneg h.ha.le h.hb
  have h3 := mul_nonneg hab h1
  have h4 := mul_le_mul_of_nonneg_left h2 hab
  have := h.steep
  rw [h.slope]
  exact ⟨by linarith, by linarith⟩

theorem SatEquation.tangent {law : HardLaw} {H A D a b acc : ℝ} {R J : ℝ → ℝ}
    (h : SatEquation law H A D a b acc R J) {x y : ℝ} (hx : 0 ≤ x) (hy : 0 ≤ y)
    (hc : 0 < acc + a * x ∨ (law 0).2 = H) : R x - J x * (y - x) ≤ R y := by
  have hax : 0 ≤ acc + a * x := add_nonneg h.hacc (mul_nonneg h.ha.le hx)
  have hay : 0 ≤ acc + a * y := add_nonneg h.hacc (mul_nonneg h.ha.le hy)
  have ht : (law (acc + a * y)).1 ≤ (law (acc + a * x)).1 + (law (acc + a * x)).2 * (a * (y - x)) := by
    rcases hax.lt_or_eq with h0 | h0
    · have := h.sat.tangent _ _ h0 hay
      have e : acc + a * y - (acc + a * x) = a * (y - x) := by ring
      rwa [e] at this
    · have h1 : (law 0).2 = H := by
        rcases hc with h1 | h1
        · linarith
        · exact h1
      have := h.sat.growth _ hay
      rw [← h0, h1]
      have e : acc + a * y = a * (y - x) := by linarith
      rw [e] at this ⊢
      exact this
  have := mul_le_mul_of_nonneg_left ht h.hb
  rw [h.res, h.res, h.slope]
  nlinarith

theorem SatEquation.decreasing {law : HardLaw} {H A D a b acc : ℝ} {R J : ℝ → ℝ}
    (h : SatEquation law H A D a b acc R J) {x : ℝ} (hx : 0 ≤ x) : R x ≤ R 0 := by
  have h1 := h.sat.mono (acc + a * 0) (acc + a * x) (by
    have := mul_nonneg h.ha.le hx
    linarith)
  have h2 := mul_le_mul_of_nonneg_left h1 h.hb
  have h3 := mul_nonneg h.hD.le hx
  rw [h.res, h.res]
  linarith

/-- Newton iterates from number two on are nonnegative, have nonnegative residuals, and the residual
of number twenty is small. -/
theorem sat_iterates {law : HardLaw} {H A D a b acc : ℝ} {R J : ℝ → ℝ}
    (h : SatEquation law H A D a b acc R J) {f : ℝ → NewtonEval} {e : ℝ} (he : e ≠ 0)
    (hr : ∀ x, 0 ≤ x → (f x).residual = e * R x) (hj : ∀ x, 0 ≤ x → (f x).jacobian = -(e * J x))
    (h0 : 0 < R 0) :
    (∀ k, 2 ≤ k → ∃ z, newtonIterate f k = some z ∧ 0 ≤ z ∧ 0 ≤ R z) ∧
      ∃ z, newtonIterate f 20 = some z ∧ 0 ≤ z ∧ 0 ≤ R z ∧ 4 ^ 18 * R z ≤ 2 * R 0 := by
  have hD := h.hD
  have next : ∀ (k : ℕ) (x : ℝ), newtonIterate f k = some x → 0 ≤ x →
      newtonIterate f (k + 1) = some (x + R x / J x) := by
    intro k x hk hx
    have hJp : 0 < J x := lt_of_lt_of_le hD (h.slope_bounds hx).1
    have hjx : (f x).jacobian ≠ 0 := by
      rw [hj x hx]
      exact neg_ne_zero.mpr (mul_ne_zero he hJp.ne')
    rw [newtonIterate_succ hk hjx, hr x hx, hj x hx, neg_div_neg_eq, mul_div_mul_left _ _ he]
  have key : ∀ (k0 : ℕ) (lo x0 : ℝ), 0 ≤ lo → lo ≤ x0 → (0 < acc + a * lo ∨ (law 0).2 = H) →
      newtonIterate f k0 = some x0 → 0 ≤ R x0 →
      ∀ n : ℕ, ∃ z, newtonIterate f (k0 + n) = some z ∧ lo ≤ z ∧ 0 ≤ R z ∧
        4 ^ n * (R z * J z) ≤ R x0 * J x0 := by
    intro k0 lo x0 hlo hx0 hc hk0 hR0 n
    induction n with
    | zero => exact ⟨x0, hk0, hx0, hR0, by simp⟩
    | succ n ih =>
      obtain ⟨z, hz, hlz, hRz, hb⟩ := ih
      have hz0 := hlo.trans hlz
      have hJz : 0 < J z := lt_of_lt_of_le hD (h.slope_bounds hz0).1
      set y := z + R z / J z with hy
      have hzy : z ≤ y := by
        rw [hy]
        have := div_nonneg hRz hJz.le
        linarith
      have hy0 := hz0.trans hzy
      have hJy : 0 < J y := lt_of_lt_of_le hD (h.slope_bounds hy0).1
      have hcz : ∀ w, lo ≤ w → (0 < acc + a * w ∨ (law 0).2 = H) := by
        intro w hw
        rcases hc with h1 | h1
        · have := mul_le_mul_of_nonneg_left hw h.ha.le
          exact Or.inl (by linarith)
        · exact Or.inr h1
      have t1 := h.tangent hz0 hy0 (hcz z hlz)
      have t2 := h.tangent hy0 hz0 (hcz y (hlz.trans hzy))
      have ed : y - z = R z / J z := by rw [hy]; ring
      obtain ⟨-, s2, s3⟩ := convex_step (r := R y) (j := J y) (d := y - z) hRz hJz hJy ed t1
        (by have e2 : z - y = -(y - z) := by ring
            rw [e2] at t2
            linarith)
      refine ⟨y, next _ _ hz hz0, hlz.trans hzy, s2, ?_⟩
      have : (4 : ℝ) ^ (n + 1) * (R y * J y) = 4 ^ n * (4 * (R y * J y)) := by ring
      rw [this]
      exact (mul_le_mul_of_nonneg_left s3 (by positivity)).trans hb
  have fin : ∀ (k0 : ℕ) (lo x0 : ℝ), k0 ≤ 2 → 0 ≤ lo → lo ≤ x0 → (0 < acc + a * lo ∨ (law 0).2 = H) →
      newtonIterate f k0 = some x0 → 0 ≤ R x0 →
      (∀ k, 2 ≤ k → ∃ z, newtonIterate f k = some z ∧ 0 ≤ z ∧ 0 ≤ R z) ∧
      ∃ z, newtonIterate f 20 = some z ∧ 0 ≤ z ∧ 0 ≤ R z ∧ 4 ^ 18 * R z ≤ 2 * R 0 := by
    intro k0 lo x0 hk hlo hx0 hc hk0 hR0
    refine ⟨fun k h2 => ?_, ?_⟩
    · obtain ⟨n, rfl⟩ := Nat.exists_eq_add_of_le (hk.trans h2)
      obtain ⟨z, hz, hlz, hRz, -⟩ := key k0 lo x0 hlo hx0 hc hk0 hR0 n
      exact ⟨z, hz, hlo.trans hlz, hRz⟩
    · obtain ⟨n, hn⟩ := Nat.exists_eq_add_of_le (show k0 ≤ 20 by omega)
      obtain ⟨z, hz, hlz, hRz, hb⟩ := key k0 lo x0 hlo hx0 hc hk0 hR0 n
      refine ⟨z, by rw [hn]; exact hz, hlo.trans hlz, hRz, ?_⟩
      have hx0' := hlo.trans hx0
      have h4 : (4 : ℝ) ^ 18 ≤ 4 ^ n := pow_le_pow_right₀ (by norm_num) (by omega)
      have h5 := (h.slope_bounds (hlo.trans hlz)).1
      have h6 := (h.slope_bounds hx0').2
      have h7 := h.decreasing hx0'
      have h8 : 4 ^ 18 * R z * D ≤ 2 * R 0 * D := by
        calc 4 ^ 18 * R z * D ≤ 4 ^ n * R z * J z :=
              mul_le_mul (mul_le_mul_of_nonneg_right h4 hRz) h5 hD.le (by positivity)
          _ = 4 ^ n * (R z * J z) := by ring
          _ ≤ R x0 * J x0 := hb
          _ ≤ R 0 * (2 * D) := mul_le_mul h7 h6 (hD.le.trans (h.slope_bounds hx0').1) h0.le
          _ = 2 * R 0 * D := by ring
      exact le_of_mul_le_mul_right h8 hD
  by_cases hc : 0 < acc ∨ (law 0).2 = H
  · exact fin 0 0 0 (by norm_num) le_rfl le_rfl (by simpa using hc) rfl h0.le
  push Not at hc
  have ha0 : acc = 0 := le_antisymm hc.1 h.hacc
  have hs0 : (law 0).2 = 0 := by
    rcases h.sat.start with h1 | h1
    · exact h1
    · exact absurd h1 hc.2
  have hJ0 : J 0 = D := by rw [h.slope, ha0, mul_zero, zero_add, hs0]; ring
  have hR0 : R 0 = A - b * (law 0).1 := by rw [h.res, ha0]; simp
  have i1 := next 0 0 rfl le_rfl
  rw [zero_add, zero_add, hJ0] at i1
  set x1 := R 0 / D with hx1
  have hx1p : 0 < x1 := div_pos h0 hD
  have hDx1 : D * x1 = R 0 := by rw [hx1]; field_simp
  have i2 := next 1 x1 i1 hx1p.le
  have hR1 : R x1 = -(b * ((law (a * x1)).1 - (law 0).1)) := by
    rw [h.res, ha0, zero_add]
    linarith
  have hJ1 : 0 < J x1 := lt_of_lt_of_le hD (h.slope_bounds hx1p.le).1
  have hax : 0 < a * x1 := mul_pos h.ha hx1p
  have hx2p : 0 < x1 + R x1 / J x1 := by
    have h1 := mul_le_mul_of_nonneg_left (h.sat.growth (a * x1) hax.le) h.hb
    have h2 := mul_lt_mul_of_pos_right h.steep hx1p
    have h3 := mul_le_mul_of_nonneg_right (h.slope_bounds hx1p.le).1 hx1p.le
    have h4 : 0 < x1 * J x1 + R x1 := by
      rw [hR1]
      nlinarith
    have h5 : x1 + R x1 / J x1 = (x1 * J x1 + R x1) / J x1 := by field_simp
    rw [h5]
    exact div_pos h4 hJ1
  set x2 := x1 + R x1 / J x1 with hx2
  have hR2 : 0 ≤ R x2 := by
    have := h.tangent (x := x1) (y := x2) hx1p.le hx2p.le (Or.inl (by linarith))
    have e1 : J x1 * (x2 - x1) = R x1 := by
      rw [hx2]
      field_simp
      ring
    linarith
  exact fin 2 x2 x2 le_rfl hx2p.le le_rfl (Or.inl (by
    have := mul_pos h.ha hx2p
    linarith)) i2 hR2

theorem cohesionTol_large {c : ℝ} (h : 1e-8 ≤ c) : cohesionTol c = 1e-6 * c := by
  have hc : 0 < c := lt_of_lt_of_le (by norm_num) h
  unfold cohesionTol
  rw [abs_of_pos hc, if_neg (not_lt.mpr h)]

theorem sat_converges {law : HardLaw} {H A D a b acc : ℝ} {R J : ℝ → ℝ}
    (h : SatEquation law H A D a b acc R J) {f : ℝ → NewtonEval} {e : ℝ} (he : |e| = 1)
    (hr : ∀ x, 0 ≤ x → (f x).residual = e * R x) (hj : ∀ x, 0 ≤ x → (f x).jacobian = -(e * J x))
    (hs : ∀ x, (f x).scale = (law (acc + a * x)).1) (hc : 1e-8 ≤ (law 0).1) (h0 : 0 < R 0)
    (hb : R 0 ≤ 10000 * (law acc).1) :
    ∃ z, FirstConverged f z ∧ 0 ≤ z ∧ 0 ≤ R z := by
  have he0 : e ≠ 0 := by
    rintro rfl
    simp at he
  obtain ⟨hall, z, hz, hz0, hRz, hsm⟩ := sat_iterates h he0 hr hj h0
  have hacc : 1e-8 ≤ (law acc).1 := hc.trans (h.sat.mono 0 acc h.hacc)
  have hzc : (law acc).1 ≤ (law (acc + a * z)).1 := h.sat.mono _ _ (by
    have := mul_nonneg h.ha.le hz0
    linarith)
  cases hl : dpLoop f suTol suMaxIter 0 0 with
  | none =>
    exfalso
    refine dpLoop_none_iff.mp hl 20 (by norm_num) (by norm_num) z hz ?_
    rw [hr z hz0, abs_mul, he, one_mul, abs_of_nonneg hRz, hs,
      cohesionTol_large (hacc.trans hzc)]
    have hp : 0 < (law acc).1 := lt_of_lt_of_le (by norm_num) hacc
    have h1 : 4 ^ 18 * R z ≤ 20000 * (law acc).1 := by linarith
    have h2 : (20000 : ℝ) * (law acc).1 < 4 ^ 18 * (1e-6 * (law acc).1) := by
      have : (20000 : ℝ) < 4 ^ 18 * 1e-6 := by norm_num
      have := mul_lt_mul_of_pos_right this hp
      linarith
    have h3 : R z < 1e-6 * (law acc).1 := lt_of_mul_lt_mul_left (h1.trans_lt h2) (by positivity)
    linarith
  | some y =>
    have hy := dpLoop_some_iff.mp hl
    refine ⟨y, hy, ?_⟩
    obtain ⟨k, hk, -, hky, -⟩ := hy
    obtain ⟨w, hw, hw0, hRw⟩ := hall k hk
    obtain rfl : y = w := by rw [hky] at hw; exact Option.some.inj hw
    exact ⟨hw0, hRw⟩

/-- A frictional material for which the initial slope `H` of the cohesion is small enough: the tangent of
the equation of the return to the cone changes by less than a factor two, and so does that of the return
to the apex. -/
structure GentleCohesion (m : DPParams) (H : ℝ) : Prop where
  frictional : Frictional m
  xi : 0 < m.xi
  cone : m.xi ^ 2 * H < shear m.E m.v + bulk m.E m.v * m.etaf * m.etay
  apex : m.xi / m.etaf * (m.xi / m.etay) * H < bulk m.E m.v

theorem cone_saturating {m : DPParams} {law : HardLaw} {H : ℝ} (hm : GentleCohesion m H)
    (hl : Saturating law H) (hc : 1e-8 ≤ (law 0).1) {s : V6} {acc : ℝ} (hacc : 0 ≤ acc)
    (h0 : 0 < dpYield m s (law acc).1) (hb : dpYield m s (law acc).1 ≤ 10000 * (law acc).1) :
    ∃ x, FirstConverged (coneEq m law s acc) x ∧ 0 ≤ x ∧ 0 ≤ (coneEq m law s acc x).residual := by
  have hK := hm.frictional.elastic.bulk_pos; have hG := hm.frictional.elastic.shear_pos
  have h2 := hm.frictional.etay; have h3 := hm.frictional.etaf
  have hKd : m.K = bulk m.E m.v := rfl
  have hGd : m.G = shear m.E m.v := rfl
  have hS : SatEquation law H (sqrtJ2 s + m.etay * pressure6 s)
      (shear m.E m.v + bulk m.E m.v * m.etaf * m.etay) m.xi m.xi acc
      (fun x => (coneEq m law s acc x).residual) (fun x => -(coneEq m law s acc x).jacobian) := by
    refine ⟨hl, by positivity, hm.xi, hm.xi.le, hacc, by have := hm.cone; linarith, fun x => ?_, fun x => ?_⟩
    · simp only [coneEq, dpConeEval, hKd, hGd]; ring
    · simp only [coneEq, dpConeEval, hKd, hGd]; ring
  have e0 : (coneEq m law s acc 0).residual = dpYield m s (law acc).1 := by
    simp only [coneEq, dpConeEval, dpYield, mul_zero, add_zero, sub_zero]
  exact sat_converges hS (e := 1) (by simp) (fun x _ => by ring) (fun x _ => by ring) (fun x => rfl) hc
    (by rw [e0]; exact h0) (by rw [e0]; exact hb)

theorem apex_saturating {m : DPParams} {law : HardLaw} {H : ℝ} (hm : GentleCohesion m H)
    (hl : Saturating law H) (hc : 1e-8 ≤ (law 0).1) {p acc : ℝ} (hacc : 0 ≤ acc)
    (h0 : 0 < p - m.xi / m.etay * (law acc).1) (hb : p ≤ 10000 * (law acc).1) :
    ∃ x, FirstConverged (dpApexEval m law p acc) x ∧ 0 ≤ x := by
  have hK := hm.frictional.elastic.bulk_pos
  have h1 := hm.xi; have h2 := hm.frictional.etay; have h3 := hm.frictional.etaf
  have hKd : m.K = bulk m.E m.v := rfl
  have hal : 0 < m.xi / m.etaf := by positivity
  have hbe : 0 < m.xi / m.etay := by positivity
  have hS : SatEquation law H p (bulk m.E m.v) (m.xi / m.etaf) (m.xi / m.etay) acc
      (fun x => -(dpApexEval m law p acc x).residual) (fun x => (dpApexEval m law p acc x).jacobian) := by
    refine ⟨hl, hK, hal, hbe.le, hacc, hm.apex, fun x => ?_, fun x => ?_⟩
    · simp only [dpApexEval, hKd]; ring
    · simp only [dpApexEval, hKd]; ring
  have e0 : -(dpApexEval m law p acc 0).residual = p - m.xi / m.etay * (law acc).1 := by
    simp only [dpApexEval, mul_zero, add_zero, sub_zero]; ring
  have hcp : 0 < (law acc).1 := lt_of_lt_of_le (by norm_num) (hc.trans (hl.mono 0 acc hacc))
  obtain ⟨x, hx, hx0, -⟩ := sat_converges hS (e := -1) (by simp) (fun x _ => by ring) (fun x _ => by ring)
    (fun x => rfl) hc (by rw [e0]; exact h0) (by
      rw [e0]
      have := mul_pos hbe hcp
      linarith)
  exact ⟨x, hx, hx0⟩

/-- Beyond the apex the trial pressure exceeds the apex pressure. -/
theorem apex_pressure_sat {m : DPParams} {law : HardLaw} {H : ℝ} (hm : GentleCohesion m H)
    (hl : Saturating law H) {s : V6} {acc x : ℝ} (hx : 0 ≤ x)
    (hr : 0 ≤ (coneEq m law s acc x).residual) (hlt : sqrtJ2 s - shear m.E m.v * x < 0) :
    0 < pressure6 s - m.xi / m.etay * (law acc).1 := by
  have hK := hm.frictional.elastic.bulk_pos
  have h1 := hm.xi; have h2 := hm.frictional.etay; have h3 := hm.frictional.etaf
  have hKd : m.K = bulk m.E m.v := rfl
  have hGd : m.G = shear m.E m.v := rfl
  simp only [coneEq, dpConeEval, hKd, hGd] at hr
  have h4 := hl.mono acc (acc + m.xi * x) (by
    have := mul_nonneg h1.le hx
    linarith)
  have h5 := mul_le_mul_of_nonneg_left h4 h1.le
  have h6 : 0 ≤ m.etay * (bulk m.E m.v * m.etaf * x) := by positivity
  have h7 : 0 < m.etay * pressure6 s - m.xi * (law acc).1 := by nlinarith
  have h8 : pressure6 s - m.xi / m.etay * (law acc).1 =
      (m.etay * pressure6 s - m.xi * (law acc).1) / m.etay := by field_simp
  rw [h8]
  exact div_pos h7 h2

/-- C133a: with a saturating cohesion whose slopes are small enough for both return mappings, the update
succeeds from every state for every step whose trial yield function and trial pressure are at most ten
thousand times the cohesion; the accumulated plastic strain does not decrease. -/
theorem C133_step {p : PType} {m : DPParams} {law : HardLaw} {H : ℝ} (hm : GentleCohesion m H)
    (hl : Saturating law H) (hc : 1e-8 ≤ (law 0).1) {inc : T2 p.dim} {old : DPState p} (hacc : 0 ≤ old.acc)
    (hy : dpYield m (hooke6 (lame m.E m.v) (shear m.E m.v) (trial3D old.toVMState inc)) (law old.acc).1 ≤
      10000 * (law old.acc).1)
    (hp : pressure6 (hooke6 (lame m.E m.v) (shear m.E m.v) (trial3D old.toVMState inc)) ≤
      10000 * (law old.acc).1) :
    ∃ new T, dpUpdate p m law inc old = (.good new, T) ∧ old.acc ≤ new.acc := by
  set trial := hooke6 (lame m.E m.v) (shear m.E m.v) (trial3D old.toVMState inc) with htd
  have hcone : ¬ DPTrialElastic m law old inc →
      ∃ x, FirstConverged (coneEq m law trial old.acc) x ∧ 0 ≤ x ∧
        0 ≤ (coneEq m law trial old.acc x).residual := by
    intro hne
    unfold DPTrialElastic at hne
    have := cohesionTol_pos (law old.acc).1
    exact cone_saturating hm hl hc hacc (by have := not_le.mp hne; linarith) hy
  have hgood : ∃ new T, dpUpdate p m law inc old = (.good new, T) := by
    cases hu : dpUpdate p m law inc old with
    | mk st T =>
      cases st with
      | good s => exact ⟨s, T, rfl⟩
      | nan s =>
        exfalso
        obtain ⟨hne, hf⟩ := C36_failure_iff.mp ⟨s, T, hu⟩
        obtain ⟨x', hfc, hx0, hR⟩ := hcone hne
        rcases hf with hn | ⟨x, hx, hlt, hn⟩
        · exact not_never hfc hn
        · obtain rfl : x = x' := firstConverged_unique hx hfc
          rcases hn with h | h | h
          · exact hm.frictional.etaf.ne' h
          · exact hm.frictional.etay.ne' h
          · obtain ⟨z, hz, -⟩ := apex_saturating hm hl hc hacc (apex_pressure_sat hm hl hx0 hR hlt) hp
            exact not_never hz h
  obtain ⟨new, T, hu⟩ := hgood
  obtain ⟨r, hr, -, -, h5, h6, h7, -⟩ := dpUpdate_good hu
  refine ⟨new, T, hu, ?_⟩
  rcases dpReturn_cases hr with ⟨hp', ha', hc', -, -, hac, -⟩ |
    ⟨hp', ha', hc', x, hx, hge, hac, -⟩ | ⟨hp', ha', hc', -, -, ⟨y, hy', hlt⟩, x, hx, hac, -⟩
  · rw [h5, hac]
  · obtain ⟨x', hfc, hx0, hR⟩ := hcone hc'
    obtain rfl : x = x' := firstConverged_unique hx hfc
    rw [h5, hac]
    have := mul_nonneg hm.xi.le hx0
    linarith
  · obtain ⟨x', hfc, hx0, hR⟩ := hcone hc'
    obtain rfl : y = x' := firstConverged_unique hy' hfc
    obtain ⟨z, hz, hz0⟩ := apex_saturating hm hl hc hacc (apex_pressure_sat hm hl hx0 hR hlt) hp
    obtain rfl : x = z := firstConverged_unique hx hz
    rw [h5, hac]
    have := mul_nonneg (div_nonneg hm.xi.le hm.frictional.etaf.le) hz0
    linarith

end Hooke
