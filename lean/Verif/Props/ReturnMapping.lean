import Verif.Spec.Saturating
import Verif.Lemmas.NewtonConvex
import Verif.Lemmas.Hardening
import Verif.Props.VonMises
import Verif.Props.Hardening

/-!
# Convergence of the return mapping for saturating hardening
-/

noncomputable section

namespace Hooke

open Spec

/-! ### Saturating laws -/

theorem Spec.Saturating.slope_nonneg {law : HardLaw} {H : ℝ} (h : Saturating law H) : 0 ≤ H := by
  have := h.slope 1 one_pos
  linarith

theorem Spec.Saturating.mono {law : HardLaw} {H : ℝ} (h : Saturating law H) : NonSoftening law := by
  intro x y hxy
  rcases le_or_gt y 0 with hy | hy
  · rw [h.below x (hxy.trans hy), h.below y hy]
  rcases le_or_gt x 0 with hx | hx
  · rw [h.below x hx]
    have h1 := h.tangent y 0 hy le_rfl
    have h2 := mul_nonneg (h.slope y hy).1 hy.le
    linarith
  · have h1 := h.tangent y x hy hx.le
    have h2 := mul_nonneg (h.slope y hy).1 (sub_nonneg.mpr hxy)
    linarith

theorem Spec.Saturating.slope_bounds {law : HardLaw} {H : ℝ} (h : Saturating law H) {x : ℝ} (hx : 0 ≤ x) :
    0 ≤ (law x).2 ∧ (law x).2 ≤ H := by
  rcases hx.lt_or_eq with hx | hx
  · exact h.slope x hx
  · have := h.slope_nonneg
    rcases h.start with h1 | h1 <;> rw [← hx, h1] <;> exact ⟨by linarith, by linarith⟩

theorem newton_saturating {law : HardLaw} {H G q acc : ℝ} (hl : Saturating law H) (hG : 0 < G)
    (hH : H < 3 * G) (hs : 0 < (law 0).1) (hacc : 0 ≤ acc) (hq : (law acc).1 ≤ q)
    (hb : q ≤ 10000 * (law acc).1) :
    ∃ y, newtonLoop (vmEval G q acc law) suTol suMaxIter 0 0 = some y ∧ 0 ≤ y := by
  have hsa : 0 < (law acc).1 := hs.trans_le (hl.mono 0 acc hacc)
  have key : ∀ lo : ℝ, 0 ≤ lo → (0 < acc + lo ∨ (law 0).2 = H) → ∀ (fuel nr : ℕ) (x : ℝ), 18 ≤ fuel →
      lo ≤ x → 0 ≤ q - 3 * G * x - (law (acc + x)).1 →
      ∃ y, newtonLoop (vmEval G q acc law) suTol fuel nr x = some y ∧ x ≤ y := by
    intro lo hlo hpos fuel nr x hfuel hx hr
    have htan : ∀ x y, lo ≤ x → lo ≤ y →
        (law (acc + y)).1 ≤ (law (acc + x)).1 + (law (acc + x)).2 * (y - x) := by
      intro x y hx hy
      rcases (show 0 ≤ acc + x by linarith).lt_or_eq with h0 | h0
      · have := hl.tangent (acc + x) (acc + y) h0 (by linarith)
        have e : acc + y - (acc + x) = y - x := by ring
        rwa [e] at this
      · have h1 : (law 0).2 = H := by
          rcases hpos with h1 | h1
          · linarith
          · exact h1
        have := hl.growth (acc + y) (by linarith)
        rw [← h0, h1]
        have e : acc + y = y - x := by linarith
        rw [e] at this ⊢
        exact this
    have hsc : (law acc).1 ≤ (law (acc + x)).1 := hl.mono _ _ (by linarith)
    obtain ⟨hn, hle⟩ := hl.slope_bounds (show 0 ≤ acc + x by linarith)
    obtain ⟨y, hy, hxy, -⟩ := newton_convex (f := vmEval G q acc law) (tol := suTol)
      (s := (law acc).1) (m := 3 * G) (lo := lo) (by linarith) hsa suTol_pos
      (fun x hx => hl.mono _ _ (by linarith))
      (fun x hx => by
        have := (hl.slope_bounds (show 0 ≤ acc + x by linarith)).1
        simp only [vmEval]
        linarith)
      (fun x y hx hy => by
        have := htan x y hx hy
        simp only [vmEval]
        linarith)
      fuel nr x hx hr (Or.inr (by omega)) (by
        simp only [vmEval]
        have h4 : (4 : ℝ) ^ 18 ≤ 4 ^ fuel := pow_le_pow_right₀ (by norm_num) hfuel
        have h5 : (0 : ℝ) < suTol * (law acc).1 * (3 * G) := by
          have := suTol_pos
          positivity
        have h6 : q - 3 * G * x - (law (acc + x)).1 ≤ 10000 * (law acc).1 := by
          have : 0 ≤ 3 * G * x := by
            have : 0 ≤ x := by linarith
            positivity
          linarith
        have h7 : (q - 3 * G * x - (law (acc + x)).1) * -(-3 * G - (law (acc + x)).2) ≤
            10000 * (law acc).1 * (6 * G) :=
          mul_le_mul h6 (by linarith) (by linarith) (by positivity)
        have h8 : 10000 * (law acc).1 * (6 * G) < 4 ^ 18 * (suTol * (law acc).1 * (3 * G)) := by
          have : 0 < (law acc).1 * G := mul_pos hsa hG
          unfold suTol
          nlinarith
        have h9 := mul_le_mul_of_nonneg_right h4 h5.le
        linarith)
    exact ⟨y, hy, hxy⟩
  by_cases hc : 0 < acc ∨ (law 0).2 = H
  · obtain ⟨y, hy, h0⟩ := key 0 le_rfl (by simpa using hc) suMaxIter 0 0 (by decide) le_rfl
      (by rw [mul_zero, add_zero]; linarith)
    exact ⟨y, hy, h0⟩
  push Not at hc
  have ha0 : acc = 0 := le_antisymm hc.1 hacc
  have h0 : (law 0).2 = 0 := by
    rcases hl.start with h | h
    · exact h
    · exact absurd h hc.2
  subst ha0
  -- the first iteration uses the slope zero
  rw [show suMaxIter = 18 + 1 + 1 from rfl, newtonLoop_succ, if_neg (by simp)]
  have hj0 : (vmEval G q 0 law 0).jacobian = -3 * G := by simp [vmEval, h0]
  have hr0 : (vmEval G q 0 law 0).residual = q - (law 0).1 := by simp [vmEval]
  rw [if_neg (by rw [hj0]; linarith), hj0, hr0]
  set x1 : ℝ := 0 + -(q - (law 0).1) / (-3 * G) with hx1
  have hx1' : 3 * G * x1 = q - (law 0).1 := by
    rw [hx1, zero_add, neg_mul, neg_div_neg_eq]
    field_simp
  have hx1n : 0 ≤ x1 := by
    by_contra hcon
    push Not at hcon
    have : 3 * G * x1 < 0 := mul_neg_of_pos_of_neg (by linarith) hcon
    linarith
  rw [newtonLoop_succ]
  by_cases hsm : (vmEval G q 0 law x1).small suTol ∧ 0 + 1 > 0
  · exact ⟨x1, by rw [if_pos hsm], hx1n⟩
  rw [if_neg hsm]
  have hr1 : (vmEval G q 0 law x1).residual = (law 0).1 - (law x1).1 := by
    simp only [vmEval, zero_add]
    linarith
  have hx1p : 0 < x1 := by
    rcases hx1n.lt_or_eq with h | h
    · exact h
    · exfalso
      refine hsm ⟨?_, by norm_num⟩
      rw [small_iff]
      rw [← h] at hr1 ⊢
      refine ⟨?_, ?_⟩
      · simp only [vmEval, zero_add]
        exact hs.ne'
      · rw [hr1]
        simp only [vmEval, zero_add, sub_self, abs_zero]
        exact mul_pos suTol_pos (abs_pos.mpr hs.ne')
  obtain ⟨hn, hle⟩ := hl.slope x1 hx1p
  have hj1 : (vmEval G q 0 law x1).jacobian = -(3 * G + (law x1).2) := by
    simp only [vmEval, zero_add]
    ring
  have hD : 0 < 3 * G + (law x1).2 := by linarith
  rw [if_neg (by rw [hj1]; linarith), hj1, hr1]
  set x2 : ℝ := x1 + -((law 0).1 - (law x1).1) / -(3 * G + (law x1).2) with hx2
  have hx2' : (3 * G + (law x1).2) * (x1 - x2) = (law x1).1 - (law 0).1 := by
    rw [hx2, neg_div_neg_eq]
    field_simp
    ring
  have hx2p : 0 < x2 := by
    have h1 := hl.growth x1 hx1n
    have h2 : (3 * G + (law x1).2) * (x1 - x2) < (3 * G + (law x1).2) * x1 := by
      rw [hx2']
      have h3 : H * x1 < 3 * G * x1 := mul_lt_mul_of_pos_right hH hx1p
      have h4 : 0 ≤ (law x1).2 * x1 := mul_nonneg hn hx1n
      nlinarith
    have := lt_of_mul_lt_mul_left h2 hD.le
    linarith
  have hr2 : 0 ≤ q - 3 * G * x2 - (law (0 + x2)).1 := by
    have h1 := hl.tangent x1 x2 hx1p hx2p.le
    rw [zero_add]
    nlinarith
  obtain ⟨y, hy, hxy⟩ := key x2 hx2p.le (Or.inl (by linarith)) 18 (0 + 1 + 1) x2 le_rfl le_rfl hr2
  exact ⟨y, hy, hx2p.le.trans hxy⟩

end Hooke
