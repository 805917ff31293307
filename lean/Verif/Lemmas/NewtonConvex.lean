import Verif.Lemmas.Plasticity

/-!
# Newton's method for a decreasing convex residual

For a convex residual which is nonnegative at the starting point the iterates increase towards the
root, and the product of residual and slope decreases by a factor of four in each iteration.
-/

noncomputable section

namespace Hooke

open Spec

theorem newton_convex {f : ℝ → NewtonEval} {tol s m lo : ℝ} (hm : 0 < m) (hs0 : 0 < s)
    (htol : 0 < tol) (hs : ∀ x, lo ≤ x → s ≤ (f x).scale)
    (hj : ∀ x, lo ≤ x → (f x).jacobian ≤ -m)
    (ht : ∀ x y, lo ≤ x → lo ≤ y → (f x).residual + (f x).jacobian * (y - x) ≤ (f y).residual)
    (fuel nr : ℕ) (x : ℝ) (hx : lo ≤ x) (hr : 0 ≤ (f x).residual) (hnr : 0 < nr ∨ 0 < fuel)
    (hb : (f x).residual * -(f x).jacobian < 4 ^ fuel * (tol * s * m)) :
    ∃ y, newtonLoop f tol fuel nr x = some y ∧ x ≤ y ∧ 0 ≤ (f y).residual := by
  induction fuel generalizing nr x with
  | zero =>
    have hnr : 0 < nr := by simpa using hnr
    have hsm : (f x).small tol := by
      rw [small_iff]
      have h1 := hs x hx
      have h2 := hj x hx
      refine ⟨by linarith, ?_⟩
      rw [abs_of_nonneg hr, abs_of_pos (by linarith)]
      have h3 : (f x).residual * m ≤ (f x).residual * -(f x).jacobian :=
        mul_le_mul_of_nonneg_left (by linarith) hr
      have h4 : (f x).residual * m < tol * s * m := by
        have : (4 : ℝ) ^ 0 * (tol * s * m) = tol * s * m := by ring
        linarith
      have h5 : (f x).residual < tol * s := lt_of_mul_lt_mul_right h4 hm.le
      have h6 : tol * s ≤ tol * (f x).scale := mul_le_mul_of_nonneg_left h1 htol.le
      linarith
    exact ⟨x, by rw [newtonLoop_zero, if_pos ⟨hsm, hnr⟩], le_rfl, hr⟩
  | succ fuel ih =>
    rw [newtonLoop_succ]
    by_cases hc : (f x).small tol ∧ nr > 0
    · exact ⟨x, by rw [if_pos hc], le_rfl, hr⟩
    have h2 := hj x hx
    have hd : 0 < -(f x).jacobian := by linarith
    rw [if_neg hc, if_neg (by linarith)]
    set J := (f x).jacobian with hJ
    set R := (f x).residual with hR
    set y := x + -R / J with hy
    have hstep : -R / J = R / -J := by rw [neg_div, div_neg]
    have hxy : x ≤ y := by
      rw [hy, hstep]
      have := div_nonneg hr hd.le
      linarith
    have hyx : y - x = R / -J := by rw [hy, hstep]; ring
    have hmul : J * (y - x) = -R := by
      rw [hyx]
      have : -J ≠ 0 := hd.ne'
      have h3 : J ≠ 0 := by simpa using this
      field_simp
    have hry : 0 ≤ (f y).residual := by
      have := ht x y hx (hx.trans hxy)
      rw [← hJ, ← hR, hmul] at this
      linarith
    have hdy := hj y (hx.trans hxy)
    -- the quantity `residual * slope` decreases by a factor of four
    have hprod : 4 * ((f y).residual * -(f y).jacobian) ≤ R * -J := by
      have h3 := ht y x (hx.trans hxy) hx
      rw [← hR] at h3
      have h4 : (f y).jacobian * (x - y) = -(f y).jacobian * (R / -J) := by
        rw [← hyx]; ring
      rw [h4] at h3
      set d := -(f y).jacobian with hdd
      set r := (f y).residual with hrr
      have hd' : 0 < d := by linarith
      have h5 : r * -J + d * R ≤ R * -J := by
        have : (r + d * (R / -J)) * -J ≤ R * -J := mul_le_mul_of_nonneg_right h3 hd.le
        have e : (r + d * (R / -J)) * -J = r * -J + d * R := by
          rw [add_mul, mul_assoc, div_mul_cancel₀ _ hd.ne']
        linarith
      rcases hr.lt_or_eq with hR0 | hR0
      · -- arithmetic and geometric means of `r (-J)` and `d R`
        have h6 : 4 * ((r * -J) * (d * R)) ≤ (R * -J) * (R * -J) := by
          have hp : 0 ≤ r * -J + d * R := by positivity
          nlinarith [sq_nonneg (r * -J - d * R), mul_self_le_mul_self hp h5]
        have h7 : (4 * (r * d)) * (R * -J) ≤ (R * -J) * (R * -J) := by
          have : (4 * (r * d)) * (R * -J) = 4 * ((r * -J) * (d * R)) := by ring
          linarith
        exact le_of_mul_le_mul_right h7 (mul_pos hR0 hd)
      · have h6 : R = 0 := by rw [hR]; exact hR0.symm
        rw [h6] at h5 ⊢
        have h8 : r * -J ≤ 0 := by linarith
        have h9 : r ≤ 0 := by
          by_contra hcon
          push Not at hcon
          have := mul_pos hcon hd
          linarith
        have : r = 0 := le_antisymm h9 hry
        rw [this]
        linarith
    obtain ⟨z, hz, hyz, hrz⟩ := ih (nr + 1) y (hx.trans hxy) hry (Or.inl (Nat.succ_pos _)) (by
      have : (4 : ℝ) ^ (fuel + 1) * (tol * s * m) = 4 * (4 ^ fuel * (tol * s * m)) := by ring
      linarith)
    exact ⟨z, hz, hxy.trans hyz, hrz⟩

end Hooke
