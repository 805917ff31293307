import Verif.Spec.DruckerPrager
import Verif.Lemmas.Plasticity

noncomputable section

namespace Hooke

open Spec

theorem dpNorm_lt_iff (e : NewtonEval) : e.dpNorm < suTol ↔ |e.residual| < cohesionTol e.scale := by
  unfold NewtonEval.dpNorm cohesionTol suTol suSmall
  by_cases h : |e.scale| < 1e-8
  · simp only [if_pos h]
  · simp only [if_neg h]
    have hp : 0 < |e.scale| := by
      have : (0 : ℝ) < 1e-8 := by norm_num
      linarith [not_lt.mp h]
    rw [abs_div, div_lt_iff₀ hp]

theorem dpLoop_succ (f : ℝ → NewtonEval) (tol : ℝ) (fuel nr : ℕ) (x : ℝ) :
    dpLoop f tol (fuel + 1) nr x =
      if (f x).jacobian = 0 then none
      else if (f (x + -(f x).residual / (f x).jacobian)).dpNorm < tol ∧ nr > 0 then
        some (x + -(f x).residual / (f x).jacobian)
      else dpLoop f tol fuel (nr + 1) (x + -(f x).residual / (f x).jacobian) := by
  conv_lhs => unfold dpLoop

theorem dpLoop_zero (f : ℝ → NewtonEval) (tol : ℝ) (nr : ℕ) (x : ℝ) :
    dpLoop f tol 0 nr x =
      if (f x).jacobian = 0 then none
      else if (f (x + -(f x).residual / (f x).jacobian)).dpNorm < tol ∧ nr > 0 then
        some (x + -(f x).residual / (f x).jacobian)
      else none := by
  conv_lhs => unfold dpLoop

theorem dpLoop_some {f : ℝ → NewtonEval} {tol : ℝ} (fuel nr : ℕ) (x : ℝ)
    (hx : newtonIterate f nr = some x) {y : ℝ} (h : dpLoop f tol fuel nr x = some y) :
    ∃ k, nr < k ∧ k ≤ nr + fuel + 1 ∧ 2 ≤ k ∧ newtonIterate f k = some y ∧ (f y).dpNorm < tol ∧
      ∀ j, nr < j → j < k → 2 ≤ j → ∀ z, newtonIterate f j = some z → ¬ (f z).dpNorm < tol := by
  induction fuel generalizing nr x with
  | zero =>
    rw [dpLoop_zero] at h
    split at h
    · cases h
    · rename_i hj
      have hs := newtonIterate_succ hx hj
      split at h
      · rename_i hc
        obtain rfl := Option.some.inj h
        exact ⟨nr + 1, by omega, by omega, by omega, hs, hc.1, fun j h1 h2 => by omega⟩
      · cases h
  | succ fuel ih =>
    rw [dpLoop_succ] at h
    split at h
    · cases h
    · rename_i hj
      have hs := newtonIterate_succ hx hj
      split at h
      · rename_i hc
        obtain rfl := Option.some.inj h
        exact ⟨nr + 1, by omega, by omega, by omega, hs, hc.1, fun j h1 h2 => by omega⟩
      · rename_i hc
        obtain ⟨k, h1, h2, h3, h4, h5, h6⟩ := ih (nr + 1) _ hs h
        refine ⟨k, by omega, by omega, h3, h4, h5, ?_⟩
        intro j hj1 hj2 hj3 z hz
        by_cases hjn : j = nr + 1
        · subst hjn
          rw [hs] at hz
          obtain rfl := Option.some.inj hz
          exact fun hlt => hc ⟨hlt, by omega⟩
        · exact h6 j (by omega) hj2 hj3 z hz

theorem dpLoop_none {f : ℝ → NewtonEval} {tol : ℝ} (fuel nr : ℕ) (x : ℝ)
    (hx : newtonIterate f nr = some x) (h : dpLoop f tol fuel nr x = none) :
    ∀ k, nr < k → k ≤ nr + fuel + 1 → 2 ≤ k → ∀ z, newtonIterate f k = some z →
      ¬ (f z).dpNorm < tol := by
  induction fuel generalizing nr x with
  | zero =>
    intro k h1 h2 h3 z hz
    obtain rfl : k = nr + 1 := by omega
    rw [dpLoop_zero] at h
    split at h
    · rename_i hj
      rw [newtonIterate_stuck hx hj (nr + 1) (by omega)] at hz; cases hz
    · rename_i hj
      have hs := newtonIterate_succ hx hj
      rw [hs] at hz
      obtain rfl := Option.some.inj hz
      split at h
      · cases h
      · rename_i hc
        exact fun hlt => hc ⟨hlt, by omega⟩
  | succ fuel ih =>
    intro k h1 h2 h3 z hz
    rw [dpLoop_succ] at h
    split at h
    · rename_i hj
      rw [newtonIterate_stuck hx hj k h1] at hz; cases hz
    · rename_i hj
      have hs := newtonIterate_succ hx hj
      split at h
      · cases h
      · rename_i hc
        by_cases hkn : k = nr + 1
        · subst hkn
          rw [hs] at hz
          obtain rfl := Option.some.inj hz
          exact fun hlt => hc ⟨hlt, by omega⟩
        · exact ih (nr + 1) _ hs h k (by omega) (by omega) h3 z hz

theorem dpLoop_none_iff {f : ℝ → NewtonEval} :
    dpLoop f suTol suMaxIter 0 0 = none ↔ NeverConverges f := by
  constructor
  · intro h k h1 h2 z hz
    rw [← dpNorm_lt_iff]
    exact dpLoop_none suMaxIter 0 0 rfl h k (by omega) (by simpa [suMaxIter] using h2) h1 z hz
  · intro h
    cases hl : dpLoop f suTol suMaxIter 0 0 with
    | none => rfl
    | some y =>
      obtain ⟨k, -, h2, h3, h4, h5, -⟩ := dpLoop_some suMaxIter 0 0 rfl hl
      exact absurd ((dpNorm_lt_iff _).mp h5) (h k h3 (by simpa [suMaxIter] using h2) y h4)

theorem dpLoop_some_iff {f : ℝ → NewtonEval} {y : ℝ} :
    dpLoop f suTol suMaxIter 0 0 = some y ↔ FirstConverged f y := by
  constructor
  · intro h
    obtain ⟨k, -, h2, h3, h4, h5, h6⟩ := dpLoop_some suMaxIter 0 0 rfl h
    refine ⟨k, h3, by simpa [suMaxIter] using h2, h4, (dpNorm_lt_iff _).mp h5, ?_⟩
    intro j hj1 hj2 z hz
    rw [← dpNorm_lt_iff]
    exact h6 j (by omega) hj2 hj1 z hz
  · rintro ⟨k, h1, h2, h3, h4, h5⟩
    cases hl : dpLoop f suTol suMaxIter 0 0 with
    | none => exact absurd h4 (dpLoop_none_iff.mp hl k h1 h2 y h3)
    | some y' =>
      obtain ⟨k', -, h2', h3', h4', h5', h6'⟩ := dpLoop_some suMaxIter 0 0 rfl hl
      rcases Nat.lt_trichotomy k k' with h | h | h
      · exact absurd ((dpNorm_lt_iff _).mpr h4) (h6' k (by omega) h h1 y h3)
      · subst h; rw [h3] at h4'; exact h4'.symm ▸ rfl
      · exact absurd ((dpNorm_lt_iff _).mp h5') (h5 k' h3' h y' h4')

theorem soid6_eq : soid6 = one6 := by
  funext k
  fin_cases k <;> simp [soid6, one6, kel6, ci, cj, kf, getIdOperators]

theorem sum_unkel6 (w : V6) : ∑ i, unkel6 w i i = tr6 w := by
  simp [Fin.sum_univ_three, unkel6, tr6, pos6, kf]

theorem sqrt_j2 (s : V6) : √(1 / 2 * norm6 (dev6 s) ^ 2) = sqrtJ2 s := by
  rw [Real.sqrt_mul (by norm_num), Real.sqrt_sq (norm6_nonneg _), sqrtJ2, Real.sqrt_div (by norm_num)]
  simp; ring

theorem sqrtJ2_nonneg (s : V6) : 0 ≤ sqrtJ2 s := div_nonneg (norm6_nonneg _) (Real.sqrt_nonneg _)

end Hooke
