import Verif.Spec.Plasticity
import Verif.Lemmas.Kelvin6
import Mathlib.Tactic.Positivity

noncomputable section

namespace Hooke

open Spec

/-! ### The Newton loop -/

theorem small_iff (f : ℝ → NewtonEval) (tol x : ℝ) : (f x).small tol ↔ Converged f tol x := by
  unfold NewtonEval.small Converged
  constructor
  · rintro ⟨h1, h2⟩
    refine ⟨h1, ?_⟩
    rwa [abs_div, div_lt_iff₀ (abs_pos.mpr h1)] at h2
  · rintro ⟨h1, h2⟩
    refine ⟨h1, ?_⟩
    rwa [abs_div, div_lt_iff₀ (abs_pos.mpr h1)]

theorem newtonLoop_succ (f : ℝ → NewtonEval) (tol : ℝ) (fuel nr : ℕ) (x : ℝ) :
    newtonLoop f tol (fuel + 1) nr x =
      if (f x).small tol ∧ nr > 0 then some x
      else if (f x).jacobian = 0 then none
      else newtonLoop f tol fuel (nr + 1) (x + -(f x).residual / (f x).jacobian) := by
  conv_lhs => unfold newtonLoop

theorem newtonLoop_zero (f : ℝ → NewtonEval) (tol : ℝ) (nr : ℕ) (x : ℝ) :
    newtonLoop f tol 0 nr x = if (f x).small tol ∧ nr > 0 then some x else none := by
  conv_lhs => unfold newtonLoop

theorem newtonIterate_succ {f : ℝ → NewtonEval} {k : ℕ} {x : ℝ} (h : newtonIterate f k = some x)
    (hj : (f x).jacobian ≠ 0) :
    newtonIterate f (k + 1) = some (x + -(f x).residual / (f x).jacobian) := by
  simp only [newtonIterate, h, if_neg hj]
  congr 1
  ring

theorem newtonIterate_none {f : ℝ → NewtonEval} {k : ℕ} (h : newtonIterate f k = none) :
    ∀ j, k ≤ j → newtonIterate f j = none := by
  intro j hj
  induction j with
  | zero => have : k = 0 := by omega
            subst this; exact h
  | succ j ih =>
    rcases Nat.le_succ_iff.mp hj with h1 | h1
    · simp [newtonIterate, ih h1]
    · subst h1; exact h

theorem newtonIterate_stuck {f : ℝ → NewtonEval} {k : ℕ} {x : ℝ} (h : newtonIterate f k = some x)
    (hj : (f x).jacobian = 0) : ∀ j, k < j → newtonIterate f j = none := by
  intro j hkj
  exact newtonIterate_none (k := k + 1) (by simp [newtonIterate, h, hj]) j hkj

theorem newton_some {f : ℝ → NewtonEval} {tol : ℝ} (fuel nr : ℕ) (x : ℝ)
    (hx : newtonIterate f nr = some x) {y : ℝ} (h : newtonLoop f tol fuel nr x = some y) :
    ∃ k, nr ≤ k ∧ k ≤ nr + fuel ∧ 0 < k ∧ newtonIterate f k = some y ∧ Converged f tol y ∧
      ∀ j, nr ≤ j → j < k → 0 < j → ∀ z, newtonIterate f j = some z → ¬ Converged f tol z := by
  induction fuel generalizing nr x with
  | zero =>
    rw [newtonLoop_zero] at h
    split at h
    · rename_i hc
      cases h
      exact ⟨nr, le_rfl, le_rfl, hc.2, hx, (small_iff f tol _).mp hc.1, by omega⟩
    · cases h
  | succ fuel ih =>
    rw [newtonLoop_succ] at h
    split at h
    · rename_i hc
      cases h
      exact ⟨nr, le_rfl, by omega, hc.2, hx, (small_iff f tol _).mp hc.1, by omega⟩
    · rename_i hc
      split at h
      · cases h
      · rename_i hj
        obtain ⟨k, h1, h2, h3, h4, h5, h6⟩ := ih (nr + 1) _ (newtonIterate_succ hx hj) h
        refine ⟨k, by omega, by omega, h3, h4, h5, ?_⟩
        intro j hj1 hj2 hj3 z hz
        rcases hj1.lt_or_eq with h7 | h7
        · exact h6 j h7 hj2 hj3 z hz
        · subst h7
          rw [hx] at hz
          cases hz
          intro hcz
          exact hc ⟨(small_iff f tol x).mpr hcz, hj3⟩

theorem newton_none {f : ℝ → NewtonEval} {tol : ℝ} (fuel nr : ℕ) (x : ℝ)
    (hx : newtonIterate f nr = some x) (h : newtonLoop f tol fuel nr x = none) :
    ∀ k, nr ≤ k → k ≤ nr + fuel → 0 < k → ∀ z, newtonIterate f k = some z →
      ¬ Converged f tol z := by
  induction fuel generalizing nr x with
  | zero =>
    rw [newtonLoop_zero] at h
    split at h
    · cases h
    · rename_i hc
      intro k h1 h2 h3 z hz hcz
      have : k = nr := by omega
      subst this
      rw [hx] at hz; cases hz
      exact hc ⟨(small_iff f tol x).mpr hcz, h3⟩
  | succ fuel ih =>
    rw [newtonLoop_succ] at h
    split at h
    · cases h
    · rename_i hc
      intro k h1 h2 h3 z hz hcz
      rcases h1.lt_or_eq with h7 | h7
      · split at h
        · rename_i hj
          rw [newtonIterate_stuck hx hj k h7] at hz; cases hz
        · rename_i hj
          exact ih (nr + 1) _ (newtonIterate_succ hx hj) h k h7 (by omega) h3 z hz hcz
      · subst h7
        rw [hx] at hz; cases hz
        exact hc ⟨(small_iff f tol x).mpr hcz, h3⟩

/-- The loop returns the first Newton iterate (after the starting point) within the tolerance. -/
theorem newton_iff {f : ℝ → NewtonEval} {tol : ℝ} {n : ℕ} {y : ℝ} :
    newtonLoop f tol n 0 0 = some y ↔
      ∃ k, 1 ≤ k ∧ k ≤ n ∧ newtonIterate f k = some y ∧ Converged f tol y ∧
        ∀ j, 1 ≤ j → j < k → ∀ z, newtonIterate f j = some z → ¬ Converged f tol z := by
  constructor
  · intro h
    obtain ⟨k, -, h2, h3, h4, h5, h6⟩ := newton_some n 0 0 rfl h
    exact ⟨k, h3, by omega, h4, h5, fun j hj1 hj2 z hz => h6 j (by omega) hj2 hj1 z hz⟩
  · rintro ⟨k, h1, h2, h3, h4, h5⟩
    cases hl : newtonLoop f tol n 0 0 with
    | none => exact absurd h4 (newton_none n 0 0 rfl hl k (by omega) (by omega) h1 y h3)
    | some y' =>
      obtain ⟨k', -, h2', h3', h4', h5', h6'⟩ := newton_some n 0 0 rfl hl
      rcases Nat.lt_trichotomy k k' with h | h | h
      · exact absurd h4 (h6' k (by omega) h h1 y h3)
      · subst h; rw [h3] at h4'; exact h4'.symm ▸ rfl
      · exact absurd h5' (h5 k' h3' h y' h4')

theorem newton_none_iff {f : ℝ → NewtonEval} {tol : ℝ} {n : ℕ} :
    newtonLoop f tol n 0 0 = none ↔
      ∀ k, 1 ≤ k → k ≤ n → ∀ z, newtonIterate f k = some z → ¬ Converged f tol z := by
  constructor
  · intro h k h1 h2 z hz
    exact newton_none n 0 0 rfl h k (by omega) (by omega) h1 z hz
  · intro h
    cases hl : newtonLoop f tol n 0 0 with
    | none => rfl
    | some y =>
      obtain ⟨k, h1, h2, h3, h4, -⟩ := newton_iff.mp hl
      exact absurd h4 (h k h1 h2 y h3)

/-! ### Kelvin vectors -/

theorem norm6_nonneg (v : V6) : 0 ≤ norm6 v := Real.sqrt_nonneg _

theorem norm6_smul (c : ℝ) (v : V6) : norm6 (fun k => c * v k) = |c| * norm6 v := by
  have : ∑ i, (c * v i) ^ 2 = c ^ 2 * ∑ i, v i ^ 2 := by
    rw [Finset.mul_sum]; exact Finset.sum_congr rfl (fun i _ => by ring)
  rw [norm6, this, Real.sqrt_mul (sq_nonneg c), Real.sqrt_sq_eq_abs, norm6]

theorem vm6_eq (s : V6) : vm6 s = √(3 / 2) * norm6 (dev6 s) := rfl

theorem vm6_nonneg (s : V6) : 0 ≤ vm6 s := by
  rw [vm6_eq]; exact mul_nonneg (Real.sqrt_nonneg _) (norm6_nonneg _)

theorem tr6_dev6 (s : V6) : tr6 (dev6 s) = 0 := by
  simp [tr6, dev6, one6]; ring

theorem dev6_dev6 (s : V6) : dev6 (dev6 s) = dev6 s := by
  funext k
  have := tr6_dev6 s
  conv_lhs => rw [dev6]
  rw [this]
  simp

theorem tr6_hooke6 (lam G : ℝ) (e : V6) : tr6 (hooke6 lam G e) = (3 * lam + 2 * G) * tr6 e := by
  simp [tr6, hooke6, one6]; ring

theorem dev6_hooke6 (lam G : ℝ) (e : V6) : dev6 (hooke6 lam G e) = fun k => 2 * G * dev6 e k := by
  funext k
  simp only [dev6, tr6_hooke6]
  simp only [hooke6]
  ring

theorem tr6_sub_smul (a b : V6) (c : ℝ) : tr6 (fun k => a k - c * b k) = tr6 a - c * tr6 b := by
  simp [tr6]; ring

theorem hooke6_sub_smul (lam G : ℝ) (a b : V6) (c : ℝ) :
    hooke6 lam G (fun k => a k - c * b k) =
      fun k => hooke6 lam G a k - c * hooke6 lam G b k := by
  funext k
  simp only [hooke6, tr6_sub_smul]
  ring

theorem dev6_sub_smul (a b : V6) (c : ℝ) :
    dev6 (fun k => a k - c * b k) = fun k => dev6 a k - c * dev6 b k := by
  funext k
  simp only [dev6, tr6_sub_smul]
  ring

theorem hooke6_dev {lam G : ℝ} {b : V6} (hb : tr6 b = 0) :
    hooke6 lam G b = fun k => 2 * G * b k := by
  funext k; simp [hooke6, hb]

theorem dev6_of_tr {b : V6} (hb : tr6 b = 0) : dev6 b = b := by
  funext k; simp [dev6, hb]

theorem sqrt32_mul : √(3 / 2 : ℝ) * √(3 / 2) = 3 / 2 := Real.mul_self_sqrt (by norm_num)
theorem sqrt32_pos : 0 < √(3 / 2 : ℝ) := by positivity
theorem sqrt32_lt : √(3 / 2 : ℝ) < 2 := by
  rw [Real.sqrt_lt' (by norm_num)]; norm_num

theorem suTol_pos : 0 < suTol := by unfold suTol; norm_num
theorem suTol_lt : suTol < 1 := by unfold suTol; norm_num

theorem Spec.Admissible.shear_pos {E v : ℝ} (h : Admissible E v) : 0 < shear E v := by
  have := h.young; have := h.lower
  unfold shear
  have : 0 < 1 + v := by linarith
  positivity

/-! ### von Mises return mapping -/

/-- The flow vector of the return mapping. -/
def vmFlow (s : V6) : V6 := fun k =>
  √(3 / 2) * (if norm6 (dev6 s) > suSmall then 1 / norm6 (dev6 s) else 0) * dev6 s k

theorem tr6_vmFlow (s : V6) : tr6 (vmFlow s) = 0 := by
  have := tr6_dev6 s
  simp only [tr6] at this
  simp only [tr6, vmFlow, ← mul_add, this, mul_zero]

theorem vmFlow_scale {s : V6} (h : norm6 (dev6 s) > suSmall) :
    vmFlow s = fun k => √(3 / 2) / norm6 (dev6 s) * dev6 s k := by
  funext k
  simp only [vmFlow, if_pos h]
  ring

theorem vmFlow_norm {s : V6} (h : norm6 (dev6 s) > suSmall) : norm6 (vmFlow s) = √(3 / 2) := by
  have hs : 0 < suSmall := by unfold suSmall; norm_num
  have hp : 0 < norm6 (dev6 s) := hs.trans h
  rw [vmFlow_scale h, norm6_smul, abs_of_pos (div_pos sqrt32_pos hp), div_mul_cancel₀ _ hp.ne']

/-- Outcome of the 3D return mapping. -/
theorem vmReturn_cases {E v : ℝ} {law : HardLaw} {eT : V6} {acc : ℝ} {r : VMReturn}
    (h : vmReturn E v law eT acc = some r) :
    r.stress = hooke6 (lame E v) (shear E v) r.eStrain ∧
    ((r.isPlast = false ∧ r.eStrain = eT ∧ r.acc = acc ∧ (law acc).1 ≠ 0 ∧
      (vm6 (hooke6 (lame E v) (shear E v) eT) - (law acc).1) / (law acc).1 ≤ suTol) ∨
     (r.isPlast = true ∧ ¬ ((law acc).1 ≠ 0 ∧
        (vm6 (hooke6 (lame E v) (shear E v) eT) - (law acc).1) / (law acc).1 ≤ suTol) ∧
      ∃ inc, newtonLoop (vmEval (shear E v) (vm6 (hooke6 (lame E v) (shear E v) eT)) acc law)
          suTol suMaxIter 0 0 = some inc ∧ r.acc = acc + inc ∧
        r.eStrain = fun k => eT k - inc * vmFlow (hooke6 (lame E v) (shear E v) eT) k)) := by
  have hl : lamOf E v = lame E v := rfl
  have hm : miuOf E v = shear E v := rfl
  have hG : E / (2 * (1 + v)) = shear E v := rfl
  unfold vmReturn at h
  simp only [mv6_iso, mv6_devprojsym, hl, hm, hG, ← vm6_eq] at h
  split at h
  · rename_i hc
    cases h
    exact ⟨rfl, Or.inl ⟨rfl, rfl, rfl, hc.1, hc.2⟩⟩
  · rename_i hc
    split at h
    · cases h
    · rename_i inc hinc
      cases h
      exact ⟨rfl, Or.inr ⟨rfl, hc, inc, hinc, rfl, rfl⟩⟩

theorem vmReturn_none {E v : ℝ} {law : HardLaw} {eT : V6} {acc : ℝ} :
    vmReturn E v law eT acc = none ↔
      ¬ ((law acc).1 ≠ 0 ∧
        (vm6 (hooke6 (lame E v) (shear E v) eT) - (law acc).1) / (law acc).1 ≤ suTol) ∧
      newtonLoop (vmEval (shear E v) (vm6 (hooke6 (lame E v) (shear E v) eT)) acc law)
          suTol suMaxIter 0 0 = none := by
  have hl : lamOf E v = lame E v := rfl
  have hm : miuOf E v = shear E v := rfl
  have hG : E / (2 * (1 + v)) = shear E v := rfl
  unfold vmReturn
  simp only [mv6_iso, mv6_devprojsym, hl, hm, hG, ← vm6_eq]
  split
  · rename_i hc
    simp [hc]
  · rename_i hc
    split
    · rename_i hn; simp [hc, hn]
    · rename_i hn; simp [hn]

/-- The stress after a plastic correction of a deviator of norm above `small`. -/
theorem vm6_corrected {E v : ℝ} {eT : V6} {inc : ℝ}
    (h : norm6 (dev6 (hooke6 (lame E v) (shear E v) eT)) > suSmall) :
    vm6 (hooke6 (lame E v) (shear E v)
      (fun k => eT k - inc * vmFlow (hooke6 (lame E v) (shear E v) eT) k)) =
      |vm6 (hooke6 (lame E v) (shear E v) eT) - 3 * shear E v * inc| := by
  set s := hooke6 (lame E v) (shear E v) eT with hs
  have hsm : 0 < suSmall := by unfold suSmall; norm_num
  have hp : 0 < norm6 (dev6 s) := hsm.trans h
  rw [hooke6_sub_smul, hooke6_dev (tr6_vmFlow s), vm6_eq, dev6_sub_smul]
  have h2 : dev6 (fun k => 2 * shear E v * vmFlow s k) = fun k => 2 * shear E v * vmFlow s k := by
    apply dev6_of_tr
    have := tr6_vmFlow s
    simp only [tr6] at this ⊢
    rw [← mul_add, ← mul_add, this, mul_zero]
  rw [h2]
  have h3 : (fun k => dev6 s k - inc * (2 * shear E v * vmFlow s k)) =
      fun k => (1 - inc * (2 * shear E v) * (√(3 / 2) / norm6 (dev6 s))) * dev6 s k := by
    funext k
    rw [vmFlow_scale h]
    ring
  rw [h3, norm6_smul, vm6_eq]
  have h4 : √(3 / 2) * norm6 (dev6 s) - 3 * shear E v * inc =
      (√(3 / 2) * norm6 (dev6 s)) * (1 - inc * (2 * shear E v) * (√(3 / 2) / norm6 (dev6 s))) := by
    have : √(3 / 2) * norm6 (dev6 s) * (inc * (2 * shear E v) * (√(3 / 2) / norm6 (dev6 s))) =
        (√(3 / 2) * √(3 / 2)) * (inc * (2 * shear E v)) := by
      field_simp
    rw [mul_sub, this, sqrt32_mul]
    ring
  rw [h4, abs_mul, abs_of_pos (mul_pos sqrt32_pos hp)]
  ring

end Hooke
