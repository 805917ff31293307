import Verif.Model.VonMisesVMAP
import Verif.Lemmas.Plasticity

noncomputable section

namespace Hooke

open Spec

/-- The masked loop after `m` iterations. -/
def maskRun (f : ℝ → NewtonEval) (tol : ℝ) (m : ℕ) : Option ℝ × Bool :=
  (List.range m).foldl (fun s nrIter => maskStep f tol false s.1 nrIter) (some 0, false)

theorem maskRun_succ (f : ℝ → NewtonEval) (tol : ℝ) (m : ℕ) :
    maskRun f tol (m + 1) = maskStep f tol false (maskRun f tol m).1 m := by
  simp [maskRun, List.range_succ]

theorem maskRun_inv (f : ℝ → NewtonEval) (tol : ℝ) (m : ℕ) :
    (∃ k y, 1 ≤ k ∧ k < m ∧ newtonIterate f k = some y ∧ Converged f tol y ∧
      (∀ j, 1 ≤ j → j < k → ∀ z, newtonIterate f j = some z → ¬ Converged f tol z) ∧
      maskRun f tol m = (some y, true)) ∨
    ((∀ k, 1 ≤ k → k < m → ∀ z, newtonIterate f k = some z → ¬ Converged f tol z) ∧
      maskRun f tol m = (newtonIterate f m, false)) := by
  induction m with
  | zero => right; exact ⟨fun k h1 h2 => by omega, rfl⟩
  | succ m ih =>
    rw [maskRun_succ]
    rcases ih with ⟨k, y, h1, h2, h3, h4, h5, h6⟩ | ⟨h1, h2⟩
    · left
      refine ⟨k, y, h1, by omega, h3, h4, h5, ?_⟩
      rw [h6]
      have hs := (small_iff f tol y).mpr h4
      have hm : m > 0 := by omega
      simp [maskStep, hs, hm]
    · rw [h2]
      cases hx : newtonIterate f m with
      | none =>
        right
        refine ⟨?_, ?_⟩
        · intro k hk1 hk2 z hz
          by_cases hkm : k = m
          · subst hkm; rw [hx] at hz; cases hz
          · exact h1 k hk1 (by omega) z hz
        · simp [maskStep, newtonIterate, hx]
      | some x =>
        by_cases hc : Converged f tol x ∧ m > 0
        · left
          refine ⟨m, x, hc.2, by omega, hx, hc.1, fun j hj1 hj2 => h1 j hj1 hj2, ?_⟩
          have hs := (small_iff f tol x).mpr hc.1
          simp [maskStep, hs, hc.2]
        · right
          refine ⟨?_, ?_⟩
          · intro k hk1 hk2 z hz
            by_cases hkm : k = m
            · subst hkm; rw [hx] at hz; cases hz
              exact fun h => hc ⟨h, hk1⟩
            · exact h1 k hk1 (by omega) z hz
          · have hs : (decide ((f x).small tol) && decide (m > 0)) = false := by
              rw [Bool.and_eq_false_iff]
              by_contra hcon
              push Not at hcon
              simp only [ne_eq, Bool.not_eq_false, decide_eq_true_eq] at hcon
              exact hc ⟨(small_iff f tol x).mp hcon.1, hcon.2⟩
            simp only [maskStep, hs, newtonIterate, hx]
            by_cases hj : (f x).jacobian = 0
            · simp [hj]
            · simp only [Bool.false_eq_true, if_false, if_neg hj]
              congr 2
              ring

theorem maskedLoop_eq (f : ℝ → NewtonEval) (tol : ℝ) (n : ℕ) :
    (if (maskedLoop f tol false n).2 then (maskedLoop f tol false n).1 else none) =
      newtonLoop f tol n 0 0 := by
  have h : maskedLoop f tol false n = maskRun f tol (n + 1) := rfl
  rw [h]
  rcases maskRun_inv f tol (n + 1) with ⟨k, y, h1, h2, h3, h4, h5, h6⟩ | ⟨h1, h2⟩
  · rw [h6]
    simp only [if_true]
    exact (newton_iff.mpr ⟨k, h1, by omega, h3, h4, h5⟩).symm
  · rw [h2]
    simp only [Bool.false_eq_true, if_false]
    exact (newton_none_iff.mpr fun k hk1 hk2 => h1 k hk1 (by omega)).symm

/-- The batched 3D return mapping. -/
theorem vmapReturn_cases {E v : ℝ} {law : HardLaw} {eT : V6} {acc : ℝ} {r : VMReturn}
    (h : vmapReturn E v law eT acc = some r) :
    r.stress = hooke6 (lame E v) (shear E v) r.eStrain ∧
    ((r.isPlast = false ∧ r.eStrain = eT ∧ r.acc = acc ∧ (law acc).1 ≠ 0 ∧
      (vm6 (hooke6 (lame E v) (shear E v) eT) - (law acc).1) / (law acc).1 ≤ suTol) ∨
     (r.isPlast = true ∧ ¬ ((law acc).1 ≠ 0 ∧
        (vm6 (hooke6 (lame E v) (shear E v) eT) - (law acc).1) / (law acc).1 ≤ suTol) ∧
      ∃ inc, newtonLoop (vmEval (shear E v) (vm6 (hooke6 (lame E v) (shear E v) eT)) acc law)
          suTol vmapMaxIter 0 0 = some inc ∧ r.acc = acc + inc ∧
        r.eStrain = fun k => eT k -
          inc * vmapFlow suSmall (dev6 (hooke6 (lame E v) (shear E v) eT)) k)) := by
  have hl : lamOf E v = lame E v := rfl
  have hm : miuOf E v = shear E v := rfl
  have hG : E / (2 * (1 + v)) = shear E v := rfl
  unfold vmapReturn at h
  simp only [mv6_iso, mv6_devprojsym, hl, hm, hG, ← vm6_eq] at h
  by_cases hc : (law acc).1 ≠ 0 ∧
      (vm6 (hooke6 (lame E v) (shear E v) eT) - (law acc).1) / (law acc).1 ≤ suTol
  · rw [decide_eq_true hc] at h
    simp only [if_true, vmapElasticStep, Option.some.injEq] at h
    subst h
    exact ⟨rfl, Or.inl ⟨rfl, rfl, rfl, hc.1, hc.2⟩⟩
  · rw [decide_eq_false hc] at h
    simp only [Bool.false_eq_true, if_false, vmapPlasticStep, maskedLoop_eq] at h
    cases hn : newtonLoop (vmEval (shear E v) (vm6 (hooke6 (lame E v) (shear E v) eT)) acc law)
          suTol vmapMaxIter 0 0 with
    | none => rw [hn] at h; simp at h
    | some inc =>
      rw [hn] at h
      simp only [Option.some.injEq] at h
      subst h
      exact ⟨by simp only [mv6_iso], Or.inr ⟨rfl, hc, inc, rfl, rfl, rfl⟩⟩

theorem vmapReturn_none {E v : ℝ} {law : HardLaw} {eT : V6} {acc : ℝ} :
    vmapReturn E v law eT acc = none ↔
      ¬ ((law acc).1 ≠ 0 ∧
        (vm6 (hooke6 (lame E v) (shear E v) eT) - (law acc).1) / (law acc).1 ≤ suTol) ∧
      newtonLoop (vmEval (shear E v) (vm6 (hooke6 (lame E v) (shear E v) eT)) acc law)
          suTol vmapMaxIter 0 0 = none := by
  have hl : lamOf E v = lame E v := rfl
  have hm : miuOf E v = shear E v := rfl
  have hG : E / (2 * (1 + v)) = shear E v := rfl
  unfold vmapReturn
  simp only [mv6_iso, mv6_devprojsym, hl, hm, hG, ← vm6_eq]
  by_cases hc : (law acc).1 ≠ 0 ∧
      (vm6 (hooke6 (lame E v) (shear E v) eT) - (law acc).1) / (law acc).1 ≤ suTol
  · rw [decide_eq_true hc]
    simp [hc]
  · rw [decide_eq_false hc]
    simp only [Bool.false_eq_true, if_false, vmapPlasticStep, maskedLoop_eq, hc, not_false_eq_true,
      true_and]
    cases hn : newtonLoop (vmEval (shear E v) (vm6 (hooke6 (lame E v) (shear E v) eT)) acc law)
          suTol vmapMaxIter 0 0 <;> simp

/-- Norm of a Kelvin vector with `small` added to every component. -/
theorem norm6_add_small {dev : V6} (ht : tr6 dev = 0) (small : ℝ) :
    norm6 (fun k => dev k + small) ^ 2 =
      norm6 dev ^ 2 + 2 * small * (dev 3 + dev 4 + dev 5) + 6 * small ^ 2 := by
  unfold norm6
  rw [Real.sq_sqrt (Finset.sum_nonneg fun _ _ => sq_nonneg _),
    Real.sq_sqrt (Finset.sum_nonneg fun _ _ => sq_nonneg _)]
  simp only [Fin.sum_univ_six]
  simp only [tr6] at ht
  linear_combination 2 * small * ht

end Hooke
