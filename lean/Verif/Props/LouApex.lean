import Verif.Props.LouVMAP

/-!
# C90: accumulated plastic strain of returns to the apex
-/

noncomputable section

namespace Hooke

open Spec

/-- The return to the apex in perfect plasticity takes one Newton step. -/
theorem lou_apex_perfect {m : LouParams} {y a b : ℝ} (hA : Admissible m.E m.v)
    (hy : m.y = fun _ => (y, 0)) (ha : ∀ x, (m.a x).1 = a) (hb : ∀ x, (m.b x).1 = b)
    (h0 : 0 < 3 * a * b) (hq : (3 * a * b) ^ 2 < 3) (pT accOld : ℝ) :
    ∃ alpha r, 0 < alpha ∧ louApex m pT accOld = some r ∧
      r.acc = accOld + alpha * ((pT - y / (3 * a * b)) / m.K) := by
  have hK : 0 < m.K := hA.bulk_pos
  set eta := 3 * a * b with he
  have hq' : 0 < 1 - 1 / 3 * eta ^ 2 := by linarith
  have hal : louAlpha (m.a 0).1 (m.b 0).1 = some (2 * √3 / 3 * √(1 - 1 / 3 * eta ^ 2) / eta) := by
    unfold louAlpha
    rw [ha, hb]
    simp only [← he]
    rw [if_neg]
    rintro (h | h)
    · linarith
    · exact h0.ne' h
  set alpha := 2 * √3 / 3 * √(1 - 1 / 3 * eta ^ 2) / eta with hal'
  have hapos : 0 < alpha := by
    have : 0 < √(1 - 1 / 3 * eta ^ 2) := Real.sqrt_pos.mpr hq'
    positivity
  have hev : ∀ x, louApexEval m alpha pT accOld x =
      some { residual := y * (1 / eta) - (pT - m.K * x), scale := y, jacobian := m.K } := by
    intro x
    unfold louApexEval
    simp only [ha, hb, ← he, hy]
    rw [if_neg h0.ne']
    simp
  set x1 := (pT - y / eta) / m.K with hx1
  have hr1 : y * (1 / eta) - (pT - m.K * x1) = 0 := by
    rw [hx1]; field_simp; ring
  have hx1' : 0 + -(y * (1 / eta) - (pT - m.K * 0)) / m.K = x1 := by
    rw [hx1]; field_simp; ring
  have hn1 : louApexNorm { residual := 0, scale := y, jacobian := m.K } < suTol := by
    have : louApexNorm { residual := 0, scale := y, jacobian := m.K } = 0 := by
      unfold louApexNorm; simp
    rw [this]; exact suTol_pos
  have hloop : louApexLoop (louApexEval m alpha pT accOld) accOld suMaxIter 0 0 0 = some x1 := by
    show louApexLoop (louApexEval m alpha pT accOld) accOld (18 + 1 + 1) 0 0 0 = some x1
    unfold louApexLoop
    rw [hev]
    simp only [lt_irrefl, gt_iff_lt, and_false, if_false, hK.ne']
    rw [hx1']
    unfold louApexLoop
    rw [hev]
    simp only [hr1]
    by_cases hdn : louApexStepNorm accOld (-(y * (1 / eta) - (pT - m.K * 0)) / m.K) < suTol
    · rw [if_pos ⟨hn1, hdn, by norm_num⟩]
    · rw [if_neg (fun h => hdn h.2.1)]
      simp only [hK.ne', if_false, neg_zero, zero_div, add_zero]
      unfold louApexLoop
      rw [hev]
      simp only [hr1]
      have hz : louApexStepNorm accOld 0 = 0 := by simp [louApexStepNorm]
      rw [if_pos ⟨hn1, by rw [hz]; exact suTol_pos, by norm_num⟩]
  refine ⟨alpha, louPlasticResult m (fun i j => 1 / (3 * m.K) * (pT - m.K * x1) *
    (getIdOperators 3).soid i j) (accOld + alpha * x1), hapos, ?_, rfl⟩
  unfold louApex
  rw [hal]
  simp only [Option.bind_some]
  rw [hloop]
  rfl

/-- The accumulated plastic strain is not monotone: without hardening, a plastic step whose trial
pressure is between 95 % and 100 % of the pressure at the apex is returned to the apex (the pressure
is increased) and lowers the accumulated plastic strain, below zero in the initial state. -/
theorem C90_accumulated_violated {p : PType} {m : LouParams} {y a b : ℝ} (hA : Admissible m.E m.v)
    (hy : m.y = fun _ => (y, 0)) (ha : ∀ x, (m.a x).1 = a) (hb : ∀ x, (m.b x).1 = b)
    (ha0 : 0 < a) (hb0 : 1e-6 ≤ b) (hq : (3 * a * b) ^ 2 < 3) {inc : T2 p.dim} {old : VMState p}
    (hel : ¬ LouTrialElastic m old inc)
    (h1 : 0.95 * (y / (3 * a * b)) < tr6 (louTrial m old inc) / 3)
    (h2 : tr6 (louTrial m old inc) / 3 < y / (3 * a * b)) :
    ∃ new, louUpdate p m inc old = .ok (.good new) ∧ new.isPlast = true ∧ new.acc < old.acc := by
  have hb1 : 0 < b := lt_of_lt_of_le (by norm_num) hb0
  have htr : to3D p old.eStrain old.e33 + to3D p (mf p inc) 0 = trial3D old inc := rfl
  have hK : 0 < m.K := hA.bulk_pos
  have hn : LouNearApex m old inc := by
    unfold LouNearApex
    rw [ha, hb, hy, if_neg ha0.ne', abs_of_pos hb1, max_eq_left hb0]
    exact h1
  obtain ⟨alpha, r, hal, hr, hacc⟩ := lou_apex_perfect hA hy ha hb (by positivity) hq
    (tr6 (louTrial m old inc) / 3) old.acc
  have hp : r.isPlast = true := by
    obtain ⟨_, _, _, -, -, -, rfl⟩ := louApex_some hr
    rfl
  have hu : louUpdate p m inc old = .ok (louState p (trial3D old inc) (old.strain - old.eStrain)
      (some r)) := by
    unfold louUpdate
    simp only [htr]
    rw [louReturn_cases, if_neg hel, if_pos hn, hr]
    rfl
  refine ⟨_, hu, hp, ?_⟩
  show r.acc < old.acc
  rw [hacc]
  have : (tr6 (louTrial m old inc) / 3 - y / (3 * a * b)) / m.K < 0 :=
    div_neg_of_neg_of_pos (by linarith) hK
  nlinarith

/-- a material without hardening with `a = 1`, `b = 1/2`, yield stress one -/
def louPerfect : LouParams :=
  { E := 1, v := 0, y := fun _ => (1, 0), a := fun _ => (1, 0), b := fun _ => (1 / 2, 0)
    c := fun _ => (0, 0), d := fun _ => (0, 0), assoc := true }

/-- uniaxial strain `1.95` of this material in the initial state: the accumulated plastic strain
becomes negative -/
example : ∃ new, louUpdate .solid louPerfect (uniInc 1.95) (vmInit .solid) = .ok (.good new) ∧
    new.isPlast = true ∧ new.acc < 0 := by
  have ht : unkel6 (louTrial louPerfect (vmInit .solid) (uniInc 1.95)) = uniaxial 1.95 := by
    have h : louTrial louPerfect (vmInit .solid) (uniInc 1.95) = ![1.95, 0, 0, 0, 0, 0] := by
      funext k
      fin_cases k <;>
        simp [louTrial, louPerfect, hooke6, lame, shear, trial3D, elastic3D, increment3D, vmInit,
          to3D, mf, kel6, uniInc, one6, tr6, ci, cj, kf]
    rw [h]
    funext i j
    fin_cases i <;> fin_cases j <;> simp [unkel6, pos6, kf, uniaxial]
  have htr : tr6 (louTrial louPerfect (vmInit .solid) (uniInc 1.95)) = 1.95 := by
    have := tr6_kel6 (unkel6 (louTrial louPerfect (vmInit .solid) (uniInc 1.95)))
    rw [kel6_unkel6] at this
    rw [this, ht]
    simp [trace, uniaxial, Fin.sum_univ_three]
  refine C90_accumulated_violated (m := louPerfect) (y := 1) (a := 1) (b := 1 / 2) admissible_one rfl
    (fun _ => rfl) (fun _ => rfl) one_pos (by norm_num) (by norm_num) ?_ ?_ ?_
  · rintro ⟨-, h | h⟩
    · have hz : lzyAt louPerfect (vmInit .solid).acc (louTrial louPerfect (vmInit .solid)
          (uniInc 1.95)) = 1 * (1 / 2 * 1.95 + √(devJ2 (uniaxial 1.95))) := by
        rw [lzyAt, ht, lzyStress]
        show 1 * (1 / 2 * trace (uniaxial 1.95) + (√(devJ2 (uniaxial 1.95) ^ 3 - 0 * _) -
          0 * _) ^ (1 / 3 : ℝ)) = _
        rw [zero_mul, zero_mul, sub_zero, sub_zero, cbrt_sqrt_cube (devJ2_nonneg _)]
        simp [trace, uniaxial, Fin.sum_univ_three]
      have hj : (1 : ℝ) ≤ √(devJ2 (uniaxial 1.95)) := by
        rw [Real.one_le_sqrt]
        simp [devJ2, deviator, trace, uniaxial, Fin.sum_univ_three]
        norm_num
      have h' := h.2
      rw [hz] at h'
      simp only [louPerfect] at h'
      norm_num at h'
      linarith
    · exact absurd h.1 (by simp [louPerfect])
  · rw [htr]; norm_num
  · rw [htr]; norm_num

end Hooke
