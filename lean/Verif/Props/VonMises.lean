import Verif.Lemmas.Plasticity
import Verif.Props.Elastic
import Verif.Props.Hardening

/-! # C28-C32: von Mises model -/

noncomputable section

namespace Hooke

open Spec

/-! ### Plane and 3D forms -/

/-- In plane strain the out-of-plane shear components vanish. -/
def Planar (p : PType) (w : V6) : Prop := p = .plane → w 4 = 0 ∧ w 5 = 0

theorem to3D_to2D {p : PType} {w : V6} (h : Planar p w) : to3D p (to2D p w) (get33 p w) = w := by
  cases p
  · obtain ⟨h4, h5⟩ := h rfl
    funext k
    fin_cases k <;> simp [to3D, to2D, get33, h4, h5]
  · rfl

theorem planar_to3D (p : PType) (x : Vmf p) (c : ℝ) : Planar p (to3D p x c) := by
  intro h; subst h; simp [to3D]

theorem planar_dev6 {p : PType} {w : V6} (h : Planar p w) : Planar p (dev6 w) := by
  intro hp
  obtain ⟨h4, h5⟩ := h hp
  simp [dev6, one6, h4, h5]

theorem planar_hooke6 {p : PType} {w : V6} (lam G : ℝ) (h : Planar p w) :
    Planar p (hooke6 lam G w) := by
  intro hp
  obtain ⟨h4, h5⟩ := h hp
  simp [hooke6, one6, h4, h5]

theorem planar_sub_smul {p : PType} {a b : V6} (c : ℝ) (ha : Planar p a) (hb : Planar p b) :
    Planar p (fun k => a k - c * b k) := by
  intro hp
  obtain ⟨h4, h5⟩ := ha hp
  obtain ⟨h4', h5'⟩ := hb hp
  simp [h4, h5, h4', h5']

theorem planar_vmFlow {p : PType} {w : V6} (h : Planar p w) : Planar p (vmFlow w) := by
  intro hp
  obtain ⟨h4, h5⟩ := planar_dev6 h hp
  simp [vmFlow, h4, h5]

theorem planar_trial {p : PType} (s : VMState p) (inc : T2 p.dim) : Planar p (trial3D s inc) := by
  intro hp
  obtain ⟨h4, h5⟩ := planar_to3D p s.eStrain s.e33 hp
  obtain ⟨h4', h5'⟩ := planar_to3D p (mf p inc) 0 hp
  simp [trial3D, elastic3D, increment3D, h4, h5, h4', h5']

theorem to2D_to3D (p : PType) (x : Vmf p) (c : ℝ) : to2D p (to3D p x c) = x := by
  cases p
  · funext k; fin_cases k <;> simp [to2D, to3D] <;> rfl
  · rfl

theorem to2D_add (p : PType) (a b : V6) : to2D p (a + b) = to2D p a + to2D p b := by
  cases p
  · funext k; fin_cases k <;> simp [to2D]
  · rfl

/-- Relation between the update of a state and the 3D return mapping. -/
theorem vmUpdate_good {p : PType} {E v : ℝ} {law : HardLaw} {inc : T2 p.dim} {old new : VMState p}
    {T : Option (Fin p.len → Fin p.len → ℝ)}
    (h : vmUpdate p E v law inc old = (.good new, T)) :
    ∃ r, vmReturn E v law (trial3D old inc) old.acc = some r ∧ elastic3D new = r.eStrain ∧
      stress3D new = r.stress ∧ new.acc = r.acc ∧ new.isPlast = r.isPlast ∧ new.isSuFail = false ∧
      new.strain = old.strain + mf p inc ∧ T = some (to2DM p r.tangent) := by
  unfold vmUpdate at h
  have htr : to3D p old.eStrain old.e33 + to3D p (mf p inc) 0 = trial3D old inc := rfl
  simp only [htr] at h
  cases hr : vmReturn E v law (trial3D old inc) old.acc with
  | none => rw [hr] at h; simp at h
  | some r =>
    rw [hr] at h
    simp only [Prod.mk.injEq, VMVars.good.injEq] at h
    obtain ⟨rfl, rfl⟩ := h
    have hpl : Planar p r.eStrain := by
      rcases (vmReturn_cases hr).2 with ⟨-, he, -⟩ | ⟨-, -, i, -, -, he⟩
      · rw [he]; exact planar_trial old inc
      · rw [he]
        exact planar_sub_smul i (planar_trial old inc)
          (planar_vmFlow (planar_hooke6 _ _ (planar_trial old inc)))
    refine ⟨r, rfl, to3D_to2D hpl, ?_, rfl, rfl, rfl, ?_, rfl⟩
    · refine to3D_to2D ?_
      rw [(vmReturn_cases hr).1]
      exact planar_hooke6 _ _ hpl
    · show to2D p (trial3D old inc) + (old.strain - old.eStrain) = _
      rw [← htr, to2D_add, to2D_to3D, to2D_to3D]
      abel

theorem vmUpdate_nan {p : PType} {E v : ℝ} {law : HardLaw} {inc : T2 p.dim} {old : VMState p} :
    (∃ s T, vmUpdate p E v law inc old = (.nan s, T)) ↔
      vmReturn E v law (trial3D old inc) old.acc = none := by
  unfold vmUpdate
  have htr : to3D p old.eStrain old.e33 + to3D p (mf p inc) 0 = trial3D old inc := rfl
  simp only [htr]
  cases hr : vmReturn E v law (trial3D old inc) old.acc <;> simp

/-! ### C28 -/

/-- C28a: a state update reports a failure exactly when the trial state is not elastic and none of
the Newton iterates number 1 to 20 meets the tolerance. -/
theorem C28_failure_iff {p : PType} {E v : ℝ} {law : HardLaw} {inc : T2 p.dim} {old : VMState p} :
    (∃ s T, vmUpdate p E v law inc old = (.nan s, T)) ↔
      ¬ TrialElastic E v law old inc ∧
      ∀ k, 1 ≤ k → k ≤ 20 → ∀ x, newtonIterate (plasticEquation E v law old inc) k = some x →
        ¬ Converged (plasticEquation E v law old inc) 1e-6 x := by
  rw [vmUpdate_nan, vmReturn_none, newton_none_iff]
  rfl

/-- C28b: otherwise the update succeeds; a plastic step uses the first of the Newton iterates
number 1 to 20 which meets the tolerance as plastic multiplier. -/
theorem C28_success {p : PType} {E v : ℝ} {law : HardLaw} {inc : T2 p.dim} {old new : VMState p}
    {T : Option (Fin p.len → Fin p.len → ℝ)} (h : vmUpdate p E v law inc old = (.good new, T)) :
    new.isSuFail = false ∧ T.isSome ∧ (new.isPlast = false ↔ TrialElastic E v law old inc) ∧
    (new.isPlast = true → ∃ k x, 1 ≤ k ∧ k ≤ 20 ∧
      newtonIterate (plasticEquation E v law old inc) k = some x ∧
      Converged (plasticEquation E v law old inc) 1e-6 x ∧
      (∀ j, 1 ≤ j → j < k → ∀ z, newtonIterate (plasticEquation E v law old inc) j = some z →
        ¬ Converged (plasticEquation E v law old inc) 1e-6 z) ∧ new.acc = old.acc + x) := by
  obtain ⟨r, hr, -, -, hacc, hpl, hf, -, rfl⟩ := vmUpdate_good h
  obtain ⟨-, hc⟩ := vmReturn_cases hr
  refine ⟨hf, rfl, ?_, ?_⟩
  · rw [hpl]
    rcases hc with ⟨h1, h2, h3, h4, h5⟩ | ⟨h1, h2, -⟩
    · simp only [h1, true_iff]; exact ⟨h4, h5⟩
    · simp only [h1, Bool.true_eq_false, false_iff]; exact h2
  · intro hp
    rw [hpl] at hp
    rcases hc with ⟨h1, -⟩ | ⟨-, -, x, h2, h3, -⟩
    · rw [h1] at hp; cases hp
    · obtain ⟨k, h4, h5, h6, h7, h8⟩ := newton_iff.mp h2
      exact ⟨k, x, h4, h5, h6, h7, h8, by rw [hacc, h3]⟩

/-- C28c: on failure the step still stores the total strain, everything else is NaN and every
later update of the NaN state fails again. -/
theorem C28_failure_state {p : PType} {E v : ℝ} {law : HardLaw} {inc : T2 p.dim} {old : VMState p}
    {s : Option (Vmf p)} {T : Option (Fin p.len → Fin p.len → ℝ)}
    (h : vmUpdate p E v law inc old = (.nan s, T)) (later : List (T2 p.dim)) :
    s = some (old.strain + mf p inc) ∧ T = none ∧
      ∃ s', later.foldl (vmStep p E v law) (.nan s) = .nan s' := by
  have hr := vmUpdate_nan.mp ⟨s, T, h⟩
  unfold vmUpdate at h
  have htr : to3D p old.eStrain old.e33 + to3D p (mf p inc) 0 = trial3D old inc := rfl
  simp only [htr, hr] at h
  simp only [Prod.mk.injEq, VMVars.nan.injEq] at h
  refine ⟨?_, h.2.symm, ?_⟩
  · rw [← h.1, ← htr, to2D_add, to2D_to3D, to2D_to3D]
    congr 1; abel
  · clear h
    induction later generalizing s with
    | nil => exact ⟨s, rfl⟩
    | cons i later ih => exact ih

/-! ### C29 -/

/-- C29: an elastic trial state is accepted as it is: total and elastic strain advance by the
increment, plastic strain and accumulated plastic strain stay, the stress is Hooke's law of the
elastic strain and so advances by Hooke's law of the increment, the step is flagged elastic, and
the tangent is the elastic one. -/
theorem C29_elastic_step {p : PType} {E v : ℝ} {law : HardLaw} {inc : T2 p.dim} {old : VMState p}
    (h : TrialElastic E v law old inc) :
    ∃ new, vmUpdate p E v law inc old =
        (.good new, some (to2DM p (kel66 (isoTensor (lame E v) (shear E v))))) ∧
      new.isPlast = false ∧ new.isSuFail = false ∧ new.acc = old.acc ∧
      (∀ k, elastic3D new k = elastic3D old k + increment3D p inc k) ∧
      (∀ k, strain3D new k = strain3D old k + increment3D p inc k) ∧
      plastic3D new = plastic3D old ∧
      stress3D new = hooke6 (lame E v) (shear E v) (elastic3D new) ∧
      (stress3D old = hooke6 (lame E v) (shear E v) (elastic3D old) →
        ∀ k, stress3D new k = stress3D old k +
          hooke6 (lame E v) (shear E v) (increment3D p inc) k) := by
  have hr : vmReturn E v law (trial3D old inc) old.acc = some
      { eStrain := trial3D old inc
        stress := mv6 (kel66 (isoTensor (lame E v) (shear E v))) (trial3D old inc)
        acc := old.acc, isPlast := false
        tangent := kel66 (isoTensor (lame E v) (shear E v)) } := by
    unfold vmReturn
    have h' : (law old.acc).1 ≠ 0 ∧ (√(3 / 2) * norm6 (dev6 (hooke6 (lamOf E v) (miuOf E v)
        (trial3D old inc))) - (law old.acc).1) / (law old.acc).1 ≤ suTol := h
    simp only [mv6_iso, mv6_devprojsym]
    rw [if_pos h']
    rfl
  have hu : ∃ new T, vmUpdate p E v law inc old = (.good new, T) := by
    unfold vmUpdate
    have htr : to3D p old.eStrain old.e33 + to3D p (mf p inc) 0 = trial3D old inc := rfl
    simp only [htr, hr]
    exact ⟨_, _, rfl⟩
  obtain ⟨new, T, hu⟩ := hu
  obtain ⟨r, hr', h1, h2, h3, h4, h5, h6, rfl⟩ := vmUpdate_good hu
  rw [hr] at hr'
  cases hr'
  have hs : ∀ k, strain3D new k = strain3D old k + increment3D p inc k := by
    intro k
    simp only [strain3D, increment3D, h6]
    cases p
    · fin_cases k <;> simp [to3D]
    · simp [to3D]
  have he : ∀ k, elastic3D new k = elastic3D old k + increment3D p inc k := by
    intro k; rw [h1]; rfl
  refine ⟨new, hu, h4, h5, h3, he, hs, ?_, ?_, ?_⟩
  · funext k; simp only [plastic3D, hs, he]; ring
  · rw [h2, h1, mv6_iso]
  · intro ho k
    rw [h2, mv6_iso, ho]
    simp only [hooke6, trial3D, tr6]
    ring

/-! ### C30 -/

/-- Old yield stress large enough for a yielding deviator not to be treated as zero. -/
theorem trial_dev_large {p : PType} {E v : ℝ} {law : HardLaw} {inc : T2 p.dim} {old : VMState p}
    (hsy : 2e-8 ≤ (law old.acc).1) (h : ¬ TrialElastic E v law old inc) :
    norm6 (dev6 (hooke6 (lame E v) (shear E v) (trial3D old inc))) > suSmall ∧
      (1 + 1e-6) * (law old.acc).1 < vm6 (hooke6 (lame E v) (shear E v) (trial3D old inc)) := by
  have hp : 0 < (law old.acc).1 := by linarith [show (0:ℝ) < 2e-8 by norm_num]
  unfold TrialElastic at h
  have h' : 1e-6 < (vm6 (hooke6 (lame E v) (shear E v) (trial3D old inc)) - (law old.acc).1) /
      (law old.acc).1 := by
    by_contra hc
    exact h ⟨hp.ne', not_lt.mp hc⟩
  rw [lt_div_iff₀ hp] at h'
  have hvm : (1 + 1e-6) * (law old.acc).1 <
      vm6 (hooke6 (lame E v) (shear E v) (trial3D old inc)) := by linarith
  refine ⟨?_, hvm⟩
  rw [vm6_eq] at hvm
  have hn := norm6_nonneg (dev6 (hooke6 (lame E v) (shear E v) (trial3D old inc)))
  have hlt : (law old.acc).1 < 2 * norm6 (dev6 (hooke6 (lame E v) (shear E v) (trial3D old inc))) := by
    have := mul_le_mul_of_nonneg_right sqrt32_lt.le hn
    nlinarith
  unfold suSmall
  have : (2e-8 : ℝ) = 2 * 1e-8 := by norm_num
  linarith

/-- C30a: after a plastic step the von Mises stress equals the yield stress of the updated
accumulated plastic strain up to the relative tolerance `1e-6`. -/
theorem C30_yield_condition {p : PType} {E v : ℝ} {law : HardLaw} {inc : T2 p.dim}
    {old new : VMState p} {T : Option (Fin p.len → Fin p.len → ℝ)}
    (h : vmUpdate p E v law inc old = (.good new, T)) (hpl : new.isPlast = true)
    (hold : 2e-8 ≤ (law old.acc).1) (hnew : 0 < (law new.acc).1) :
    |vm6 (stress3D new) - (law new.acc).1| < 1e-6 * (law new.acc).1 := by
  obtain ⟨-, -, hel, -⟩ := C28_success h
  have hne : ¬ TrialElastic E v law old inc := by rw [← hel, hpl]; simp
  obtain ⟨hd, -⟩ := trial_dev_large hold hne
  obtain ⟨r, hr, h1, h2, h3, h4, -, -, -⟩ := vmUpdate_good h
  obtain ⟨hs, hc⟩ := vmReturn_cases hr
  rw [← h4, hpl] at hc
  rcases hc with ⟨hf, -⟩ | ⟨-, -, x, hx, hacc, he⟩
  · cases hf
  · obtain ⟨k, -, -, -, hcv, -⟩ := newton_iff.mp hx
    obtain ⟨-, hcv⟩ := hcv
    simp only [vmEval] at hcv
    rw [← hacc, ← h3, abs_of_pos hnew] at hcv
    rw [h2, hs, he, vm6_corrected hd]
    rw [show suTol = 1e-6 from rfl] at hcv
    have hpos : 0 < vm6 (hooke6 (lame E v) (shear E v) (trial3D old inc)) - 3 * shear E v * x := by
      have := (abs_lt.mp hcv).1
      nlinarith
    rwa [abs_of_pos hpos]

/-- C30b: in a plastic step the plastic strain increment is deviatoric (volume preserving) and
parallel to the trial deviator, `√(2/3)` times its norm is the change of the accumulated plastic
strain, the pressure is that of the trial stress, and the stress is Hooke's law of the elastic
strain. -/
theorem C30_flow_rule {p : PType} {E v : ℝ} {law : HardLaw} {inc : T2 p.dim}
    {old new : VMState p} {T : Option (Fin p.len → Fin p.len → ℝ)}
    (h : vmUpdate p E v law inc old = (.good new, T)) (hpl : new.isPlast = true)
    (hold : 2e-8 ≤ (law old.acc).1) :
    tr6 (fun k => plastic3D new k - plastic3D old k) = 0 ∧
    (∃ c, ∀ k, plastic3D new k - plastic3D old k =
      c * dev6 (hooke6 (lame E v) (shear E v) (trial3D old inc)) k) ∧
    √(2 / 3) * norm6 (fun k => plastic3D new k - plastic3D old k) = |new.acc - old.acc| ∧
    tr6 (stress3D new) = tr6 (hooke6 (lame E v) (shear E v) (trial3D old inc)) ∧
    stress3D new = hooke6 (lame E v) (shear E v) (elastic3D new) := by
  obtain ⟨-, -, hel, -⟩ := C28_success h
  have hne : ¬ TrialElastic E v law old inc := by rw [← hel, hpl]; simp
  obtain ⟨hd, -⟩ := trial_dev_large hold hne
  obtain ⟨r, hr, h1, h2, h3, h4, -, h6, -⟩ := vmUpdate_good h
  obtain ⟨hs, hc⟩ := vmReturn_cases hr
  rw [← h4, hpl] at hc
  rcases hc with ⟨hf, -⟩ | ⟨-, -, x, hx, hacc, he⟩
  · cases hf
  have hst : ∀ k, strain3D new k = strain3D old k + increment3D p inc k := by
    intro k
    simp only [strain3D, increment3D, h6]
    cases p
    · fin_cases k <;> simp [to3D]
    · simp [to3D]
  have hdp : (fun k => plastic3D new k - plastic3D old k) =
      fun k => x * vmFlow (hooke6 (lame E v) (shear E v) (trial3D old inc)) k := by
    funext k
    simp only [plastic3D, hst, h1, he]
    simp only [trial3D]
    ring
  refine ⟨?_, ?_, ?_, ?_, ?_⟩
  · rw [hdp]
    have := tr6_vmFlow (hooke6 (lame E v) (shear E v) (trial3D old inc))
    simp only [tr6] at this ⊢
    rw [← mul_add, ← mul_add, this, mul_zero]
  · refine ⟨x * (√(3 / 2) / norm6 (dev6 (hooke6 (lame E v) (shear E v) (trial3D old inc)))), ?_⟩
    intro k
    have := congrFun hdp k
    rw [this, vmFlow_scale hd]
    ring
  · rw [hdp, norm6_smul, vmFlow_norm hd, h3, hacc, add_sub_cancel_left]
    have : √(2 / 3 : ℝ) * √(3 / 2) = 1 := by
      rw [← Real.sqrt_mul (by norm_num)]; norm_num
    calc √(2 / 3) * (|x| * √(3 / 2)) = |x| * (√(2 / 3) * √(3 / 2)) := by ring
      _ = |x| := by rw [this, mul_one]
  · rw [h2, hs, he, hooke6_sub_smul, tr6_sub_smul]
    rw [tr6_hooke6 _ _ (vmFlow _), tr6_vmFlow]
    ring
  · rw [h2, h1, hs]

/-! ### C31 -/

/-- C31a: with a positive, never softening hardening law the accumulated plastic strain strictly
increases in a plastic step (so the plastic multiplier is positive), and stays in an elastic one. -/
theorem C31_accumulated {p : PType} {E v : ℝ} (hA : Admissible E v) {law : HardLaw}
    (hm : NonSoftening law) (hpos : ∀ x, 2e-8 ≤ (law x).1) {inc : T2 p.dim} {old new : VMState p}
    {T : Option (Fin p.len → Fin p.len → ℝ)} (h : vmUpdate p E v law inc old = (.good new, T)) :
    (new.isPlast = true → old.acc < new.acc) ∧ (new.isPlast = false → new.acc = old.acc) := by
  have hG := hA.shear_pos
  obtain ⟨r, hr, h1, h2, h3, h4, -, h6, -⟩ := vmUpdate_good h
  obtain ⟨hs, hc⟩ := vmReturn_cases hr
  constructor
  · intro hpl
    obtain ⟨-, -, hel, -⟩ := C28_success h
    have hne : ¬ TrialElastic E v law old inc := by rw [← hel, hpl]; simp
    obtain ⟨-, hq⟩ := trial_dev_large (hpos old.acc) hne
    rw [← h4, hpl] at hc
    rcases hc with ⟨hf, -⟩ | ⟨-, -, x, hx, hacc, he⟩
    · cases hf
    rw [h3, hacc]
    by_contra hle
    have hx0 : x ≤ 0 := by linarith
    obtain ⟨k, -, -, -, ⟨-, hcv⟩, -⟩ := newton_iff.mp hx
    simp only [vmEval] at hcv
    have hp : 0 < (law (old.acc + x)).1 := by
      have := hpos (old.acc + x); linarith [show (0:ℝ) < 2e-8 by norm_num]
    rw [abs_of_pos hp, show suTol = 1e-6 from rfl] at hcv
    have h7 := (abs_lt.mp hcv).2
    have h8 := hm (old.acc + x) old.acc (by linarith)
    have h9 : 0 ≤ -(3 * shear E v * x) := by
      have := mul_nonneg hG.le (neg_nonneg.mpr hx0); linarith
    nlinarith
  · intro hpl
    rw [← h4, hpl] at hc
    rcases hc with ⟨-, -, hacc, -⟩ | ⟨hf, -⟩
    · rw [h3, hacc]
    · cases hf

theorem vm6_zero : vm6 0 = 0 := by
  have : ∑ k : Fin 6, dev6 0 k ^ 2 = 0 := Finset.sum_eq_zero (fun k _ => by simp [dev6, tr6])
  simp [vm6, this]

theorem history_init (p : PType) {E v : ℝ} {law : HardLaw} (hpos : ∀ x, 2e-8 ≤ (law x).1) :
    HistoryInvariant E v law 0 (vmInit p) := by
  have h0 : ∀ p : PType, to3D p (0 : Vmf p) 0 = 0 := by
    intro p; cases p
    · funext k; fin_cases k <;> simp [to3D]
    · rfl
  have hs : stress3D (vmInit p) = 0 := h0 p
  have he : elastic3D (vmInit p) = 0 := h0 p
  have ht : strain3D (vmInit p) = 0 := h0 p
  refine ⟨(mf_zero p).symm, ?_, ?_, ?_, le_rfl, rfl⟩
  · rw [hs, he]; funext k; simp [hooke6, tr6]
  · simp [plastic3D, he, ht, tr6]
  · rw [hs, vm6_zero]
    have : 0 < (law 0).1 := by have := hpos 0; linarith [show (0:ℝ) < 2e-8 by norm_num]
    have h2 : (vmInit p).acc = 0 := rfl
    rw [h2]; positivity

theorem mf_add (p : PType) (a b : T2 p.dim) : mf p (a + b) = mf p a + mf p b := by
  cases p
  · funext k; fin_cases k <;> simp [mf, add_mul]
  · funext k; simp [mf, kel6, add_mul]

theorem history_step {p : PType} {E v : ℝ} (hA : Admissible E v) {law : HardLaw}
    (hm : NonSoftening law) (hpos : ∀ x, 2e-8 ≤ (law x).1) {inc total : T2 p.dim}
    {old new : VMState p} {T : Option (Fin p.len → Fin p.len → ℝ)}
    (h : vmUpdate p E v law inc old = (.good new, T)) (hi : HistoryInvariant E v law total old) :
    HistoryInvariant E v law (total + inc) new := by
  obtain ⟨r, hr, h1, h2, h3, h4, h5, h6, -⟩ := vmUpdate_good h
  obtain ⟨hs, hc⟩ := vmReturn_cases hr
  have hacc := C31_accumulated hA hm hpos h
  have hnew : 0 < (law new.acc).1 := by
    have := hpos new.acc; linarith [show (0:ℝ) < 2e-8 by norm_num]
  cases hpl : new.isPlast with
  | true =>
    have hf := C30_flow_rule h hpl (hpos old.acc)
    have hy := C30_yield_condition h hpl (hpos old.acc) hnew
    refine ⟨by rw [h6, hi.strain, mf_add], hf.2.2.2.2, ?_, ?_, ?_, h5⟩
    · have := hf.1
      have hv := hi.volume
      simp only [tr6] at this hv ⊢
      linarith
    · have := (abs_lt.mp hy).2
      linarith
    · exact hi.acc.trans (hacc.1 hpl).le
  | false =>
    have hel : TrialElastic E v law old inc := by
      rw [← (C28_success h).2.2.1]; exact hpl
    obtain ⟨new', h', -, -, ha, -, -, hp', hs', -⟩ := C29_elastic_step hel
    rw [h] at h'
    simp only [Prod.mk.injEq, VMVars.good.injEq] at h'
    obtain ⟨rfl, -⟩ := h'
    refine ⟨by rw [h6, hi.strain, mf_add], hs', by rw [hp']; exact hi.volume, ?_,
      by rw [ha]; exact hi.acc, h5⟩
    rw [ha]
    have hq := hel.2
    have hold : 0 < (law old.acc).1 := by rw [ha] at hnew; exact hnew
    rw [div_le_iff₀ hold] at hq
    have hst : stress3D new = hooke6 (lame E v) (shear E v) (trial3D old inc) := by
      rw [← h4, hpl] at hc
      rcases hc with ⟨-, he, -⟩ | ⟨hf, -⟩
      · rw [h2, hs, he]
      · cases hf
    rw [hst]
    linarith

/-- C31b: for a positive, never softening hardening law and any history of strain increments from
the initial state, if no step has failed then the total strain is the sum of the increments, the
stress is Hooke's law of the elastic strain, the plastic strain is volume preserving, the stress
is admissible within the tolerance and the accumulated plastic strain is nonnegative. -/
theorem C31_history {p : PType} {E v : ℝ} (hA : Admissible E v) {law : HardLaw}
    (hm : NonSoftening law) (hpos : ∀ x, 2e-8 ≤ (law x).1) (incs : List (T2 p.dim))
    {s : VMState p} (h : vmRun p E v law incs = .good s) :
    HistoryInvariant E v law incs.sum s := by
  suffices H : ∀ (incs : List (T2 p.dim)) (s0 : VMState p) (total : T2 p.dim),
      HistoryInvariant E v law total s0 →
      incs.foldl (vmStep p E v law) (.good s0) = .good s →
      HistoryInvariant E v law (total + incs.sum) s by
    have := H incs (vmInit p) 0 (history_init p hpos) h
    rwa [zero_add] at this
  intro incs
  induction incs with
  | nil =>
    intro s0 total h0 hs
    simp only [List.foldl_nil, VMVars.good.injEq] at hs
    subst hs
    simpa using h0
  | cons inc incs ih =>
    intro s0 total h0 hs
    simp only [List.foldl_cons, vmStep] at hs
    cases hu : vmUpdate p E v law inc s0 with
    | mk st T =>
      rw [hu] at hs
      cases st with
      | good s1 =>
        have := ih s1 (total + inc) (history_step hA hm hpos hu h0) hs
        rwa [List.sum_cons, ← add_assoc]
      | nan sn =>
        exfalso
        have : ∀ (l : List (T2 p.dim)) sn, l.foldl (vmStep p E v law) (.nan sn) ≠ .good s := by
          intro l
          induction l with
          | nil => intro sn h; cases h
          | cons i l ih => intro sn; exact ih none
        exact this incs sn hs

/-- C31c: along a history the accumulated plastic strain never decreases. -/
theorem C31_monotone {p : PType} {E v : ℝ} (hA : Admissible E v) {law : HardLaw}
    (hm : NonSoftening law) (hpos : ∀ x, 2e-8 ≤ (law x).1) (incs : List (T2 p.dim)) (inc : T2 p.dim)
    {s s' : VMState p} (h : vmRun p E v law incs = .good s)
    (h' : vmRun p E v law (incs ++ [inc]) = .good s') : s.acc ≤ s'.acc := by
  have : vmRun p E v law (incs ++ [inc]) = (vmUpdate p E v law inc s).1 := by
    unfold vmRun at h ⊢
    rw [List.foldl_append, h]; rfl
  rw [this] at h'
  have hu : vmUpdate p E v law inc s = (.good s', (vmUpdate p E v law inc s).2) := by
    rw [← h']
  obtain ⟨h1, h2⟩ := C31_accumulated hA hm hpos hu
  cases hp : s'.isPlast with
  | true => exact (h1 hp).le
  | false => exact (h2 hp).ge

/-! ### C32 -/

theorem newton_linear {n : ℕ} (hn : 1 ≤ n) {G q acc s0 a : ℝ} (hG : 0 < G) (ha : 0 ≤ a) (hs : 0 < s0) (hacc : 0 ≤ acc)
    (hq : s0 + a * acc < q) :
    newtonLoop (vmEval G q acc (linearHardening s0 a)) suTol n 0 0 =
      some ((q - (s0 + a * acc)) / (3 * G + a)) := by
  have hD : 0 < 3 * G + a := by linarith
  have hx : 0 < (q - (s0 + a * acc)) / (3 * G + a) := div_pos (by linarith) hD
  have hr0 : relu (acc + 0) = acc := by rw [add_zero]; exact max_eq_left hacc
  have hr1 : relu (acc + (q - (s0 + a * acc)) / (3 * G + a)) =
      acc + (q - (s0 + a * acc)) / (3 * G + a) := max_eq_left (by linarith)
  have hJ : ∀ y, (vmEval G q acc (linearHardening s0 a) y).jacobian ≠ 0 := by
    intro y
    simp only [vmEval, linearHardening]
    intro h; linarith
  have h1 : newtonIterate (vmEval G q acc (linearHardening s0 a)) 1 =
      some ((q - (s0 + a * acc)) / (3 * G + a)) := by
    have := newtonIterate_succ (f := vmEval G q acc (linearHardening s0 a)) (k := 0) (x := 0) rfl
      (hJ 0)
    rw [this]
    simp only [vmEval, linearHardening, hr0]
    congr 1
    rw [show -3 * G - a = -(3 * G + a) by ring, neg_div_neg_eq]
    ring
  refine newton_iff.mpr ⟨1, le_rfl, hn, h1, ?_, fun j hj1 hj2 => by omega⟩
  have hsc : 0 < s0 + a * (acc + (q - (s0 + a * acc)) / (3 * G + a)) := by
    have : 0 ≤ a * (acc + (q - (s0 + a * acc)) / (3 * G + a)) := mul_nonneg ha (by linarith)
    linarith
  simp only [Converged, vmEval, linearHardening, hr1]
  refine ⟨hsc.ne', ?_⟩
  have hz : q - 3 * G * ((q - (s0 + a * acc)) / (3 * G + a)) -
      (s0 + a * (acc + (q - (s0 + a * acc)) / (3 * G + a))) = 0 := by
    field_simp
    ring
  rw [hz, abs_zero, abs_of_pos hsc]
  exact mul_pos suTol_pos hsc

/-- C32a: with linear hardening (positive initial yield stress, nonnegative slope) a plastic step
always converges; the plastic multiplier is the closed form `(q - σy) / (3 G + H)`, it is
positive, and the updated stress lies exactly on the updated yield surface. -/
theorem C32_linear_exact {p : PType} {E v s0 a : ℝ} (hA : Admissible E v) (ha : 0 ≤ a)
    (hs : 2e-8 ≤ s0) {inc : T2 p.dim} {old : VMState p} (hacc : 0 ≤ old.acc)
    (hne : ¬ TrialElastic E v (linearHardening s0 a) old inc) :
    ∃ new T, vmUpdate p E v (linearHardening s0 a) inc old = (.good new, T) ∧
      new.isPlast = true ∧
      new.acc = old.acc +
        (vm6 (hooke6 (lame E v) (shear E v) (trial3D old inc)) - (s0 + a * old.acc)) /
          (3 * shear E v + a) ∧
      old.acc < new.acc ∧ vm6 (stress3D new) = s0 + a * new.acc := by
  have hG := hA.shear_pos
  have hs0 : 0 < s0 := by linarith [show (0:ℝ) < 2e-8 by norm_num]
  have hr : relu old.acc = old.acc := max_eq_left hacc
  have hlaw : (linearHardening s0 a old.acc).1 = s0 + a * old.acc := by
    simp [linearHardening, hr]
  have hge : 2e-8 ≤ (linearHardening s0 a old.acc).1 := by
    rw [hlaw]; have := mul_nonneg ha hacc; linarith
  obtain ⟨hd, hq⟩ := trial_dev_large hge hne
  rw [hlaw] at hq hge
  have hq' : s0 + a * old.acc < vm6 (hooke6 (lame E v) (shear E v) (trial3D old inc)) := by
    have : 0 < s0 + a * old.acc := by linarith [show (0:ℝ) < 2e-8 by norm_num]
    nlinarith
  have hn := newton_linear (n := suMaxIter) (by decide) hG ha hs0 hacc hq'
  have hsome : vmReturn E v (linearHardening s0 a) (trial3D old inc) old.acc ≠ none := by
    intro hnone
    have := (vmReturn_none.mp hnone).2
    rw [hn] at this; cases this
  have hu : ∃ new T, vmUpdate p E v (linearHardening s0 a) inc old = (.good new, T) := by
    cases hu : vmUpdate p E v (linearHardening s0 a) inc old with
    | mk st T =>
      cases st with
      | good s => exact ⟨s, T, rfl⟩
      | nan s => exact absurd (vmUpdate_nan.mp ⟨s, T, hu⟩) hsome
  obtain ⟨new, T, hu⟩ := hu
  have hpl : new.isPlast = true := by
    have := (C28_success hu).2.2.1
    cases hp : new.isPlast with
    | true => rfl
    | false => exact absurd (this.mp hp) hne
  obtain ⟨r, hr', h1, h2, h3, h4, -, h6, -⟩ := vmUpdate_good hu
  obtain ⟨hst, hc⟩ := vmReturn_cases hr'
  rw [← h4, hpl] at hc
  rcases hc with ⟨hf, -⟩ | ⟨-, -, x, hx, hxa, he⟩
  · cases hf
  rw [hn] at hx
  cases hx
  have hxpos : 0 < (vm6 (hooke6 (lame E v) (shear E v) (trial3D old inc)) - (s0 + a * old.acc)) /
      (3 * shear E v + a) := div_pos (by linarith) (by linarith)
  refine ⟨new, T, hu, hpl, by rw [h3, hxa], by rw [h3, hxa]; linarith, ?_⟩
  rw [h2, hst, he, vm6_corrected hd, h3, hxa]
  have hD : 0 < 3 * shear E v + a := by linarith
  have heq : vm6 (hooke6 (lame E v) (shear E v) (trial3D old inc)) - 3 * shear E v *
      ((vm6 (hooke6 (lame E v) (shear E v) (trial3D old inc)) - (s0 + a * old.acc)) /
        (3 * shear E v + a)) =
      s0 + a * (old.acc + (vm6 (hooke6 (lame E v) (shear E v) (trial3D old inc)) -
        (s0 + a * old.acc)) / (3 * shear E v + a)) := by
    field_simp
    ring
  rw [heq, abs_of_pos]
  have : 0 ≤ a * (old.acc + (vm6 (hooke6 (lame E v) (shear E v) (trial3D old inc)) -
        (s0 + a * old.acc)) / (3 * shear E v + a)) := mul_nonneg ha (by linarith)
  linarith

/-- C32b: with linear hardening no history ever fails. -/
theorem C32_never_fails {p : PType} {E v s0 a : ℝ} (hA : Admissible E v) (ha : 0 ≤ a)
    (hs : 2e-8 ≤ s0) (incs : List (T2 p.dim)) :
    ∃ s, vmRun p E v (linearHardening s0 a) incs = .good s := by
  suffices H : ∀ (incs : List (T2 p.dim)) (st : VMState p), 0 ≤ st.acc →
      ∃ s, incs.foldl (vmStep p E v (linearHardening s0 a)) (.good st) = .good s by
    exact H incs (vmInit p) le_rfl
  intro incs
  induction incs with
  | nil => intro st _; exact ⟨st, rfl⟩
  | cons inc incs ih =>
    intro st hst
    simp only [List.foldl_cons, vmStep]
    by_cases hel : TrialElastic E v (linearHardening s0 a) st inc
    · obtain ⟨new, hu, -, -, hacc, -⟩ := C29_elastic_step hel
      rw [hu]
      exact ih new (by rw [hacc]; exact hst)
    · obtain ⟨new, T, hu, -, -, hlt, -⟩ := C32_linear_exact hA ha hs hst hel
      rw [hu]
      exact ih new (hst.trans hlt.le)

/-! ### Non-vacuity: uniaxial straining of a material with `E = 1`, `ν = 0` and
`σy = 1 + acc`, and a softening law for which the return mapping fails -/

/-- Strain increment `d` along the first axis. -/
def uniInc (d : ℝ) : T2 3 := fun i j => if i = 0 ∧ j = 0 then d else 0

theorem vm6_uni (d : ℝ) :
    vm6 (hooke6 (lame 1 0) (shear 1 0) (trial3D (vmInit .solid) (uniInc d))) = |d| := by
  have h : hooke6 (lame 1 0) (shear 1 0) (trial3D (vmInit .solid) (uniInc d)) =
      ![d, 0, 0, 0, 0, 0] := by
    funext k
    fin_cases k <;>
      simp [hooke6, lame, shear, trial3D, elastic3D, increment3D, vmInit, to3D, mf, kel6, uniInc,
        one6, tr6, ci, cj, kf]
  rw [h, vm6_eq, norm6, ← Real.sqrt_mul (by norm_num), ← Real.sqrt_sq_eq_abs]
  congr 1
  simp [Fin.sum_univ_succ, dev6, tr6, one6]
  ring

theorem admissible_one : Admissible 1 0 := ⟨by norm_num, by norm_num, by norm_num⟩

theorem law_init : linearHardening 1 1 (vmInit .solid).acc = (1, 1) := by
  simp [linearHardening, vmInit, relu]

theorem uni_elastic : TrialElastic 1 0 (linearHardening 1 1) (vmInit .solid) (uniInc (1 / 2)) := by
  unfold TrialElastic
  rw [vm6_uni, law_init]
  norm_num [abs_of_pos]

theorem uni_plastic : ¬ TrialElastic 1 0 (linearHardening 1 1) (vmInit .solid) (uniInc 3) := by
  unfold TrialElastic
  rw [vm6_uni, law_init]
  norm_num [abs_of_pos]

/-- hypotheses of C29 are met -/
example : ∃ new T, vmUpdate .solid 1 0 (linearHardening 1 1) (uniInc (1 / 2)) (vmInit .solid) =
    (.good new, T) ∧ new.isPlast = false := by
  obtain ⟨new, h, h', -⟩ := C29_elastic_step uni_elastic
  exact ⟨new, _, h, h'⟩

/-- hypotheses of C28b, C30, C31a and C32a are met; the plastic strain is `4 / 5` -/
example : ∃ new T, vmUpdate .solid 1 0 (linearHardening 1 1) (uniInc 3) (vmInit .solid) =
    (.good new, T) ∧ new.isPlast = true ∧ new.acc = 4 / 5 ∧ vm6 (stress3D new) = 9 / 5 := by
  obtain ⟨new, T, h, h', h2, -, h4⟩ := C32_linear_exact admissible_one zero_le_one
    (by norm_num : (2e-8 : ℝ) ≤ 1) le_rfl uni_plastic
  have : new.acc = 4 / 5 := by
    rw [h2, vm6_uni]; norm_num [vmInit, shear, abs_of_pos]
  exact ⟨new, T, h, h', this, by rw [h4, this]; norm_num⟩

/-- hypotheses of C31 are met by linear hardening -/
example : NonSoftening (linearHardening 1 1) ∧ ∀ x, 2e-8 ≤ (linearHardening 1 1 x).1 := by
  constructor
  · intro x y h
    simp only [linearHardening, relu]
    have := max_le_max_right 0 h
    linarith
  · intro x
    have : 0 ≤ relu x := le_max_right _ _
    simp only [linearHardening]
    have h2 : (2e-8 : ℝ) ≤ 1 := by norm_num
    linarith

/-- a step which fails: softening with slope `-3 G` -/
example : ∃ s T, vmUpdate .solid 1 0 (fun _ => (1, -3 / 2)) (uniInc 3) (vmInit .solid) =
    (.nan s, T) := by
  rw [C28_failure_iff]
  constructor
  · unfold TrialElastic
    rw [vm6_uni]
    norm_num [abs_of_pos]
  · intro k hk1 hk2 x hx
    exfalso
    have h1 : newtonIterate (plasticEquation 1 0 (fun _ => (1, -3 / 2)) (vmInit .solid)
        (uniInc 3)) 1 = none := by
      refine newtonIterate_stuck (k := 0) (x := 0) rfl ?_ 1 one_pos
      norm_num [plasticEquation, shear]
    rw [newtonIterate_none h1 k hk1] at hx
    cases hx

end Hooke
