import Verif.Lemmas.TangentForm
import Verif.Props.ConsistentTangentMixed
import Verif.Props.VonMisesMixedVMAP
import Verif.Props.DruckerPragerVMAP

/-! # C152: symmetry and positive definiteness of the tangents -/

noncomputable section

namespace Hooke

open Spec

/-! ### Symmetry -/

theorem vmReturn_sym {E v : ℝ} {law : HardLaw} {e : V6} {acc : ℝ} {r : VMReturn}
    (h : vmReturn E v law e acc = some r) (p : PType) : SymMatrix (to2DM p r.tangent) := by
  unfold vmReturn at h
  simp only at h
  split at h
  · cases h; exact (major_iso _ _).to2DM p
  · split at h
    · cases h
    · cases h; exact (major_plastic _ _ _ _ _).to2DM p

theorem mixReturn_sym {E v : ℝ} {law kin : HardLaw} {e b : V6} {acc : ℝ} {r : MixReturn}
    (h : mixReturn E v law kin e acc b = some r) (p : PType) : SymMatrix (to2DM p r.tangent) := by
  unfold mixReturn at h
  simp only at h
  split at h
  · cases h; exact (major_iso _ _).to2DM p
  · split at h
    · cases h
    · cases h; exact (major_plastic _ _ _ _ _).to2DM p

theorem vmapReturn_sym {E v : ℝ} {law : HardLaw} {e : V6} {acc : ℝ} {r : VMReturn}
    (h : vmapReturn E v law e acc = some r) (p : PType) : SymMatrix (to2DM p r.tangent) := by
  unfold vmapReturn at h
  simp only at h
  split at h
  · cases h
  · obtain rfl := Option.some.inj h
    simp only
    split
    · exact (major_plastic _ _ _ _ _).to2DM p
    · exact (major_iso _ _).to2DM p

theorem mixVmapReturn_sym {E v : ℝ} {law kin : HardLaw} {e b : V6} {acc : ℝ} {r : MixReturn}
    (h : mixVmapReturn E v law kin e acc b = some r) (p : PType) :
    SymMatrix (to2DM p r.tangent) := by
  unfold mixVmapReturn at h
  simp only at h
  split at h
  · cases h
  · obtain rfl := Option.some.inj h
    simp only
    split
    · exact (major_plastic _ _ _ _ _).to2DM p
    · exact (major_iso _ _).to2DM p

/-- **C152.** The tangent returned by the von Mises model is symmetric, whatever the constants,
the hardening law, the state and the increment. -/
theorem C152_vonMises_symmetric {p : PType} {E v : ℝ} {law : HardLaw} {inc : T2 p.dim}
    {old : VMState p} {st : VMVars p} {T : Fin p.len → Fin p.len → ℝ}
    (h : vmUpdate p E v law inc old = (st, some T)) : SymMatrix T := by
  unfold vmUpdate at h
  simp only at h
  split at h
  · cases h
  · rename_i r hr
    cases h
    exact vmReturn_sym hr p

/-- **C152.** So is the tangent of the batched von Mises model. -/
theorem C152_vonMises_batched_symmetric {p : PType} {E v : ℝ} {law : HardLaw} {inc : T2 p.dim}
    {old : VMState p} {st : VMVars p} {T : Fin p.len → Fin p.len → ℝ}
    (h : vmapUpdate p E v law inc old = (st, some T)) : SymMatrix T := by
  unfold vmapUpdate at h
  simp only at h
  split at h
  · cases h
  · rename_i r hr
    cases h
    exact vmapReturn_sym hr p

/-- **C152.** So is the tangent of the model with mixed hardening. -/
theorem C152_mixed_symmetric {p : PType} {E v : ℝ} {law kin : HardLaw} {inc : T2 p.dim}
    {old : MixState p} {st : MixVars p} {T : Fin p.len → Fin p.len → ℝ}
    (h : mixUpdate p E v law kin inc old = (st, some T)) : SymMatrix T := by
  unfold mixUpdate at h
  simp only at h
  split at h
  · cases h
  · rename_i r hr
    cases h
    exact mixReturn_sym hr p

/-- **C152.** So is the tangent of the batched model with mixed hardening. -/
theorem C152_mixed_batched_symmetric {p : PType} {E v : ℝ} {law kin : HardLaw} {inc : T2 p.dim}
    {old : MixState p} {st : MixVars p} {T : Fin p.len → Fin p.len → ℝ}
    (h : mixVmapUpdate p E v law kin inc old = (st, some T)) : SymMatrix T := by
  unfold mixVmapUpdate at h
  simp only at h
  split at h
  · cases h
  · rename_i r hr
    cases h
    exact mixVmapReturn_sym hr p

/-! ### Positive definiteness -/

theorem lame_shear_pos {E v : ℝ} (h : Admissible E v) : 0 < lame E v + 2 * shear E v / 3 := by
  have h1 := h.young; have h2 := h.lower; have h3 := h.upper
  have e : lame E v + 2 * shear E v / 3 = bulk E v := by
    unfold lame shear bulk
    have a : (1 + v) ≠ 0 := by linarith
    have b : (1 - 2 * v) ≠ 0 := by intro hc; linarith
    rw [div_add' _ _ _ (mul_ne_zero a b), div_eq_div_iff (mul_ne_zero a b) (by positivity)]
    field_simp
    ring
  rw [e]
  unfold bulk
  have : 0 < 1 - 2 * v := by linarith
  positivity

theorem elastic_posdef {E v : ℝ} (h : Admissible E v) (p : PType) :
    PosDefinite (to2DM p (kel66 (isoTensor (lame E v) (shear E v)))) := by
  intro x hx
  rw [work_to2DM, mv6_iso, dot_hooke]
  have hG := h.shear_pos
  have hK := lame_shear_pos h
  set y := to3D p x 0 with hy
  have hd := devSq_nonneg y
  rcases hd.lt_or_eq with hd | hd
  · have := sq_nonneg (tr6 y)
    positivity
  · have ht : tr6 y ≠ 0 := fun hc => to3D_ne_zero hx (dev6_eq_zero hc hd.symm)
    have : 0 < tr6 y ^ 2 := by positivity
    rw [← hd]
    simp only [mul_zero, add_zero]
    positivity

/-- The form of a plastic tangent, `κ tr² + 2Gθ (D - P) + h P`. -/
theorem form_nonneg {K G θ h : ℝ} {s y : V6} (hs : tr6 s = 0) (hn : 0 < norm6 s) (hK : 0 < K)
    (hG : 0 < G) (hθ : 0 < θ) (hh : 0 ≤ h) :
    0 ≤ K * tr6 y ^ 2 + 2 * G * θ * (devSq y - alongSq s y) + h * alongSq s y := by
  have h1 := sub_nonneg.mpr (alongSq_le hs hn y)
  have h2 := alongSq_nonneg s y
  positivity

theorem form_pos {K G θ h : ℝ} {s y : V6} (hs : tr6 s = 0) (hn : 0 < norm6 s) (hK : 0 < K)
    (hG : 0 < G) (hθ : 0 < θ) (hh : 0 < h) (hy : y ≠ 0) :
    0 < K * tr6 y ^ 2 + 2 * G * θ * (devSq y - alongSq s y) + h * alongSq s y := by
  have h1 := sub_nonneg.mpr (alongSq_le hs hn y)
  have h2 := alongSq_nonneg s y
  have ha : 0 ≤ K * tr6 y ^ 2 := by positivity
  have hb : 0 ≤ 2 * G * θ * (devSq y - alongSq s y) := by positivity
  have hc : 0 ≤ h * alongSq s y := by positivity
  rcases (add_nonneg (add_nonneg ha hb) hc).lt_or_eq with hlt | heq
  · exact hlt
  · exfalso
    have e1 : K * tr6 y ^ 2 = 0 := by linarith
    have e2 : 2 * G * θ * (devSq y - alongSq s y) = 0 := by linarith
    have e3 : h * alongSq s y = 0 := by linarith
    have t : tr6 y = 0 := by
      rcases mul_eq_zero.mp e1 with hz | hz
      · exact absurd hz hK.ne'
      · exact pow_eq_zero_iff (two_ne_zero) |>.mp hz
    have a0 : alongSq s y = 0 := (mul_eq_zero.mp e3).resolve_left hh.ne'
    have d0 : devSq y - alongSq s y = 0 := (mul_eq_zero.mp e2).resolve_left (by positivity)
    exact hy (dev6_eq_zero t (by linarith))

theorem form_self {K G θ h : ℝ} {s : V6} (hs : tr6 s = 0) (hn : 0 < norm6 s) :
    K * tr6 s ^ 2 + 2 * G * θ * (devSq s - alongSq s s) + h * alongSq s s = h * norm6 s ^ 2 := by
  have hd : devSq s = norm6 s ^ 2 := by
    rw [norm6_sq_eq]; unfold devSq
    exact Finset.sum_congr rfl fun k _ => by simp [dev6, hs]
  have ha : alongSq s s = norm6 s ^ 2 := by
    unfold alongSq
    have : ∑ k, s k * s k = norm6 s ^ 2 := by
      rw [norm6_sq_eq]; exact Finset.sum_congr rfl fun k _ => by ring
    rw [this]
    field_simp
  rw [hd, ha, hs]
  ring

/-- The quadratic form of a plastic step of the von Mises model. -/
theorem vm_plastic_work {p : PType} {E v : ℝ} {law : HardLaw} {inc : T2 p.dim} {old new : VMState p}
    {T : Fin p.len → Fin p.len → ℝ} (hE : Admissible E v) (hsy : 2e-8 ≤ (law old.acc).1)
    (h : vmUpdate p E v law inc old = (.good new, some T)) (hp : new.isPlast = true)
    (hy : 0 < (law new.acc).1) (hH : 3 * shear E v + (law new.acc).2 ≠ 0) :
    ∃ (s : V6) (θ : ℝ), tr6 s = 0 ∧ 0 < norm6 s ∧ 0 < θ ∧ ∀ x, work2 T x =
      (lame E v + 2 * shear E v / 3) * tr6 (to3D p x 0) ^ 2 +
      2 * shear E v * θ * (devSq (to3D p x 0) - alongSq s (to3D p x 0)) +
      2 * shear E v * (law new.acc).2 / (3 * shear E v + (law new.acc).2) *
        alongSq s (to3D p x 0) := by
  obtain ⟨r, hr, -, -, hacc, hpl, -, -, hT⟩ := vmUpdate_good h
  obtain rfl := Option.some.inj hT
  rw [hpl] at hp
  rw [hacc] at hy hH ⊢
  obtain ⟨-, hc | ⟨-, hne, i, hi, hacci, -⟩⟩ := vmReturn_cases hr
  · rw [hc.1] at hp; cases hp
  have hne' : ¬ TrialElastic E v law old inc := by
    unfold TrialElastic; rw [show (1e-6 : ℝ) = suTol from by unfold suTol; norm_num]; exact hne
  obtain ⟨hl, -⟩ := trial_dev_large hsy hne'
  set sg := hooke6 (lame E v) (shear E v) (trial3D old inc) with hsg
  have hn : 0 < norm6 (dev6 sg) := lt_trans (by unfold suSmall; norm_num) hl
  have hq : 0 < vm6 sg := by rw [vm6_eq]; exact mul_pos sqrt32_pos hn
  obtain ⟨-, -, -, -, hcv, -⟩ := newton_iff.mp hi
  refine ⟨dev6 sg, 1 - 3 * shear E v * i / vm6 sg, tr6_dev6 _, hn, ?_, fun x => ?_⟩
  · have h1 : |(vm6 sg - 3 * shear E v * i - (law r.acc).1)| < (law r.acc).1 := by
      obtain ⟨-, h2⟩ := hcv
      simp only [vmEval] at h2
      rw [← hacci, abs_of_pos hy] at h2
      have := suTol_lt
      nlinarith
    have h2 := (abs_lt.mp h1).1
    rw [sub_pos, div_lt_one hq]
    linarith
  · rw [work_to2DM]
    refine plastic_form hn hH fun k => ?_
    have ht := vmReturn_tangent hr hp (to3D p x 0) k
    rw [← hsg, vmFlow_scale hl] at ht
    rw [ht]
    have : r.acc - old.acc = i := by rw [hacci]; ring
    rw [this]

/-- **C152.** The tangent of an elastic step of the von Mises model is positive definite. -/
theorem C152_vonMises_elastic {p : PType} {E v : ℝ} {law : HardLaw} {inc : T2 p.dim}
    {old new : VMState p} {T : Fin p.len → Fin p.len → ℝ} (hE : Admissible E v)
    (h : vmUpdate p E v law inc old = (.good new, some T)) (hp : new.isPlast = false) :
    PosDefinite T := by
  obtain ⟨r, hr, -, -, -, hpl, -, -, hT⟩ := vmUpdate_good h
  obtain rfl := Option.some.inj hT
  rw [hpl] at hp
  unfold vmReturn at hr
  simp only at hr
  split at hr
  · cases hr; exact elastic_posdef hE p
  · split at hr <;> cases hr
    cases hp

/-- **C152.** The tangent of a plastic step of the von Mises model is positive semidefinite when
the hardening slope at the new state is not negative. -/
theorem C152_vonMises_semidefinite {p : PType} {E v : ℝ} {law : HardLaw} {inc : T2 p.dim}
    {old new : VMState p} {T : Fin p.len → Fin p.len → ℝ} (hE : Admissible E v)
    (hsy : 2e-8 ≤ (law old.acc).1) (h : vmUpdate p E v law inc old = (.good new, some T))
    (hp : new.isPlast = true) (hy : 0 < (law new.acc).1) (hH : 0 ≤ (law new.acc).2) :
    PosSemidef T := by
  have hG := hE.shear_pos
  obtain ⟨s, θ, hs, hn, hθ, hw⟩ := vm_plastic_work hE hsy h hp hy (by positivity)
  intro x
  rw [hw]
  exact form_nonneg hs hn (lame_shear_pos hE) hG hθ (by positivity)

/-- **C152.** It is positive definite when the material hardens at the new state. -/
theorem C152_vonMises_definite {p : PType} {E v : ℝ} {law : HardLaw} {inc : T2 p.dim}
    {old new : VMState p} {T : Fin p.len → Fin p.len → ℝ} (hE : Admissible E v)
    (hsy : 2e-8 ≤ (law old.acc).1) (h : vmUpdate p E v law inc old = (.good new, some T))
    (hp : new.isPlast = true) (hy : 0 < (law new.acc).1) (hH : 0 < (law new.acc).2) :
    PosDefinite T := by
  have hG := hE.shear_pos
  obtain ⟨s, θ, hs, hn, hθ, hw⟩ := vm_plastic_work hE hsy h hp hy (by positivity)
  intro x hx
  rw [hw]
  exact form_pos hs hn (lame_shear_pos hE) hG hθ (by positivity) (to3D_ne_zero hx)

/-- **C152.** In three dimensions it is positive definite only then: without hardening, or with
softening milder than `3 G`, some strain has no positive second-order work. -/
theorem C152_vonMises_hardening_needed {E v : ℝ} {law : HardLaw} {inc : T2 3}
    {old new : VMState .solid} {T : Fin 6 → Fin 6 → ℝ} (hE : Admissible E v)
    (hsy : 2e-8 ≤ (law old.acc).1) (h : vmUpdate .solid E v law inc old = (.good new, some T))
    (hp : new.isPlast = true) (hy : 0 < (law new.acc).1) (hH : -(3 * shear E v) < (law new.acc).2) :
    PosDefinite T ↔ 0 < (law new.acc).2 := by
  have hG := hE.shear_pos
  refine ⟨fun hT => ?_, C152_vonMises_definite hE hsy h hp hy⟩
  have h3 : 0 < 3 * shear E v + (law new.acc).2 := by linarith
  obtain ⟨s, θ, hs, hn, -, hw⟩ := vm_plastic_work hE hsy h hp hy h3.ne'
  have hs0 : s ≠ 0 := by
    rintro rfl
    simp [norm6] at hn
  have h1 := hT s hs0
  rw [hw] at h1
  have h2 : to3D .solid s 0 = s := rfl
  rw [h2, form_self hs hn] at h1
  have h4 : 0 < 2 * shear E v * (law new.acc).2 / (3 * shear E v + (law new.acc).2) :=
    (mul_pos_iff_of_pos_right (by positivity)).mp h1
  have h5 : 0 < 2 * shear E v * (law new.acc).2 := by
    have := mul_pos h4 h3
    rwa [div_mul_cancel₀ _ h3.ne'] at this
  exact (mul_pos_iff_of_pos_left (by positivity)).mp h5

/-- **C152.** The same step with mixed hardening: the slopes of the isotropic and of the kinematic
hardening add up. -/
theorem mix_plastic_work {p : PType} {E v : ℝ} {law kin : HardLaw} {inc : T2 p.dim}
    {old new : MixState p} {T : Fin p.len → Fin p.len → ℝ}
    (hback : tr6 (back3D old) = 0) (hsy : 2e-8 ≤ (law old.acc).1)
    (h : mixUpdate p E v law kin inc old = (.good new, some T)) (hp : new.isPlast = true)
    (hy : 0 < (law new.acc).1) (hk : (kin old.acc).1 ≤ (kin new.acc).1)
    (hH : 3 * shear E v + ((kin new.acc).2 + (law new.acc).2) ≠ 0) :
    ∃ (s : V6) (θ : ℝ), tr6 s = 0 ∧ 0 < norm6 s ∧ 0 < θ ∧ ∀ x, work2 T x =
      (lame E v + 2 * shear E v / 3) * tr6 (to3D p x 0) ^ 2 +
      2 * shear E v * θ * (devSq (to3D p x 0) - alongSq s (to3D p x 0)) +
      2 * shear E v * ((kin new.acc).2 + (law new.acc).2) /
        (3 * shear E v + ((kin new.acc).2 + (law new.acc).2)) * alongSq s (to3D p x 0) := by
  obtain ⟨r, hr, -, -, -, hacc, hpl, -, -, hT⟩ := mixUpdate_good h
  obtain rfl := Option.some.inj hT
  rw [hpl] at hp
  rw [hacc] at hy hH hk ⊢
  obtain ⟨-, hc | ⟨-, hne, i, hi, hacci, -⟩⟩ := mixReturn_cases hr
  · rw [hc.1] at hp; cases hp
  set s : V6 := fun k => dev6 (hooke6 (lame E v) (shear E v) (trial3D old.toVMState inc)) k -
    back3D old k with hsdef
  have hs : tr6 s = 0 := by
    have := tr6_dev6 (hooke6 (lame E v) (shear E v) (trial3D old.toVMState inc))
    simp only [tr6, hsdef] at this hback ⊢
    linarith
  have hp0 : 0 < (law old.acc).1 := by linarith [show (0:ℝ) < 2e-8 by norm_num]
  have hq1 : (law old.acc).1 < √(3 / 2) * norm6 s := by
    have h1 : suTol < (√(3 / 2) * norm6 s - (law old.acc).1) / (law old.acc).1 := by
      by_contra hcc
      exact hne ⟨hp0.ne', not_lt.mp hcc⟩
    rw [lt_div_iff₀ hp0] at h1
    have : 0 < suTol := by unfold suTol; norm_num
    nlinarith
  have hq : 0 < √(3 / 2) * norm6 s := hp0.trans hq1
  have h32 : √(3 / 2 : ℝ) < 2 := by
    rw [Real.sqrt_lt' (by norm_num)]; norm_num
  have hl : norm6 s > suSmall := by
    have h0 := norm6_nonneg s
    unfold suSmall
    nlinarith
  have hn : 0 < norm6 s := lt_trans (by unfold suSmall; norm_num) hl
  obtain ⟨-, -, -, -, hcv, -⟩ := newton_iff.mp hi
  refine ⟨s, 1 - 3 * shear E v * i / (√(3 / 2) * norm6 s), hs, hn, ?_, fun x => ?_⟩
  · have h1 : |(√(3 / 2) * norm6 s - 3 * shear E v * i - (kin r.acc).1 + (kin old.acc).1 -
        (law r.acc).1)| < (law r.acc).1 := by
      obtain ⟨-, h2⟩ := hcv
      simp only [mixEval] at h2
      rw [← hacci, abs_of_pos hy] at h2
      have := suTol_lt
      nlinarith
    have h2 := (abs_lt.mp h1).1
    rw [sub_pos, div_lt_one hq]
    linarith
  · rw [work_to2DM]
    refine plastic_form hn hH fun k => ?_
    have ht := mixReturn_tangent hr hp (to3D p x 0) k
    simp only [← hsdef] at ht
    have hfl : mixFlow s = fun k => √(3 / 2) / norm6 s * s k := by
      funext k
      simp only [mixFlow, if_pos hl]
      ring
    rw [hfl] at ht
    rw [ht]
    have : r.acc - old.acc = i := by rw [hacci]; ring
    rw [this, add_assoc]

/-- **C152.** With mixed hardening the tangent of a plastic step from a traceless back stress is
positive semidefinite when the sum of the two slopes is not negative and the kinematic hardening
stress has not decreased. -/
theorem C152_mixed_semidefinite {p : PType} {E v : ℝ} {law kin : HardLaw} {inc : T2 p.dim}
    {old new : MixState p} {T : Fin p.len → Fin p.len → ℝ} (hE : Admissible E v)
    (hback : tr6 (back3D old) = 0) (hsy : 2e-8 ≤ (law old.acc).1)
    (h : mixUpdate p E v law kin inc old = (.good new, some T)) (hp : new.isPlast = true)
    (hy : 0 < (law new.acc).1) (hk : (kin old.acc).1 ≤ (kin new.acc).1)
    (hH : 0 ≤ (kin new.acc).2 + (law new.acc).2) : PosSemidef T := by
  have hG := hE.shear_pos
  obtain ⟨s, θ, hs, hn, hθ, hw⟩ := mix_plastic_work hback hsy h hp hy hk (by positivity)
  intro x
  rw [hw]
  exact form_nonneg hs hn (lame_shear_pos hE) hG hθ (by positivity)

/-- **C152.** It is positive definite when the material hardens, isotropically or kinematically. -/
theorem C152_mixed_definite {p : PType} {E v : ℝ} {law kin : HardLaw} {inc : T2 p.dim}
    {old new : MixState p} {T : Fin p.len → Fin p.len → ℝ} (hE : Admissible E v)
    (hback : tr6 (back3D old) = 0) (hsy : 2e-8 ≤ (law old.acc).1)
    (h : mixUpdate p E v law kin inc old = (.good new, some T)) (hp : new.isPlast = true)
    (hy : 0 < (law new.acc).1) (hk : (kin old.acc).1 ≤ (kin new.acc).1)
    (hH : 0 < (kin new.acc).2 + (law new.acc).2) : PosDefinite T := by
  have hG := hE.shear_pos
  obtain ⟨s, θ, hs, hn, hθ, hw⟩ := mix_plastic_work hback hsy h hp hy hk (by positivity)
  intro x hx
  rw [hw]
  exact form_pos hs hn (lame_shear_pos hE) hG hθ (by positivity) (to3D_ne_zero hx)

/-- **C152.** The tangent of an elastic step with mixed hardening is positive definite. -/
theorem C152_mixed_elastic {p : PType} {E v : ℝ} {law kin : HardLaw} {inc : T2 p.dim}
    {old new : MixState p} {T : Fin p.len → Fin p.len → ℝ} (hE : Admissible E v)
    (h : mixUpdate p E v law kin inc old = (.good new, some T)) (hp : new.isPlast = false) :
    PosDefinite T := by
  obtain ⟨r, hr, -, -, -, -, hpl, -, -, hT⟩ := mixUpdate_good h
  obtain rfl := Option.some.inj hT
  rw [hpl] at hp
  unfold mixReturn at hr
  simp only at hr
  split at hr
  · cases hr; exact elastic_posdef hE p
  · split at hr <;> cases hr
    cases hp

/-! ### Drucker-Prager -/

theorem major_dpCone (m : DPParams) (hm : m.etay = m.etaf) (e : V6) (x H : ℝ) :
    Major (dpConeTangent m e x H) := by
  intro i j k l
  simp only [dpConeTangent, major_devprojsym i j k l, dyad22_1, hm]
  ring

theorem major_dpApex (m : DPParams) (H : ℝ) : Major (dpApexTangent m H) := by
  intro i j k l
  simp only [dpApexTangent, dyad22_1]
  ring

/-- **C152.** The tangent of the Drucker-Prager model with associated flow is symmetric. -/
theorem C152_drucker_prager_symmetric {p : PType} {m : DPParams} {law : HardLaw} {inc : T2 p.dim}
    {old new : DPState p} {T : Fin p.len → Fin p.len → ℝ}
    (h : dpUpdate p m law inc old = (.good new, some T))
    (hm : m.etay = m.etaf ∨ new.isPlast = false ∨ new.isApex = true) : SymMatrix T := by
  obtain ⟨r, hr, -, -, -, hpl, hap, -, -, hT⟩ := dpUpdate_good h
  obtain rfl := Option.some.inj hT
  rw [hpl, hap] at hm
  rcases dpReturn_cases hr with ⟨-, -, -, -, -, -, ht⟩ | ⟨h1, h2, -, x, -, -, -, -, -, ht⟩ |
    ⟨-, -, -, -, -, -, x, -, -, -, -, ht⟩
  · rw [ht]; exact (major_iso _ _).to2DM p
  · rw [ht]
    rcases hm with hm | hm | hm
    · exact (major_dpCone m hm _ _ _).to2DM p
    · rw [h1] at hm; cases hm
    · rw [h2] at hm; cases hm
  · rw [ht]; exact (major_dpApex _ _).to2DM p

theorem mv6_unkel_dev (e : V6) (i j : Fin 3) :
    unkel6 (mv6 (kel66 (getIdOperators 3).fodevprojsym) e) i j = unkel6 (dev6 e) i j := by
  rw [mv6_devprojsym]

/-- **C152.** In three dimensions the tangent of a return to the cone is symmetric only for
associated flow: with different friction and dilatancy parameters it is not, so that a solver must
not store half of it. -/
theorem C152_drucker_prager_cone {m : DPParams} {law : HardLaw} {inc : T2 3}
    {old new : DPState .solid} {T : Fin 6 → Fin 6 → ℝ} (hG : 0 < m.G) (hK : 0 < m.K)
    (h : dpUpdate .solid m law inc old = (.good new, some T)) (hp : new.isPlast = true)
    (ha : new.isApex = false)
    (hd : dev6 (trial3D old.toVMState inc) ≠ 0)
    (hn : 1e-8 < norm6 (trial3D old.toVMState inc))
    (hs : m.G + m.K * m.etay * m.etaf + (law new.acc).2 * m.xi ^ 2 ≠ 0) :
    SymMatrix T ↔ m.etay = m.etaf := by
  refine ⟨fun hT => ?_, fun hm => C152_drucker_prager_symmetric h (Or.inl hm)⟩
  obtain ⟨r, hr, -, -, hacc, hpl, hap, -, -, hTT⟩ := dpUpdate_good h
  obtain rfl := Option.some.inj hTT
  rw [hpl] at hp
  rw [hap] at ha
  rw [hacc] at hs
  rcases dpReturn_cases hr with ⟨h1, -⟩ | ⟨-, -, -, x, -, -, -, -, -, ht⟩ | ⟨-, h2, -⟩
  · rw [h1] at hp; cases hp
  · by_contra hne
    apply hd
    set e := trial3D old.toVMState inc with he
    have hnd : dpNormDiv e ≠ 0 := by
      unfold dpNormDiv
      rw [if_pos (show norm6 e > suSmall from by unfold suSmall; linarith)]
      have : 0 < norm6 e := by linarith [show (0:ℝ) < 1e-8 by norm_num]
      positivity
    set c := √2 * m.G * (1 / (m.G + m.K * m.etay * m.etaf + (law r.acc).2 * m.xi ^ 2)) * m.K *
      (m.etay - m.etaf) * dpNormDiv e with hc
    have hc0 : c ≠ 0 := by
      have h2 : √(2 : ℝ) ≠ 0 := by positivity
      have := sub_ne_zero.mpr hne
      rw [hc]
      exact mul_ne_zero (mul_ne_zero (mul_ne_zero (mul_ne_zero (mul_ne_zero h2 hG.ne')
        (one_div_ne_zero hs)) hK.ne') this) hnd
    have hsym : ∀ i j, c * (unkel6 (dev6 e) (ci i) (cj i) * (getIdOperators 3).soid (ci j) (cj j) -
        (getIdOperators 3).soid (ci i) (cj i) * unkel6 (dev6 e) (ci j) (cj j)) * (kf i * kf j) =
        0 := by
      intro i j
      have h1 := hT i j
      have h2 : ∀ M : M6, to2DM .solid M = M := fun _ => rfl
      rw [h2, ht] at h1
      have h3 := major_devprojsym (ci i) (cj i) (ci j) (cj j)
      simp only [kel66, dpConeTangent, dyad22_1, dpTrialUnit, mv6_unkel_dev, h3] at h1
      rw [hc]
      linear_combination -h1
    have hu : ∀ i j, unkel6 (dev6 e) (ci i) (cj i) * (getIdOperators 3).soid (ci j) (cj j) =
        (getIdOperators 3).soid (ci i) (cj i) * unkel6 (dev6 e) (ci j) (cj j) := by
      intro i j
      have hk : ∀ k, kf k ≠ 0 := by
        intro k; fin_cases k <;> simp [kf]
      have := hsym i j
      simp only [mul_eq_zero, hc0, hk, or_false, false_or] at this
      exact sub_eq_zero.mp this
    have ht0 := tr6_dev6 e
    generalize dev6 e = u at hu ht0 ⊢
    have u01 := hu 0 1
    have u12 := hu 1 2
    have u30 := hu 3 0
    have u40 := hu 4 0
    have u50 := hu 5 0
    simp [unkel6, ci, cj, pos6, kf, getIdOperators] at u01 u12 u30 u40 u50
    simp only [tr6] at ht0
    funext k
    fin_cases k
    · show u 0 = 0
      linarith
    · show u 1 = 0
      linarith
    · show u 2 = 0
      linarith
    · exact u30
    · exact u40
    · exact u50
  · rw [h2] at ha; cases ha

theorem dpApex_iso (m : DPParams) (H : ℝ) : dpApexTangent m H =
    isoTensor (m.K * (1 - m.K / (m.K + m.xi / m.etaf * (m.xi / m.etay) * H))) 0 := by
  funext i j k l
  simp only [dpApexTangent, isoTensor, mul_zero, zero_mul, add_zero]
  rfl

/-- The quadratic form of a return to the apex. -/
theorem dp_apex_work {p : PType} {m : DPParams} {law : HardLaw} {inc : T2 p.dim}
    {old new : DPState p} {T : Fin p.len → Fin p.len → ℝ}
    (h : dpUpdate p m law inc old = (.good new, some T)) (ha : new.isApex = true) (x : Vmf p) :
    work2 T x = m.K * (1 - m.K / (m.K + m.xi / m.etaf * (m.xi / m.etay) * (law new.acc).2)) *
      tr6 (to3D p x 0) ^ 2 := by
  obtain ⟨r, hr, -, -, hacc, -, hap, -, -, hT⟩ := dpUpdate_good h
  obtain rfl := Option.some.inj hT
  rw [hap] at ha
  rw [hacc]
  rcases dpReturn_cases hr with ⟨-, h1, -⟩ | ⟨-, h1, -⟩ | ⟨-, -, -, -, -, -, y, -, -, -, -, ht⟩
  · rw [h1] at ha; cases ha
  · rw [h1] at ha; cases ha
  · rw [ht, work_to2DM, dpApex_iso, mv6_iso, dot_hooke]
    ring

/-- **C152.** The tangent of a return to the apex is positive semidefinite for a material that does
not soften and whose friction and dilatancy parameters have the same sign. -/
theorem C152_drucker_prager_apex {p : PType} {m : DPParams} {law : HardLaw} {inc : T2 p.dim}
    {old new : DPState p} {T : Fin p.len → Fin p.len → ℝ} (hK : 0 < m.K)
    (he : 0 ≤ m.etaf * m.etay) (hH : 0 ≤ (law new.acc).2)
    (h : dpUpdate p m law inc old = (.good new, some T)) (ha : new.isApex = true) :
    PosSemidef T := by
  intro x
  rw [dp_apex_work h ha]
  have h1 : 0 ≤ m.xi / m.etaf * (m.xi / m.etay) * (law new.acc).2 := by
    have : m.xi / m.etaf * (m.xi / m.etay) = m.xi ^ 2 / (m.etaf * m.etay) := by
      rw [div_mul_div_comm]; ring
    rw [this]
    positivity
  set a := m.xi / m.etaf * (m.xi / m.etay) * (law new.acc).2
  have h2 : m.K / (m.K + a) ≤ 1 := (div_le_one (by positivity)).mpr (by linarith)
  have h3 : 0 ≤ 1 - m.K / (m.K + a) := by linarith
  positivity

/-- **C152.** It is never positive definite: a pure shear strain has no second-order work at the
apex. -/
theorem C152_drucker_prager_apex_singular {p : PType} {m : DPParams} {law : HardLaw}
    {inc : T2 p.dim} {old new : DPState p} {T : Fin p.len → Fin p.len → ℝ}
    (h : dpUpdate p m law inc old = (.good new, some T)) (ha : new.isApex = true) :
    ¬ PosDefinite T := by
  intro hT
  have key : ∀ x : Vmf p, x ≠ 0 → tr6 (to3D p x 0) = 0 → False := by
    intro x hx ht
    have := hT x hx
    rw [dp_apex_work h ha, ht] at this
    simp at this
  cases p with
  | plane =>
    refine key ![0, 0, 1] (fun hc => ?_) (by simp [tr6, to3D])
    have := congrFun hc (2 : Fin 3)
    simp at this
  | solid =>
    refine key ![0, 0, 0, 1, 0, 0] (fun hc => ?_) (by simp [tr6, to3D])
    have := congrFun hc (3 : Fin 6)
    simp at this

/-! ### Concrete steps -/

/-- A plastic step of uniaxial strain of a hardening material: its tangent is symmetric and
positive definite. -/
example : ∃ new T, vmUpdate .solid 1 0 (linearHardening 1 1) (uniInc 3) (vmInit .solid) =
      (.good new, some T) ∧ new.isPlast = true ∧ SymMatrix T ∧ PosDefinite T := by
  obtain ⟨new, T, h, -, -⟩ := C83_linear admissible_one zero_le_one
    (by norm_num : (2e-8 : ℝ) ≤ 1) (le_refl (vmInit .solid).acc) uni_plastic
  obtain ⟨new', T', hu, hp, hacc⟩ := C32_linear_exact admissible_one zero_le_one
    (by norm_num : (2e-8 : ℝ) ≤ 1) (le_refl (vmInit .solid).acc) uni_plastic
  have hu' := hu
  rw [h] at hu
  cases hu
  refine ⟨new, T, h, hp, C152_vonMises_symmetric h, C152_vonMises_definite admissible_one ?_ h hp
    ?_ ?_⟩
  · rw [law_init]; norm_num
  · have : (0 : ℝ) ≤ relu new.acc := le_max_right _ _
    simp only [linearHardening]
    linarith
  · simp [linearHardening]

/-- Non-associated parameters of the example below. -/
def dpNonassoc : DPParams := ⟨1, 0, 1, 1, 1 / 2⟩

/-- A shear step of a non-associated material returns to the cone with a tangent that is not
symmetric. -/
example : ∃ new T, dpUpdate .solid dpNonassoc (linearHardening 1 1) (shearInc 3) (dpInit .solid) =
    (.good new, some T) ∧ new.isPlast = true ∧ new.isApex = false ∧ ¬ SymMatrix T := by
  have hfr : Frictional dpNonassoc :=
    ⟨admissible_one, by norm_num [dpNonassoc], by norm_num [dpNonassoc], by norm_num [dpNonassoc]⟩
  obtain ⟨new, T, hu, -, h⟩ := C36_linear hfr (c0 := 1) zero_le_one (inc := shearInc 3)
    (old := dpInit .solid) le_rfl
  have hacc : (dpInit .solid).acc = 0 := rfl
  have hy : dpYield dpNonassoc ![0, 0, 0, √2 * 3, 0, 0] 1 = 2 := by
    rw [dpYield, sqrtJ2_shear (by norm_num)]
    simp [dpNonassoc, pressure6, tr6]; norm_num
  have hE : dpNonassoc.E = 1 := rfl
  have hv : dpNonassoc.v = 0 := rfl
  have hne : ¬ DPTrialElastic dpNonassoc (linearHardening 1 1) (dpInit .solid) (shearInc 3) := by
    unfold DPTrialElastic
    rw [hacc, linear_nonneg le_rfl, hE, hv, shear_trial]
    simp only [mul_zero, add_zero, hy, cohesionTol]
    norm_num
  have h2 := (h hne).1
  simp only [hE, hv, shear_trial, hacc, mul_zero, add_zero, hy,
    sqrtJ2_shear (show (0:ℝ) ≤ 3 by norm_num)] at h2
  have h3 := h2 (by norm_num [shear, bulk, dpNonassoc])
  have hp : new.isPlast = true := by
    have := (C36_elastic_step hu).1
    cases hp : new.isPlast with
    | true => rfl
    | false => exact absurd (this.mp hp) hne
  obtain ⟨r, -, -, -, -, -, -, -, -, hT⟩ := dpUpdate_good hu
  have he : trial3D (dpInit .solid).toVMState (shearInc 3) = ![0, 0, 0, 3 * √2, 0, 0] := by
    funext k
    fin_cases k <;> simp [trial3D, elastic3D, increment3D, dpInit, vmInit, to3D, mf, kel6,
      shearInc, ci, cj, kf]
  rw [hT] at hu
  refine ⟨new, _, hu, hp, h3.1, fun hs => ?_⟩
  have := (C152_drucker_prager_cone (m := dpNonassoc) (by norm_num [DPParams.G, dpNonassoc])
    (by norm_num [DPParams.K, dpNonassoc]) hu hp h3.1 ?_ ?_ ?_).mp hs
  · norm_num [dpNonassoc] at this
  · rw [he]
    intro hc
    have := congrFun hc 3
    simp [dev6, one6] at this
  · rw [he]
    have : norm6 ![0, 0, 0, 3 * √2, 0, 0] = 3 * √2 := by
      simp [norm6, Fin.sum_univ_succ]
    rw [this]
    have : (1 : ℝ) ≤ √2 := by rw [Real.one_le_sqrt]; norm_num
    linarith [show (1e-8 : ℝ) < 1 by norm_num]
  · norm_num [DPParams.G, DPParams.K, dpNonassoc, linearHardening]

end Hooke
