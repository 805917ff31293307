import Verif.Spec.PlasticityMixed
import Verif.Props.VonMises

/-! # C35: von Mises model with mixed hardening -/

noncomputable section

namespace Hooke

open Spec

/-- The flow vector of a relative stress. -/
def mixFlow (rel : V6) : V6 := fun k =>
  √(3 / 2) * (if norm6 rel > suSmall then 1 / norm6 rel else 0) * rel k

theorem tr6_mixFlow {rel : V6} (h : tr6 rel = 0) : tr6 (mixFlow rel) = 0 := by
  simp only [tr6] at h
  simp only [tr6, mixFlow, ← mul_add, h, mul_zero]

theorem planar_mixFlow {p : PType} {w : V6} (h : Planar p w) : Planar p (mixFlow w) := by
  intro hp
  obtain ⟨h4, h5⟩ := h hp
  simp [mixFlow, h4, h5]

/-- Outcome of the 3D return mapping with mixed hardening. -/
theorem mixReturn_cases {E v : ℝ} {law kin : HardLaw} {eT : V6} {acc : ℝ} {b : V6} {r : MixReturn}
    (h : mixReturn E v law kin eT acc b = some r) :
    let rel : V6 := fun k => dev6 (hooke6 (lame E v) (shear E v) eT) k - b k
    r.stress = hooke6 (lame E v) (shear E v) r.eStrain ∧
    ((r.isPlast = false ∧ r.eStrain = eT ∧ r.acc = acc ∧ r.back = b ∧ (law acc).1 ≠ 0 ∧
      (√(3 / 2) * norm6 rel - (law acc).1) / (law acc).1 ≤ suTol) ∨
     (r.isPlast = true ∧ ¬ ((law acc).1 ≠ 0 ∧
        (√(3 / 2) * norm6 rel - (law acc).1) / (law acc).1 ≤ suTol) ∧
      ∃ inc, newtonLoop (mixEval (shear E v) (√(3 / 2) * norm6 rel) acc law kin)
          suTol suMaxIter 0 0 = some inc ∧ r.acc = acc + inc ∧
        (r.eStrain = fun k => eT k - inc * mixFlow rel k) ∧
        r.back = fun k => b k + ((kin (acc + inc)).1 - (kin acc).1) * mixFlow rel k)) := by
  have hl : lamOf E v = lame E v := rfl
  have hm : miuOf E v = shear E v := rfl
  have hG : E / (2 * (1 + v)) = shear E v := rfl
  unfold mixReturn at h
  simp only [mv6_iso, mv6_devprojsym, hl, hm, hG] at h
  split at h
  · rename_i hc
    cases h
    exact ⟨rfl, Or.inl ⟨rfl, rfl, rfl, rfl, hc.1, hc.2⟩⟩
  · rename_i hc
    split at h
    · cases h
    · rename_i inc hinc
      cases h
      exact ⟨rfl, Or.inr ⟨rfl, hc, inc, hinc, rfl, rfl, rfl⟩⟩

theorem mixReturn_none {E v : ℝ} {law kin : HardLaw} {eT : V6} {acc : ℝ} {b : V6} :
    mixReturn E v law kin eT acc b = none ↔
      ¬ ((law acc).1 ≠ 0 ∧ (√(3 / 2) * norm6 (fun k => dev6 (hooke6 (lame E v) (shear E v) eT) k
        - b k) - (law acc).1) / (law acc).1 ≤ suTol) ∧
      newtonLoop (mixEval (shear E v) (√(3 / 2) *
        norm6 (fun k => dev6 (hooke6 (lame E v) (shear E v) eT) k - b k)) acc law kin)
          suTol suMaxIter 0 0 = none := by
  have hl : lamOf E v = lame E v := rfl
  have hm : miuOf E v = shear E v := rfl
  have hG : E / (2 * (1 + v)) = shear E v := rfl
  unfold mixReturn
  simp only [mv6_iso, mv6_devprojsym, hl, hm, hG]
  generalize √(3 / 2) * norm6 (fun k => dev6 (hooke6 (lame E v) (shear E v) eT) k - b k) = q
  split
  · rename_i hc
    simp [hc]
  · rename_i hc
    split
    · rename_i hn; simp [hc, hn]
    · rename_i hn; simp [hn]

theorem dev6_sub_traceless {s b : V6} (hb : tr6 b = 0) :
    dev6 (fun k => s k - b k) = fun k => dev6 s k - b k := by
  have := dev6_sub_smul s b 1
  simp only [one_mul] at this
  rw [this, dev6_of_tr hb]

theorem planar_sub {p : PType} {a b : V6} (ha : Planar p a) (hb : Planar p b) :
    Planar p (fun k => a k - b k) := by
  have := planar_sub_smul 1 ha hb
  simpa using this

/-- Relation between the update of a state and the 3D return mapping. -/
theorem mixUpdate_good {p : PType} {E v : ℝ} {law kin : HardLaw} {inc : T2 p.dim}
    {old new : MixState p} {T : Option (Fin p.len → Fin p.len → ℝ)}
    (h : mixUpdate p E v law kin inc old = (.good new, T)) :
    ∃ r, mixReturn E v law kin (trial3D old.toVMState inc) old.acc (back3D old) = some r ∧
      elastic3D new.toVMState = r.eStrain ∧ stress3D new.toVMState = r.stress ∧
      back3D new = r.back ∧ new.acc = r.acc ∧ new.isPlast = r.isPlast ∧ new.isSuFail = false ∧
      new.strain = old.strain + mf p inc ∧ T = some (to2DM p r.tangent) := by
  unfold mixUpdate at h
  have htr : to3D p old.eStrain old.e33 + to3D p (mf p inc) 0 = trial3D old.toVMState inc := rfl
  have hb : to3D p old.back old.b33 = back3D old := rfl
  simp only [htr, hb] at h
  cases hr : mixReturn E v law kin (trial3D old.toVMState inc) old.acc (back3D old) with
  | none => rw [hr] at h; simp at h
  | some r =>
    rw [hr] at h
    simp only [Prod.mk.injEq, MixVars.good.injEq] at h
    obtain ⟨rfl, rfl⟩ := h
    have hbp : Planar p (back3D old) := planar_to3D p old.back old.b33
    have hrel : Planar p (fun k => dev6 (hooke6 (lame E v) (shear E v)
        (trial3D old.toVMState inc)) k - back3D old k) :=
      planar_sub (planar_dev6 (planar_hooke6 _ _ (planar_trial _ inc))) hbp
    have hpl : Planar p r.eStrain ∧ Planar p r.back := by
      rcases (mixReturn_cases hr).2 with ⟨-, he, -, hb, -⟩ | ⟨-, -, i, -, -, he, hb⟩
      · rw [he, hb]; exact ⟨planar_trial _ inc, hbp⟩
      · rw [he, hb]
        refine ⟨planar_sub_smul i (planar_trial _ inc) (planar_mixFlow hrel), ?_⟩
        intro hp
        obtain ⟨h4, h5⟩ := planar_mixFlow hrel hp
        obtain ⟨h4', h5'⟩ := hbp hp
        exact ⟨by beta_reduce; rw [h4, h4']; simp, by beta_reduce; rw [h5, h5']; simp⟩
    refine ⟨r, rfl, to3D_to2D hpl.1, ?_, to3D_to2D hpl.2, rfl, rfl, rfl, ?_, rfl⟩
    · refine to3D_to2D ?_
      rw [(mixReturn_cases hr).1]
      exact planar_hooke6 _ _ hpl.1
    · show to2D p (trial3D old.toVMState inc) + (old.strain - old.eStrain) = _
      rw [← htr, to2D_add, to2D_to3D, to2D_to3D]
      abel

theorem strain3D_step {p : PType} {s t : VMState p} {inc : T2 p.dim}
    (h : t.strain = s.strain + mf p inc) (k : Fin 6) :
    strain3D t k = strain3D s k + increment3D p inc k := by
  simp only [strain3D, increment3D, h]
  cases p
  · fin_cases k <;> simp [to3D]
  · simp [to3D]

/-- C35a: from the initial state, after any history without failure, the back stress is deviatoric,
the plastic strain is volume preserving, the total strain is the sum of the increments and the
stress is Hooke's law of the elastic strain, for every isotropic and kinematic hardening law. -/
theorem C35_history {p : PType} {E v : ℝ} {law kin : HardLaw} (incs : List (T2 p.dim))
    {s : MixState p} (h : mixRun p E v law kin incs = .good s) :
    MixInvariant E v incs.sum s := by
  suffices H : ∀ (incs : List (T2 p.dim)) (s0 : MixState p) (total : T2 p.dim),
      MixInvariant E v total s0 →
      incs.foldl (mixStep p E v law kin) (.good s0) = .good s →
      MixInvariant E v (total + incs.sum) s by
    have h0 : ∀ p : PType, to3D p (0 : Vmf p) 0 = 0 := by
      intro p; cases p
      · funext k; fin_cases k <;> simp [to3D]
      · rfl
    have hi : MixInvariant E v 0 (mixInit p) := by
      have hs : stress3D (mixInit p).toVMState = 0 := h0 p
      have he : elastic3D (mixInit p).toVMState = 0 := h0 p
      have ht : strain3D (mixInit p).toVMState = 0 := h0 p
      have hb : back3D (mixInit p) = 0 := h0 p
      refine ⟨(mf_zero p).symm, ?_, ?_, ?_, rfl⟩
      · rw [hs, he]; funext k; simp [hooke6, tr6]
      · simp [plastic3D, he, ht, tr6]
      · rw [hb]; simp [tr6]
    have := H incs (mixInit p) 0 hi h
    rwa [zero_add] at this
  intro incs
  induction incs with
  | nil =>
    intro s0 total h0 hs
    simp only [List.foldl_nil, MixVars.good.injEq] at hs
    subst hs
    simpa using h0
  | cons inc incs ih =>
    intro s0 total h0 hs
    simp only [List.foldl_cons, mixStep] at hs
    cases hu : mixUpdate p E v law kin inc s0 with
    | mk st T =>
      rw [hu] at hs
      cases st with
      | nan sn =>
        exfalso
        have : ∀ (l : List (T2 p.dim)) sn, l.foldl (mixStep p E v law kin) (.nan sn) ≠ .good s := by
          intro l
          induction l with
          | nil => intro sn h; cases h
          | cons i l ih => intro sn; exact ih none
        exact this incs sn hs
      | good s1 =>
        rw [List.sum_cons, ← add_assoc]
        refine ih s1 (total + inc) ?_ hs
        obtain ⟨r, hr, h1, h2, hb, h3, h4, h5, h6, -⟩ := mixUpdate_good hu
        obtain ⟨hst, hc⟩ := mixReturn_cases hr
        have hrel : tr6 (fun k => dev6 (hooke6 (lame E v) (shear E v)
            (trial3D s0.toVMState inc)) k - back3D s0 k) = 0 := by
          have := tr6_sub_smul (dev6 (hooke6 (lame E v) (shear E v)
            (trial3D s0.toVMState inc))) (back3D s0) 1
          simp only [one_mul] at this
          rw [this, tr6_dev6, h0.back]; simp
        refine ⟨by rw [h6, h0.strain, mf_add], by rw [h2, h1, hst], ?_, ?_, h5⟩
        · have hv := h0.volume
          have hf := tr6_mixFlow hrel
          rcases hc with ⟨-, he, -⟩ | ⟨-, -, x, -, -, he, -⟩
          · simp only [tr6, plastic3D, strain3D_step h6, h1, he] at hv ⊢
            simp only [trial3D]
            linarith
          · simp only [tr6, plastic3D, strain3D_step h6, h1, he] at hv hf ⊢
            simp only [trial3D] at hf ⊢
            linear_combination hv + x * hf
        · rw [hb]
          rcases hc with ⟨-, -, -, he, -⟩ | ⟨-, -, x, -, -, -, he⟩
          · rw [he]; exact h0.back
          · rw [he]
            have hf := tr6_mixFlow hrel
            have hbk := h0.back
            simp only [tr6] at hf hbk ⊢
            linear_combination hbk + ((kin (s0.acc + x)).1 - (kin s0.acc).1) * hf

/-- C35b: the equivalent relative stress after a plastic step.  Each of the plastic multiplier
(times `3 G`) and the increment of the kinematic hardening stress should be subtracted once; the
latter is subtracted one and a half times. -/
theorem C35_relative_stress {p : PType} {E v : ℝ} {law kin : HardLaw} {inc : T2 p.dim}
    {old new : MixState p} {T : Option (Fin p.len → Fin p.len → ℝ)}
    (h : mixUpdate p E v law kin inc old = (.good new, T)) (hpl : new.isPlast = true)
    (hback : tr6 (back3D old) = 0) (hold : 2e-8 ≤ (law old.acc).1) :
    relativeStress new = |relativeTrial E v old inc - 3 * shear E v * (new.acc - old.acc) -
      3 / 2 * ((kin new.acc).1 - (kin old.acc).1)| := by
  obtain ⟨r, hr, h1, h2, hb, h3, h4, h5, h6, -⟩ := mixUpdate_good h
  obtain ⟨hst, hc⟩ := mixReturn_cases hr
  rw [← h4, hpl] at hc
  rcases hc with ⟨hf, -⟩ | ⟨-, hne, x, hx, hacc, he, hbk⟩
  · cases hf
  set s := hooke6 (lame E v) (shear E v) (trial3D old.toVMState inc) with hs
  set rel : V6 := fun k => dev6 s k - back3D old k with hrel
  have htr : tr6 rel = 0 := by
    have := tr6_sub_smul (dev6 s) (back3D old) 1
    simp only [one_mul] at this
    rw [hrel, this, tr6_dev6, hback]; simp
  have hp : 0 < (law old.acc).1 := by linarith [show (0:ℝ) < 2e-8 by norm_num]
  have hd : norm6 rel > suSmall := by
    have h' : 1e-6 < (√(3 / 2) * norm6 rel - (law old.acc).1) / (law old.acc).1 := by
      by_contra hcon
      exact hne ⟨hp.ne', not_lt.mp hcon⟩
    rw [lt_div_iff₀ hp] at h'
    have hn := norm6_nonneg rel
    have := mul_le_mul_of_nonneg_right sqrt32_lt.le hn
    unfold suSmall
    have h2e : (2e-8 : ℝ) = 2 * 1e-8 := by norm_num
    nlinarith
  have hN : 0 < norm6 rel := lt_trans (by unfold suSmall; norm_num) hd
  have hq : relativeTrial E v old inc = √(3 / 2) * norm6 rel := by
    unfold relativeTrial
    rw [vm6_eq, ← hs, dev6_sub_traceless hback]
  have hfl : mixFlow rel = fun k => √(3 / 2) / norm6 rel * rel k := by
    funext k; simp only [mixFlow, if_pos hd]; ring
  unfold relativeStress
  have hftr := tr6_mixFlow htr
  have hnb : tr6 (back3D new) = 0 := by
    rw [hb, hbk]
    simp only [tr6] at hftr hback ⊢
    linear_combination hback + ((kin (old.acc + x)).1 - (kin old.acc).1) * hftr
  rw [vm6_eq, dev6_sub_traceless hnb, h2, hst, he, hb, hbk, hooke6_sub_smul, dev6_sub_smul,
    hooke6_dev hftr]
  have h7 : dev6 (fun k => 2 * shear E v * mixFlow rel k) =
      fun k => 2 * shear E v * mixFlow rel k := by
    apply dev6_of_tr
    simp only [tr6] at hftr ⊢
    rw [← mul_add, ← mul_add, hftr, mul_zero]
  rw [h7, h3, hacc, add_sub_cancel_left, ← hs]
  set d := (kin (old.acc + x)).1 - (kin old.acc).1 with hdd
  have h8 : (fun k => dev6 s k - x * (2 * shear E v * mixFlow rel k) -
      (back3D old k + d * mixFlow rel k)) =
      fun k => (1 - (x * (2 * shear E v) + d) * (√(3 / 2) / norm6 rel)) * rel k := by
    funext k
    rw [hfl]
    simp only [hrel]
    ring
  rw [h8, norm6_smul, hq]
  have h0 : 0 ≤ √(3 / 2) * norm6 rel := by positivity
  rw [show √(3 / 2 : ℝ) * (|1 - (x * (2 * shear E v) + d) * (√(3 / 2) / norm6 rel)| * norm6 rel) =
    |1 - (x * (2 * shear E v) + d) * (√(3 / 2) / norm6 rel)| * |√(3 / 2) * norm6 rel| by
      rw [abs_of_nonneg h0]; ring, ← abs_mul]
  congr 1
  have h9 : √(3 / 2) / norm6 rel * (√(3 / 2) * norm6 rel) = 3 / 2 := by
    rw [div_mul_eq_mul_div, div_eq_iff hN.ne']
    linear_combination norm6 rel * sqrt32_mul
  linear_combination (-(x * (2 * shear E v) + d)) * h9

/-- C35c (partial): when the kinematic hardening stress does not change over the step, the
equivalent relative stress after a converged plastic step matches the yield stress within the
tolerance.  Missing: the same for a changing kinematic hardening stress, which is false
(`C35_yield_violated`). -/
theorem C35_yield_partial {p : PType} {E v : ℝ} {law kin : HardLaw} {inc : T2 p.dim}
    {old new : MixState p} {T : Option (Fin p.len → Fin p.len → ℝ)}
    (h : mixUpdate p E v law kin inc old = (.good new, T)) (hpl : new.isPlast = true)
    (hback : tr6 (back3D old) = 0) (hold : 2e-8 ≤ (law old.acc).1) (hnew : 0 < (law new.acc).1)
    (hkin : (kin new.acc).1 = (kin old.acc).1) :
    |relativeStress new - (law new.acc).1| < 1e-6 * (law new.acc).1 := by
  have hrs := C35_relative_stress h hpl hback hold
  rw [hkin, sub_self, mul_zero, sub_zero] at hrs
  obtain ⟨r, hr, h1, h2, hb, h3, h4, h5, h6, -⟩ := mixUpdate_good h
  obtain ⟨hst, hc⟩ := mixReturn_cases hr
  rw [← h4, hpl] at hc
  rcases hc with ⟨hf, -⟩ | ⟨-, hne, x, hx, hacc, he, hbk⟩
  · cases hf
  obtain ⟨k, -, -, -, ⟨-, hcv⟩, -⟩ := newton_iff.mp hx
  have hq : relativeTrial E v old inc = √(3 / 2) * norm6 (fun k => dev6 (hooke6 (lame E v)
      (shear E v) (trial3D old.toVMState inc)) k - back3D old k) := by
    unfold relativeTrial
    rw [vm6_eq, dev6_sub_traceless hback]
  simp only [mixEval] at hcv
  rw [← hq, ← hacc, ← h3, hkin, abs_of_pos hnew, show suTol = 1e-6 from rfl] at hcv
  rw [h3, hacc, add_sub_cancel_left] at hrs
  have hpos : 0 < relativeTrial E v old inc - 3 * shear E v * x := by
    have := (abs_lt.mp hcv).1
    nlinarith
  rw [hrs, abs_of_pos hpos]
  rw [show relativeTrial E v old inc - 3 * shear E v * x - (law new.acc).1 =
    relativeTrial E v old inc - 3 * shear E v * x - (kin old.acc).1 + (kin old.acc).1 -
      (law new.acc).1 by ring]
  exact hcv

/-- A residual which is affine along the first Newton step is solved by that step. -/
theorem newton_affine {f : ℝ → NewtonEval} {tol : ℝ} {n : ℕ} (hn : 1 ≤ n) (htol : 0 < tol) {x : ℝ}
    (hJ : (f 0).jacobian ≠ 0) (hx : x = -(f 0).residual / (f 0).jacobian)
    (hr : (f x).residual = 0) (hs : (f x).scale ≠ 0) : newtonLoop f tol n 0 0 = some x := by
  have h1 : newtonIterate f 1 = some x := by
    rw [newtonIterate_succ (k := 0) (x := 0) rfl hJ, zero_add, hx]
  refine newton_iff.mpr ⟨1, le_rfl, hn, h1, ⟨hs, ?_⟩, fun j hj1 hj2 => by omega⟩
  rw [hr, abs_zero]
  exact mul_pos htol (abs_pos.mpr hs)

theorem relativeTrial_uni (d : ℝ) : relativeTrial 1 0 (mixInit .solid) (uniInc d) = |d| := by
  have : back3D (mixInit .solid) = 0 := rfl
  unfold relativeTrial
  rw [this]
  simp only [Pi.zero_apply, sub_zero]
  exact vm6_uni d

/-- Plastic step used as witness: `E = 1`, `ν = 0`, constant yield stress 1, kinematic hardening
stress equal to the accumulated plastic strain, uniaxial strain increment 3. -/
theorem mix_uni : ∃ new T, mixUpdate .solid 1 0 (linearHardening 1 0) (linearHardening 0 1)
    (uniInc 3) (mixInit .solid) = (.good new, T) ∧ new.isPlast = true ∧ new.acc = 4 / 5 := by
  have hq : √(3 / 2) * norm6 (fun k => dev6 (hooke6 (lame 1 0) (shear 1 0)
      (trial3D (mixInit .solid).toVMState (uniInc 3))) k - back3D (mixInit .solid) k) = 3 := by
    have h1 := relativeTrial_uni 3
    unfold relativeTrial at h1
    rw [vm6_eq, dev6_sub_traceless (by simp [tr6, back3D, mixInit, to3D])] at h1
    rw [h1]; norm_num
  have hG : shear 1 0 = 1 / 2 := by norm_num [shear]
  have hn : newtonLoop (mixEval (shear 1 0) 3 0 (linearHardening 1 0) (linearHardening 0 1))
      suTol suMaxIter 0 0 = some (4 / 5) := by
    refine newton_affine (by decide) suTol_pos ?_ ?_ ?_ ?_ <;>
      norm_num [mixEval, linearHardening, relu, hG]
  have hacc : (mixInit .solid).acc = 0 := rfl
  have hel : ¬ ((linearHardening 1 0 0).1 ≠ 0 ∧
      (3 - (linearHardening 1 0 0).1) / (linearHardening 1 0 0).1 ≤ suTol) := by
    norm_num [linearHardening, relu, suTol]
  cases hu : mixUpdate .solid 1 0 (linearHardening 1 0) (linearHardening 0 1)
    (uniInc 3) (mixInit .solid) with
  | mk st T =>
    cases st with
    | nan sn =>
      exfalso
      have hnone : mixReturn 1 0 (linearHardening 1 0) (linearHardening 0 1)
          (trial3D (mixInit .solid).toVMState (uniInc 3)) 0 (back3D (mixInit .solid)) = none := by
        unfold mixUpdate at hu
        have htr : to3D .solid (mixInit .solid).eStrain (mixInit .solid).e33 +
          to3D .solid (mf .solid (uniInc 3)) 0 = trial3D (mixInit .solid).toVMState (uniInc 3) := rfl
        have hb : to3D .solid (mixInit .solid).back (mixInit .solid).b33 =
          back3D (mixInit .solid) := rfl
        simp only [htr, hb, hacc] at hu
        cases hr : mixReturn 1 0 (linearHardening 1 0) (linearHardening 0 1)
          (trial3D (mixInit .solid).toVMState (uniInc 3)) 0 (back3D (mixInit .solid)) with
        | none => rfl
        | some r => rw [hr] at hu; simp at hu
      have := (mixReturn_none.mp hnone).2
      rw [hq, hn] at this
      cases this
    | good new =>
      refine ⟨new, T, rfl, ?_⟩
      obtain ⟨r, hr, -, -, -, h3, h4, -⟩ := mixUpdate_good hu
      have hc := (mixReturn_cases hr).2
      rw [hq, hacc] at hc
      rcases hc with ⟨-, -, -, -, h1, h2⟩ | ⟨h1, -, x, hx, h2, -⟩
      · exact absurd ⟨h1, h2⟩ hel
      · rw [hn] at hx
        cases hx
        exact ⟨h4.trans h1, by rw [h3, h2]; norm_num⟩

/-- C35d: the yield condition is not met after a plastic step with kinematic hardening: the back
stress is advanced by the flow vector of norm `√(3/2)` without the factor `2/3`, so that here the
relative stress ends at `3/5` although the yield stress is 1. -/
theorem C35_yield_violated : ∃ new T, mixUpdate .solid 1 0 (linearHardening 1 0)
    (linearHardening 0 1) (uniInc 3) (mixInit .solid) = (.good new, T) ∧ new.isPlast = true ∧
      (linearHardening 1 0 new.acc).1 = 1 ∧ relativeStress new = 3 / 5 := by
  obtain ⟨new, T, h, hpl, hacc⟩ := mix_uni
  refine ⟨new, T, h, hpl, by norm_num [linearHardening], ?_⟩
  have hb : back3D (mixInit .solid) = 0 := rfl
  rw [C35_relative_stress h hpl (by rw [hb]; simp [tr6]) (by norm_num [linearHardening]),
    relativeTrial_uni, hacc]
  norm_num [linearHardening, relu, mixInit, vmInit, shear, abs_of_pos]

/-- hypotheses of C35c are met by a zero kinematic hardening law: the step of C35d without
kinematic hardening -/
example : ∀ old new : MixState .solid, (linearHardening 0 0 new.acc).1 =
    (linearHardening 0 0 old.acc).1 := by
  intro old new; simp [linearHardening]

end Hooke
