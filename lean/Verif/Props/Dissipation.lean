import Verif.Spec.Dissipation
import Verif.Props.VonMises
import Verif.Props.DruckerPrager
import Verif.Props.MixedReturn

/-!
# C140: plastic flow dissipates energy
-/

noncomputable section

namespace Hooke

open Spec

theorem inner6_sub_smul (a b c : V6) (x : ℝ) :
    inner6 (fun k => a k - x * b k) c = inner6 a c - x * inner6 b c := by
  simp only [inner6, Fin.sum_univ_six]
  ring

theorem inner6_smul (a b : V6) (x : ℝ) : inner6 a (fun k => x * b k) = x * inner6 a b := by
  simp only [inner6, Fin.sum_univ_six]
  ring

theorem inner6_self (a : V6) : inner6 a a = norm6 a ^ 2 := by
  rw [norm6, Real.sq_sqrt (Finset.sum_nonneg fun j _ => sq_nonneg _)]
  simp only [inner6, sq]

theorem inner6_dev (a : V6) : inner6 a (dev6 a) = norm6 (dev6 a) ^ 2 := by
  rw [← inner6_self]
  have := tr6_dev6 a
  simp only [tr6] at this
  have e : inner6 a (dev6 a) - inner6 (dev6 a) (dev6 a) =
      tr6 a / 3 * (dev6 a 0 + dev6 a 1 + dev6 a 2) := by
    simp only [inner6, Fin.sum_univ_six, dev6, one6]
    simp
    ring
  rw [this, mul_zero] at e
  linarith

/-- Elastic energy of a strain. -/
theorem inner6_hooke (lam G : ℝ) (e : V6) :
    inner6 (hooke6 lam G e) e = lam * tr6 e ^ 2 + 2 * G * norm6 e ^ 2 := by
  rw [← inner6_self]
  simp only [inner6, Fin.sum_univ_six, hooke6, tr6, one6]
  simp
  ring

theorem inner6_hooke_comm (lam G : ℝ) (a b : V6) :
    inner6 (hooke6 lam G a) b = inner6 (hooke6 lam G b) a := by
  simp only [inner6, Fin.sum_univ_six, hooke6, tr6, one6]
  simp
  ring

theorem inner6_hooke_nonneg {E v : ℝ} (hA : Admissible E v) (e : V6) :
    0 ≤ inner6 (hooke6 (lame E v) (shear E v) e) e := by
  rw [inner6_hooke]
  have h1 := hA.bulk_pos
  have h2 := hA.shear_pos
  have h3 := hA.lame_bulk
  have h4 : tr6 e ^ 2 ≤ 3 * norm6 e ^ 2 := by
    rw [← inner6_self]
    simp only [inner6, Fin.sum_univ_six, tr6]
    nlinarith [sq_nonneg (e 0 - e 1), sq_nonneg (e 1 - e 2), sq_nonneg (e 0 - e 2), sq_nonneg (e 3),
      sq_nonneg (e 4), sq_nonneg (e 5)]
  have h5 : lame E v = bulk E v - 2 / 3 * shear E v := by linarith
  rw [h5]
  nlinarith [mul_nonneg h1.le (sq_nonneg (tr6 e))]

/-- **C140 (energy balance).** In every step, the work done on the material is at least the increase of the
elastic energy plus the plastic work, when the stresses before and after follow Hooke's law. -/
theorem C140_balance {p : PType} {E v : ℝ} (hA : Admissible E v) {inc : T2 p.dim} {old new : VMState p}
    (h1 : stress3D old = hooke6 (lame E v) (shear E v) (elastic3D old))
    (h2 : stress3D new = hooke6 (lame E v) (shear E v) (elastic3D new))
    (h3 : new.strain = old.strain + mf p inc) :
    storedEnergy new - storedEnergy old + plasticWork old new ≤
      inner6 (stress3D new) (increment3D p inc) := by
  have hst : ∀ k, strain3D new k = strain3D old k + increment3D p inc k := fun k => by
    simp only [strain3D, increment3D, h3]
    cases p
    · fin_cases k <;> simp [to3D]
    · simp [to3D]
  have e1 : inner6 (stress3D new) (increment3D p inc) - plasticWork old new =
      inner6 (stress3D new) (elastic3D new) - inner6 (stress3D new) (elastic3D old) := by
    simp only [plasticWork, plastic3D, hst, inner6, Fin.sum_univ_six]
    ring
  have e2 := inner6_hooke_nonneg hA (fun k => elastic3D new k - elastic3D old k)
  have e3 : inner6 (hooke6 (lame E v) (shear E v) (fun k => elastic3D new k - elastic3D old k))
      (fun k => elastic3D new k - elastic3D old k) =
      inner6 (stress3D new) (elastic3D new) - inner6 (stress3D new) (elastic3D old) -
        (inner6 (stress3D old) (elastic3D new) - inner6 (stress3D old) (elastic3D old)) := by
    rw [h1, h2]
    simp only [inner6, Fin.sum_univ_six, hooke6, tr6, one6]
    simp
    ring
  have e4 : inner6 (stress3D old) (elastic3D new) = inner6 (stress3D new) (elastic3D old) := by
    rw [h1, h2, inner6_hooke_comm]
  unfold storedEnergy
  linarith

theorem vmWork {E v : ℝ} (s : V6) (x : ℝ) (hd : norm6 (dev6 s) > suSmall) :
    inner6 (fun k => s k - x * (2 * shear E v * vmFlow s k)) (fun k => x * vmFlow s k) =
      x * (vm6 s - 3 * shear E v * x) := by
  have hp : 0 < norm6 (dev6 s) := lt_trans (by unfold suSmall; norm_num) hd
  have e1 : inner6 s (vmFlow s) = vm6 s := by
    rw [vmFlow_scale hd, inner6_smul, inner6_dev, vm6_eq]
    field_simp
  have e2 : inner6 (fun k => 2 * shear E v * vmFlow s k) (vmFlow s) = 3 * shear E v := by
    have : inner6 (fun k => 2 * shear E v * vmFlow s k) (vmFlow s) =
        2 * shear E v * inner6 (vmFlow s) (vmFlow s) := by
      simp only [inner6, Fin.sum_univ_six]
      ring
    rw [this, inner6_self, vmFlow_norm hd, Real.sq_sqrt (by norm_num)]
    ring
  rw [inner6_smul, inner6_sub_smul, e1, e2]
  ring

/-- **C140 (dissipation of von Mises plasticity).** In every step which succeeds, the plastic work is the
product of the yield stress and the increment of the accumulated plastic strain, up to one part in a
million; so it is never negative. -/
theorem C140_von_mises {p : PType} {E v : ℝ} (hA : Admissible E v) {law : HardLaw}
    (hm : NonSoftening law) (hpos : ∀ x, 2e-8 ≤ (law x).1) {inc : T2 p.dim} {old new : VMState p}
    {T : Option (Fin p.len → Fin p.len → ℝ)} (h : vmUpdate p E v law inc old = (.good new, T)) :
    |plasticWork old new - (law new.acc).1 * (new.acc - old.acc)| ≤
        1e-6 * (law new.acc).1 * (new.acc - old.acc) ∧ 0 ≤ plasticWork old new := by
  have hn : 0 < (law new.acc).1 := lt_of_lt_of_le (by norm_num) (hpos _)
  suffices H : |plasticWork old new - (law new.acc).1 * (new.acc - old.acc)| ≤
        1e-6 * (law new.acc).1 * (new.acc - old.acc) ∧ old.acc ≤ new.acc by
    refine ⟨H.1, ?_⟩
    have := (abs_le.mp H.1).1
    have h2 : 0 ≤ (law new.acc).1 * (new.acc - old.acc) := mul_nonneg hn.le (by linarith [H.2])
    linarith [show (1e-6 : ℝ) * (law new.acc).1 * (new.acc - old.acc) =
      1e-6 * ((law new.acc).1 * (new.acc - old.acc)) by ring]
  obtain ⟨hup, hstay⟩ := C31_accumulated hA hm hpos h
  obtain ⟨-, -, hel, -⟩ := C28_success h
  obtain ⟨r, hr, h1, h2, h3, h4, -, h6, -⟩ := vmUpdate_good h
  obtain ⟨hs, hc⟩ := vmReturn_cases hr
  have hst : ∀ k, strain3D new k = strain3D old k + increment3D p inc k := by
    intro k
    simp only [strain3D, increment3D, h6]
    cases p
    · fin_cases k <;> simp [to3D]
    · simp [to3D]
  rcases hc with ⟨hf, he, hacc, -⟩ | ⟨hf, -, x, hx, hacc, he⟩
  · have hz : plasticWork old new = 0 := by
      have : (fun k => plastic3D new k - plastic3D old k) = fun _ => 0 := by
        funext k
        simp only [plastic3D, hst, h1, he]
        simp only [trial3D]
        ring
      rw [plasticWork, this]
      simp [inner6]
    rw [← h4] at hf
    have ha := hstay hf
    rw [hz, ha, sub_self, mul_zero, mul_zero, sub_zero, abs_zero]
    exact ⟨le_rfl, le_rfl⟩
  · rw [← h4] at hf
    have hne : ¬ TrialElastic E v law old inc := by rw [← hel, hf]; simp
    obtain ⟨hd, -⟩ := trial_dev_large (hpos _) hne
    have hdp : (fun k => plastic3D new k - plastic3D old k) =
        fun k => x * vmFlow (hooke6 (lame E v) (shear E v) (trial3D old inc)) k := by
      funext k
      simp only [plastic3D, hst, h1, he]
      simp only [trial3D]
      ring
    have hw : plasticWork old new =
        x * (vm6 (hooke6 (lame E v) (shear E v) (trial3D old inc)) - 3 * shear E v * x) := by
      rw [plasticWork, hdp, h2, hs, he, hooke6_sub_smul, hooke6_dev (tr6_vmFlow _), vmWork _ _ hd]
    have hxa : new.acc - old.acc = x := by rw [h3, hacc]; ring
    have hx0 : 0 < x := by rw [← hxa]; linarith [hup hf]
    obtain ⟨k, -, -, -, ⟨-, hcv⟩, -⟩ := newton_iff.mp hx
    simp only [vmEval] at hcv
    rw [← hacc, ← h3, abs_of_pos hn, show suTol = 1e-6 from rfl] at hcv
    refine ⟨?_, (hup hf).le⟩
    rw [hw, hxa, mul_comm (law new.acc).1 x, ← mul_sub, abs_mul, abs_of_pos hx0]
    calc _ ≤ x * (1e-6 * (law new.acc).1) := mul_le_mul_of_nonneg_left hcv.le hx0.le
      _ = _ := by ring

theorem vmStep_nan {p : PType} {E v : ℝ} {law : HardLaw} {s : VMState p} (l : List (T2 p.dim))
    (sn : Option (Vmf p)) : l.foldl (vmStep p E v law) (.nan sn) ≠ .good s := by
  induction l generalizing sn with
  | nil => intro h; cases h
  | cons i l ih => exact ih none

/-- **C140 (no energy can be gained).** Along every history from the initial state which does not fail, the
work done on the material is at least the elastic energy at the end plus the initial yield stress times the
accumulated plastic strain, up to one part in a million; so it is never negative. -/
theorem C140_work {p : PType} {E v : ℝ} (hA : Admissible E v) {law : HardLaw}
    (hm : NonSoftening law) (hpos : ∀ x, 2e-8 ≤ (law x).1) (incs : List (T2 p.dim)) {s : VMState p}
    (h : vmRun p E v law incs = .good s) :
    storedEnergy s + (1 - 1e-6) * (law 0).1 * s.acc ≤
        work vmStress (vmStep p E v law) (.good (vmInit p)) incs ∧
      0 ≤ storedEnergy s ∧ 0 ≤ s.acc := by
  have hinv := C31_history hA hm hpos incs h
  refine ⟨?_, ?_, hinv.acc⟩
  swap
  · unfold storedEnergy
    rw [hinv.stress]
    exact mul_nonneg (by norm_num) (inner6_hooke_nonneg hA _)
  have h0 : (0 : ℝ) < (law 0).1 := lt_of_lt_of_le (by norm_num) (hpos 0)
  suffices H : ∀ (incs : List (T2 p.dim)) (s0 : VMState p) (total : T2 p.dim),
      HistoryInvariant E v law total s0 → incs.foldl (vmStep p E v law) (.good s0) = .good s →
      storedEnergy s - storedEnergy s0 + (1 - 1e-6) * (law 0).1 * (s.acc - s0.acc) ≤
        work vmStress (vmStep p E v law) (.good s0) incs by
    have := H incs (vmInit p) 0 (history_init p hpos) h
    have e0 : storedEnergy (vmInit p) = 0 := by
      have : elastic3D (vmInit p) = 0 := by
        cases p
        · funext k; fin_cases k <;> rfl
        · rfl
      unfold storedEnergy
      rw [this]
      simp [inner6]
    have e1 : (vmInit p).acc = 0 := rfl
    rw [e0, e1, sub_zero, sub_zero] at this
    exact this
  intro incs
  induction incs with
  | nil =>
    intro s0 total h0 hs
    simp only [List.foldl_nil, VMVars.good.injEq] at hs
    subst hs
    simp [work]
  | cons inc incs ih =>
    intro s0 total hi hs
    simp only [List.foldl_cons, vmStep] at hs
    simp only [work, vmStep]
    cases hu : vmUpdate p E v law inc s0 with
    | mk st T =>
      rw [hu] at hs
      cases st with
      | nan sn => exact absurd hs (vmStep_nan _ _)
      | good s1 =>
        have hi1 := history_step hA hm hpos hu hi
        have h1 := ih s1 (total + inc) hi1 hs
        obtain ⟨hd, hd0⟩ := C140_von_mises hA hm hpos hu
        obtain ⟨-, -, -, -, -, -, -, h6, -⟩ := vmUpdate_good hu
        have hb := C140_balance hA (inc := inc) hi.stress hi1.stress h6
        have hle : s0.acc ≤ s1.acc := by
          obtain ⟨ha, hb⟩ := C31_accumulated hA hm hpos hu
          cases hp : s1.isPlast with
          | true => exact (ha hp).le
          | false => exact (hb hp).ge
        have hlow : (1 - 1e-6) * (law 0).1 * (s1.acc - s0.acc) ≤ plasticWork s0 s1 := by
          have h2 := (abs_le.mp hd).1
          have h3 : (law 0).1 ≤ (law s1.acc).1 := hm 0 s1.acc hi1.acc
          have h4 := mul_le_mul_of_nonneg_right h3 (show 0 ≤ s1.acc - s0.acc by linarith)
          have h5 : (0 : ℝ) ≤ 1 - 1e-6 := by norm_num
          have h7 := mul_le_mul_of_nonneg_left h4 h5
          linarith [show (1e-6 : ℝ) * (law s1.acc).1 * (s1.acc - s0.acc) =
            1e-6 * ((law s1.acc).1 * (s1.acc - s0.acc)) by ring]
        simp only [vmStress]
        linarith

/-! ### Drucker-Prager -/

theorem inner6_iso (a b f g : ℝ) {d : V6} (hd : tr6 d = 0) :
    inner6 (fun k => a * one6 k + f * d k) (fun k => b * one6 k + g * d k) =
      3 * a * b + f * g * norm6 d ^ 2 := by
  rw [← inner6_self]
  simp only [tr6] at hd
  simp only [inner6, Fin.sum_univ_six, one6]
  simp
  linear_combination (a * g + b * f) * hd

/-- Plastic strain increment of a return to pressure `q` and to `f` times the deviator of the trial stress. -/
theorem dp_increment {m : DPParams} (hA : Admissible m.E m.v) (e : V6) (q f : ℝ) (k : Fin 6) :
    let s := hooke6 (lame m.E m.v) (shear m.E m.v) e
    e k - dpElastic m q (fun k => f * dev6 s k) k =
      (pressure6 s - q) / (3 * bulk m.E m.v) * one6 k + (1 - f) / (2 * shear m.E m.v) * dev6 s k := by
  intro s
  have hK := hA.bulk_pos; have hG := hA.shear_pos; have hl := hA.lame_bulk
  have hKd : m.K = bulk m.E m.v := rfl
  have hGd : m.G = shear m.E m.v := rfl
  have h1 : pressure6 s = bulk m.E m.v * tr6 e := by
    simp only [pressure6, s, tr6_hooke6]
    rw [hl]
    ring
  have h2 : dev6 s k = 2 * shear m.E m.v * (e k - tr6 e / 3 * one6 k) := by
    simp only [s, dev6_hooke6]
    rfl
  simp only [dpElastic, soid6_eq, hKd, hGd]
  rw [h1]
  have h3 : e k = tr6 e / 3 * one6 k + dev6 s k / (2 * shear m.E m.v) := by
    rw [h2]
    field_simp
    ring
  rw [h3]
  field_simp
  ring

/-- **C140 (dissipation of Drucker-Prager plasticity).** In every step which succeeds and does not lower the
accumulated plastic strain, the plastic work is not negative, when the dilatancy does not exceed the friction
and the cohesion after the step is not tiny. -/
theorem C140_drucker_prager {p : PType} {m : DPParams} (hm : Frictional m) (hdil : m.etaf ≤ m.etay)
    {law : HardLaw} {inc : T2 p.dim} {old new : DPState p} {T : Option (Fin p.len → Fin p.len → ℝ)}
    (hc : 1e-8 ≤ (law new.acc).1) (hx : 1e-8 ≤ (m.xi - 1e-6) * (law new.acc).1)
    (hxe : 1e-6 * m.etay ≤ m.xi) (h : dpUpdate p m law inc old = (.good new, T))
    (hacc : old.acc ≤ new.acc) : 0 ≤ plasticWork old.toVMState new.toVMState := by
  have hA := hm.elastic
  have hK := hA.bulk_pos; have hG := hA.shear_pos
  have hy := hm.etay; have hf := hm.etaf
  have hc0 : 0 < (law new.acc).1 := lt_of_lt_of_le (by norm_num) hc
  have hxi : 0 < m.xi := by
    by_contra hn
    have : (m.xi - 1e-6) * (law new.acc).1 ≤ 0 :=
      mul_nonpos_of_nonpos_of_nonneg (by norm_num at hn ⊢; linarith) hc0.le
    linarith [show (0 : ℝ) < 1e-8 by norm_num]
  have htol : cohesionTol (law new.acc).1 = 1e-6 * (law new.acc).1 := by
    unfold cohesionTol
    rw [abs_of_pos hc0, if_neg (not_lt.mpr hc)]
  obtain ⟨r, hr, h1, h2, h3, h4, h5, h6, h7, -⟩ := dpUpdate_good h
  have hdp : ∀ k, plastic3D new.toVMState k - plastic3D old.toVMState k =
      trial3D old.toVMState inc k - r.eStrain k := fun k => by
    simp only [plastic3D, strain3D_step h7, h1, trial3D]
    ring
  simp only [plasticWork, h2, hdp]
  set s := hooke6 (lame m.E m.v) (shear m.E m.v) (trial3D old.toVMState inc) with hs
  have hJ : norm6 (dev6 s) ^ 2 = 2 * sqrtJ2 s ^ 2 := by
    unfold sqrtJ2
    rw [div_pow, Real.sq_sqrt (by norm_num)]
    ring
  rcases dpReturn_cases hr with ⟨-, -, -, he, -⟩ | ⟨-, -, -, x, hx', hge, hac, he, hst, -⟩ |
    ⟨-, -, -, -, -, -, x, hx', hac, he, hst, -⟩
  · simp [he, inner6]
  · have hx0 : 0 ≤ x := by
      have : 0 ≤ m.xi * x := by linarith [h3.trans hac]
      exact nonneg_of_mul_nonneg_right this hxi
    obtain ⟨-, -, -, -, hres, -⟩ := hx'
    have hKd : m.K = bulk m.E m.v := rfl
    have hGd : m.G = shear m.E m.v := rfl
    simp only [coneEq, dpConeEval, hKd, hGd] at hres
    rw [← hac, ← h3, htol] at hres
    have hlow := (abs_lt.mp hres).1
    rw [← hs] at hst he hge hlow
    set q := pressure6 s - bulk m.E m.v * m.etaf * x with hq
    set f := (if sqrtJ2 s > suSmall then 1 - shear m.E m.v * x / sqrtJ2 s else 0) with hfd
    have hinc : ∀ k, trial3D old.toVMState inc k - dpElastic m q (fun k => f * dev6 s k) k =
        (pressure6 s - q) / (3 * bulk m.E m.v) * one6 k + (1 - f) / (2 * shear m.E m.v) * dev6 s k :=
      dp_increment hA (trial3D old.toVMState inc) q f
    simp only [hst, he, hinc]
    rw [inner6_iso _ _ _ _ (tr6_dev6 s), hJ]
    have e1 : 3 * q * ((pressure6 s - q) / (3 * bulk m.E m.v)) = x * (m.etaf * q) := by
      rw [show pressure6 s - q = bulk m.E m.v * m.etaf * x by rw [hq]; ring]
      field_simp
    have e2 : f * ((1 - f) / (2 * shear m.E m.v)) * (2 * sqrtJ2 s ^ 2) = x * (f * sqrtJ2 s) := by
      by_cases hb : sqrtJ2 s > suSmall
      · have hp : 0 < sqrtJ2 s := lt_trans (by unfold suSmall; norm_num) hb
        rw [hfd, if_pos hb]
        field_simp
        ring
      · rw [hfd, if_neg hb]
        simp
    have e3 : sqrtJ2 s - shear m.E m.v * x ≤ f * sqrtJ2 s + 1e-8 ∧ 0 ≤ f * sqrtJ2 s := by
      by_cases hb : sqrtJ2 s > suSmall
      · have hp : 0 < sqrtJ2 s := lt_trans (by unfold suSmall; norm_num) hb
        have : f * sqrtJ2 s = sqrtJ2 s - shear m.E m.v * x := by
          rw [hfd, if_pos hb]
          field_simp
        rw [this]
        exact ⟨by linarith [show (0 : ℝ) < 1e-8 by norm_num], hge⟩
      · rw [hfd, if_neg hb, zero_mul, zero_add]
        have h8 := not_lt.mp hb
        unfold suSmall at h8
        have := mul_nonneg hG.le hx0
        exact ⟨by linarith, le_rfl⟩
    rw [e1, e2, ← mul_add]
    refine mul_nonneg hx0 ?_
    rcases le_total 0 q with h0 | h0
    · exact add_nonneg (mul_nonneg hf.le h0) e3.2
    · have := mul_le_mul_of_nonpos_right hdil h0
      nlinarith [e3.1]
  · have hx0 : 0 ≤ x := by
      have : 0 ≤ m.xi / m.etaf * x := by linarith [h3.trans hac]
      exact nonneg_of_mul_nonneg_right this (div_pos hxi hf)
    obtain ⟨-, -, -, -, hres, -⟩ := hx'
    have hKd : m.K = bulk m.E m.v := rfl
    simp only [dpApexEval, hKd] at hres
    rw [← hac, ← h3, htol] at hres
    have hup := (abs_lt.mp hres).2
    rw [← hs] at hst he hup
    have hinc := dp_increment hA (trial3D old.toVMState inc) (pressure6 s - bulk m.E m.v * x) 0
    simp only [← hs, zero_mul] at hinc
    have hz : (fun _ => 0 : V6) = 0 := rfl
    simp only [hz] at hinc
    simp only [hst, he, hinc]
    have e0 : (fun k => (pressure6 s - bulk m.E m.v * x) * one6 k) =
        fun k => (pressure6 s - bulk m.E m.v * x) * one6 k + 0 * dev6 s k := by
      funext k; ring
    rw [e0, inner6_iso _ _ _ _ (tr6_dev6 s), zero_mul, zero_mul, add_zero]
    have e1 : 3 * (pressure6 s - bulk m.E m.v * x) *
        ((pressure6 s - (pressure6 s - bulk m.E m.v * x)) / (3 * bulk m.E m.v)) =
        (pressure6 s - bulk m.E m.v * x) * x := by
      field_simp
      ring
    rw [e1]
    refine mul_nonneg ?_ hx0
    have hb : 1e-6 ≤ m.xi / m.etay := by rw [le_div_iff₀ hy]; exact hxe
    have := mul_le_mul_of_nonneg_left hb hc0.le
    linarith

theorem dpStep_nan {p : PType} {m : DPParams} {law : HardLaw} {s : DPState p} (l : List (T2 p.dim))
    (sn : Option (Vmf p)) : l.foldl (dpStep p m law) (.nan sn) ≠ .good s := by
  induction l generalizing sn with
  | nil => intro h; cases h
  | cons i l ih => exact ih none

/-- With linear cohesion hardening the accumulated plastic strain does not decrease. -/
theorem dp_linear_acc {p : PType} {m : DPParams} (hm : Frictional m) {c0 a : ℝ} (ha : 0 ≤ a)
    {inc : T2 p.dim} {old new : DPState p} {T : Option (Fin p.len → Fin p.len → ℝ)} (hacc : 0 ≤ old.acc)
    (h : dpUpdate p m (linearHardening c0 a) inc old = (.good new, T)) : old.acc ≤ new.acc := by
  have hK := hm.elastic.bulk_pos; have hG := hm.elastic.shear_pos
  have h1 := hm.xi; have h2 := hm.etay; have h3 := hm.etaf
  by_cases he : DPTrialElastic m (linearHardening c0 a) old inc
  · obtain ⟨h4, h5⟩ := C36_elastic_step h
    exact (h5 (h4.mpr he)).2.1.ge
  · obtain ⟨new', T', hu, -, hp⟩ := C36_linear hm (c0 := c0) ha (inc := inc) hacc
    rw [h] at hu
    obtain ⟨rfl, -⟩ : new = new' ∧ T = T' := by simpa using hu
    have h0 := he
    unfold DPTrialElastic at h0
    rw [linear_nonneg hacc] at h0
    have h6 := cohesionTol_pos (c0 + a * old.acc)
    obtain ⟨hcone, hapex⟩ := hp he
    set s := hooke6 (lame m.E m.v) (shear m.E m.v) (trial3D old.toVMState inc) with hs
    have hD : 0 < shear m.E m.v + bulk m.E m.v * m.etaf * m.etay + m.xi ^ 2 * a := by positivity
    have hy : 0 ≤ dpYield m s (c0 + a * old.acc) := by
      have := not_le.mp h0; simp only at this; linarith
    rcases le_or_gt 0 (sqrtJ2 s - shear m.E m.v * (dpYield m s (c0 + a * old.acc) /
        (shear m.E m.v + bulk m.E m.v * m.etaf * m.etay + m.xi ^ 2 * a))) with hc | hc
    · rw [(hcone hc).2]
      have := mul_nonneg h1 (div_nonneg hy hD.le)
      linarith
    · rw [(hapex hc).2]
      have hpr := apex_pressure hm ha hc
      have hD2 : 0 < bulk m.E m.v + m.xi / m.etaf * (m.xi / m.etay) * a := by positivity
      have : 0 ≤ m.xi / m.etaf * ((pressure6 s - m.xi / m.etay * (c0 + a * old.acc)) /
          (bulk m.E m.v + m.xi / m.etaf * (m.xi / m.etay) * a)) :=
        mul_nonneg (by positivity) (div_nonneg hpr.le hD2.le)
      linarith

/-- **C140 (no energy can be gained, Drucker-Prager).** With linear cohesion hardening and a dilatancy which
does not exceed the friction, the work done on the material along every history from the initial state is at
least the elastic energy at the end; so it is never negative. -/
theorem C140_work_drucker_prager {p : PType} {m : DPParams} (hm : Frictional m) (hdil : m.etaf ≤ m.etay)
    {c0 a : ℝ} (hc : 1e-8 ≤ c0) (ha : 0 ≤ a) (hx : 1e-8 ≤ (m.xi - 1e-6) * c0)
    (hxe : 1e-6 * m.etay ≤ m.xi) (incs : List (T2 p.dim)) :
    ∃ s, dpRun p m (linearHardening c0 a) incs = .good s ∧
      storedEnergy s.toVMState ≤
        work dpStress (dpStep p m (linearHardening c0 a)) (.good (dpInit p)) incs ∧
      0 ≤ storedEnergy s.toVMState := by
  have hA := hm.elastic
  have hc0 : 0 < c0 := lt_of_lt_of_le (by norm_num) hc
  obtain ⟨s, h⟩ := C36_linear_never_fails hm (c0 := c0) ha incs
  have h00 : 0 ≤ m.xi * (linearHardening c0 a 0).1 := by
    rw [linear_nonneg le_rfl]
    simpa using mul_nonneg hm.xi hc0.le
  have hinv := C36_history hA h00 incs h
  have hhooke : ∀ st : DPState p, stress3D st.toVMState =
      hooke6 (lame m.E m.v) (shear m.E m.v) (elastic3D st.toVMState) →
      0 ≤ storedEnergy st.toVMState := fun st hst => by
    unfold storedEnergy
    rw [hst]
    exact mul_nonneg (by norm_num) (inner6_hooke_nonneg hA _)
  refine ⟨s, h, ?_, hhooke s hinv.stress⟩
  have hz : ∀ p : PType, to3D p (0 : Vmf p) 0 = 0 := by
    intro p; cases p
    · funext k; fin_cases k <;> simp [to3D]
    · rfl
  suffices H : ∀ (incs : List (T2 p.dim)) (s0 : DPState p), 0 ≤ s0.acc →
      stress3D s0.toVMState = hooke6 (lame m.E m.v) (shear m.E m.v) (elastic3D s0.toVMState) →
      incs.foldl (dpStep p m (linearHardening c0 a)) (.good s0) = .good s →
      storedEnergy s.toVMState - storedEnergy s0.toVMState ≤
        work dpStress (dpStep p m (linearHardening c0 a)) (.good s0) incs by
    have he : elastic3D (dpInit p).toVMState = 0 := hz p
    have hs : stress3D (dpInit p).toVMState = 0 := hz p
    have := H incs (dpInit p) le_rfl (by rw [hs, he]; funext k; simp [hooke6, tr6]) h
    have e0 : storedEnergy (dpInit p).toVMState = 0 := by
      unfold storedEnergy
      rw [he]
      simp [inner6]
    rwa [e0, sub_zero] at this
  intro incs
  induction incs with
  | nil =>
    intro s0 _ _ hs
    simp only [List.foldl_nil, DPVars.good.injEq] at hs
    subst hs
    simp [work]
  | cons inc incs ih =>
    intro s0 hacc hst hs
    simp only [List.foldl_cons, dpStep] at hs
    simp only [work, dpStep]
    cases hu : dpUpdate p m (linearHardening c0 a) inc s0 with
    | mk st T =>
      rw [hu] at hs
      cases st with
      | nan sn => exact absurd hs (dpStep_nan _ _)
      | good s1 =>
        have hle := dp_linear_acc hm ha hacc hu
        have hacc1 : 0 ≤ s1.acc := hacc.trans hle
        have hlaw : c0 ≤ (linearHardening c0 a s1.acc).1 := by
          rw [linear_nonneg hacc1]
          have := mul_nonneg ha hacc1
          simp only
          linarith
        have hst1 : stress3D s1.toVMState =
            hooke6 (lame m.E m.v) (shear m.E m.v) (elastic3D s1.toVMState) := by
          cases hp : s1.isPlast with
          | false => exact ((C36_elastic_step hu).2 hp).2.2.2
          | true =>
            cases hap : s1.isApex with
            | false => exact (C36_cone hA hu hp hap).2.2.1
            | true => exact (C36_apex hA hu hap).2.2.2.2.1
        have hx6 : 0 ≤ m.xi - 1e-6 := by
          by_contra hn
          have := mul_nonpos_of_nonpos_of_nonneg (not_le.mp hn).le hc0.le
          linarith [show (0 : ℝ) < 1e-8 by norm_num]
        have hd := C140_drucker_prager hm hdil (hc.trans hlaw)
          (hx.trans (mul_le_mul_of_nonneg_left hlaw hx6)) hxe hu hle
        obtain ⟨r, -, -, -, -, -, -, -, h7, -⟩ := dpUpdate_good hu
        have hb := C140_balance hA (inc := inc) hst hst1 h7
        have h1 := ih s1 hacc1 hst1 hs
        simp only [dpStress]
        linarith

/-- hypotheses of C140 for the Drucker-Prager model are met -/
example : ∃ m : DPParams, Frictional m ∧ m.etaf ≤ m.etay ∧ (1e-8 : ℝ) ≤ 1 ∧
    1e-8 ≤ (m.xi - 1e-6) * (1 : ℝ) ∧ 1e-6 * m.etay ≤ m.xi := by
  refine ⟨⟨1, 0, 1, 1, 1⟩, ⟨admissible_one, ?_, ?_, ?_⟩, ?_, ?_, ?_, ?_⟩ <;> norm_num

/-- hypotheses of C140 for the von Mises model are met by a plastic step and a history -/
example : ∃ new T s, vmUpdate .solid 1 0 (linearHardening 1 1) (uniInc 3) (vmInit .solid) =
    (.good new, T) ∧ new.isPlast = true ∧ NonSoftening (linearHardening 1 1) ∧
    (∀ x, 2e-8 ≤ (linearHardening 1 1 x).1) ∧
    vmRun .solid 1 0 (linearHardening 1 1) [uniInc 3] = .good s := by
  obtain ⟨new, T, h, h', -⟩ := C32_linear_exact admissible_one zero_le_one
    (by norm_num : (2e-8 : ℝ) ≤ 1) le_rfl uni_plastic
  refine ⟨new, T, new, h, h', ?_, ?_, ?_⟩
  · intro x y h
    simp only [linearHardening, relu]
    have := max_le_max_right 0 h
    linarith
  · intro x
    have : 0 ≤ relu x := le_max_right _ _
    simp only [linearHardening]
    norm_num
    linarith
  · simp only [vmRun, List.foldl_cons, List.foldl_nil, vmStep, h]

/-! ### Mixed hardening -/

/-- **C140 (dissipation of mixed hardening).** In a plastic step the work of the stress relative to the back
stress is the increment of the accumulated plastic strain times the yield stress less half of the increase of
the kinematic hardening stress, up to one part in a million of the yield stress.  It should be the yield
stress alone. -/
theorem C140_mixed {p : PType} {E v : ℝ} {law kin : HardLaw} {inc : T2 p.dim} {old new : MixState p}
    {T : Option (Fin p.len → Fin p.len → ℝ)} (h : mixUpdate p E v law kin inc old = (.good new, T))
    (hpl : new.isPlast = true) (hback : tr6 (back3D old) = 0) (hold : 2e-8 ≤ (law old.acc).1)
    (hnew : 0 < (law new.acc).1) :
    |relativePlasticWork old new -
        (new.acc - old.acc) * ((law new.acc).1 - ((kin new.acc).1 - (kin old.acc).1) / 2)| ≤
      1e-6 * (law new.acc).1 * |new.acc - old.acc| := by
  obtain ⟨r, hr, h1, h2, hb, h3, h4, h5, h6, -⟩ := mixUpdate_good h
  obtain ⟨hst, hc⟩ := mixReturn_cases hr
  rw [← h4, hpl] at hc
  rcases hc with ⟨hf, -⟩ | ⟨-, hne, x, hx, hacc, he, hbk⟩
  · cases hf
  set s := hooke6 (lame E v) (shear E v) (trial3D old.toVMState inc) with hs
  set rel : V6 := fun k => dev6 s k - back3D old k with hrel
  have htr : tr6 rel = 0 := by
    have := tr6_sub_smul (dev6 s) (back3D old) 1
    simp only [one_mul] at this
    rw [hrel, this, tr6_dev6, hback]; simp
  have hp : 0 < (law old.acc).1 := by linarith [show (0:ℝ) < 2e-8 by norm_num]
  have hd : norm6 rel > suSmall := by
    have h' : 1e-6 < (√(3 / 2) * norm6 rel - (law old.acc).1) / (law old.acc).1 := by
      by_contra hcon
      exact hne ⟨hp.ne', not_lt.mp hcon⟩
    rw [lt_div_iff₀ hp] at h'
    have hn := norm6_nonneg rel
    have := mul_le_mul_of_nonneg_right sqrt32_lt.le hn
    unfold suSmall
    have h2e : (2e-8 : ℝ) = 2 * 1e-8 := by norm_num
    nlinarith
  have hN : 0 < norm6 rel := lt_trans (by unfold suSmall; norm_num) hd
  have hfl : mixFlow rel = fun k => √(3 / 2) / norm6 rel * rel k := by
    funext k; simp only [mixFlow, if_pos hd]; ring
  have hftr := tr6_mixFlow htr
  have hdp : ∀ k, plastic3D new.toVMState k - plastic3D old.toVMState k = x * mixFlow rel k :=
    fun k => by
      simp only [plastic3D, strain3D_step h6, h1, he, trial3D]
      ring
  set d := (kin (old.acc + x)).1 - (kin old.acc).1 with hdd
  have hw : relativePlasticWork old new =
      x * (√(3 / 2) * norm6 rel - 3 * shear E v * x - 3 / 2 * d) := by
    have e0 : ∀ k, stress3D new.toVMState k - back3D new k =
        tr6 s / 3 * one6 k + (1 - (x * (2 * shear E v) + d) * (√(3 / 2) / norm6 rel)) * rel k := by
      intro k
      rw [h2, hst, he, hb, hbk, hooke6_sub_smul, hooke6_dev hftr, ← hs]
      have : s k = tr6 s / 3 * one6 k + dev6 s k := by simp only [dev6]; ring
      simp only [hfl]
      rw [this]
      simp only [hrel]
      ring
    have e1 : ∀ k, x * mixFlow rel k = 0 * one6 k + x * (√(3 / 2) / norm6 rel) * rel k := by
      intro k
      rw [hfl]
      ring
    simp only [relativePlasticWork, hdp, e1, e0]
    rw [inner6_iso _ _ _ _ htr]
    have h9 : √(3 / 2) / norm6 rel * (√(3 / 2) * norm6 rel) = 3 / 2 := by
      rw [div_mul_eq_mul_div, div_eq_iff hN.ne']
      linear_combination norm6 rel * sqrt32_mul
    have h10 : √(3 / 2) / norm6 rel * norm6 rel = √(3 / 2) := div_mul_cancel₀ _ hN.ne'
    generalize √(3 / 2) / norm6 rel = y at h9 h10
    have h11 := sqrt32_mul
    rw [show 3 * (tr6 s / 3) * 0 + (1 - (x * (2 * shear E v) + d) * y) * (x * y) * norm6 rel ^ 2 =
      x * ((y * norm6 rel) * norm6 rel - (x * (2 * shear E v) + d) * ((y * norm6 rel) * (y * norm6 rel)))
      by ring, h10, h11]
    ring
  obtain ⟨k, -, -, -, ⟨-, hcv⟩, -⟩ := newton_iff.mp hx
  simp only [mixEval] at hcv
  rw [← hacc, ← h3, abs_of_pos hnew, show suTol = 1e-6 from rfl] at hcv
  have hxa : new.acc - old.acc = x := by rw [h3, hacc]; ring
  have hkd : (kin new.acc).1 - (kin old.acc).1 = d := by rw [h3, hacc]
  rw [hw, hxa, hkd, ← mul_sub, abs_mul, mul_comm]
  refine mul_le_mul_of_nonneg_right (le_trans (le_of_eq ?_) hcv.le) (abs_nonneg x)
  congr 1
  linarith

/-- Plastic step used as witness: as for `mix_uni`, with uniaxial strain 11. -/
theorem mix_uni_large : ∃ new T, mixUpdate .solid 1 0 (linearHardening 1 0) (linearHardening 0 1)
    (uniInc 11) (mixInit .solid) = (.good new, T) ∧ new.isPlast = true ∧ new.acc = 4 := by
  have hq : √(3 / 2) * norm6 (fun k => dev6 (hooke6 (lame 1 0) (shear 1 0)
      (trial3D (mixInit .solid).toVMState (uniInc 11))) k - back3D (mixInit .solid) k) = 11 := by
    have h1 := relativeTrial_uni 11
    unfold relativeTrial at h1
    rw [vm6_eq, dev6_sub_traceless (by simp [tr6, back3D, mixInit, to3D])] at h1
    rw [h1]; norm_num
  have hG : shear 1 0 = 1 / 2 := by norm_num [shear]
  have hn : newtonLoop (mixEval (shear 1 0) 11 0 (linearHardening 1 0) (linearHardening 0 1))
      suTol suMaxIter 0 0 = some (4) := by
    refine newton_affine (by decide) suTol_pos ?_ ?_ ?_ ?_ <;>
      norm_num [mixEval, linearHardening, relu, hG]
  have hacc : (mixInit .solid).acc = 0 := rfl
  have hel : ¬ ((linearHardening 1 0 0).1 ≠ 0 ∧
      (11 - (linearHardening 1 0 0).1) / (linearHardening 1 0 0).1 ≤ suTol) := by
    norm_num [linearHardening, relu, suTol]
  cases hu : mixUpdate .solid 1 0 (linearHardening 1 0) (linearHardening 0 1)
    (uniInc 11) (mixInit .solid) with
  | mk st T =>
    cases st with
    | nan sn =>
      exfalso
      have hnone : mixReturn 1 0 (linearHardening 1 0) (linearHardening 0 1)
          (trial3D (mixInit .solid).toVMState (uniInc 11)) 0 (back3D (mixInit .solid)) = none := by
        unfold mixUpdate at hu
        have htr : to3D .solid (mixInit .solid).eStrain (mixInit .solid).e33 +
          to3D .solid (mf .solid (uniInc 11)) 0 = trial3D (mixInit .solid).toVMState (uniInc 11) := rfl
        have hb : to3D .solid (mixInit .solid).back (mixInit .solid).b33 =
          back3D (mixInit .solid) := rfl
        simp only [htr, hb, hacc] at hu
        cases hr : mixReturn 1 0 (linearHardening 1 0) (linearHardening 0 1)
          (trial3D (mixInit .solid).toVMState (uniInc 11)) 0 (back3D (mixInit .solid)) with
        | none => rfl
        | some r => rw [hr] at hu; simp at hu
      have := (mixReturn_none.mp hnone).2
      rw [hq, hn] at this
      cases this
    | good new =>
      refine ⟨new, T, rfl, ?_⟩
      obtain ⟨r, hr, -, -, -, h3, h4, -⟩ := mixUpdate_good hu
      have hc := (mixReturn_cases hr).2
      rw [hq, hacc] at hc
      rcases hc with ⟨-, -, -, -, h1, h2⟩ | ⟨h1, -, x, hx, h2, -⟩
      · exact absurd ⟨h1, h2⟩ hel
      · rw [hn] at hx
        cases hx
        exact ⟨h4.trans h1, by rw [h3, h2]; norm_num⟩

/-- **C140 is violated for mixed hardening.** The back stress is advanced one and a half times, so that for a
large step with kinematic hardening the stress relative to the new back stress does negative work on the
plastic strain: with `E = 1`, `ν = 0`, constant yield stress 1, kinematic hardening stress equal to the
accumulated plastic strain and uniaxial strain 11, the work is about `-4` instead of `4`. -/
theorem C140_mixed_violated : ∃ new T, mixUpdate .solid 1 0 (linearHardening 1 0) (linearHardening 0 1)
    (uniInc 11) (mixInit .solid) = (.good new, T) ∧ new.isPlast = true ∧ new.acc = 4 ∧
    relativePlasticWork (mixInit .solid) new < -3 := by
  obtain ⟨new, T, h, hpl, hacc⟩ := mix_uni_large
  refine ⟨new, T, h, hpl, hacc, ?_⟩
  have hb : back3D (mixInit .solid) = 0 := rfl
  have := C140_mixed h hpl (by rw [hb]; simp [tr6]) (by norm_num [linearHardening])
    (by norm_num [linearHardening])
  rw [hacc, show (mixInit .solid).acc = 0 from rfl] at this
  have h1 := (abs_le.mp this).2
  norm_num [linearHardening, relu] at h1
  linarith

end Hooke
