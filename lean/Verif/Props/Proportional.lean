import Verif.Spec.Proportional
import Verif.Props.Dissipation
import Verif.Props.VonMisesMixedVMAP

/-!
# C141: under proportional loading the result does not depend on the number of steps
-/

noncomputable section

namespace Hooke

open Spec

theorem increment3D_smul (p : PType) (c : ℝ) (D : T2 p.dim) (k : Fin 6) :
    increment3D p (c • D) k = c * increment3D p D k := by
  cases p
  · fin_cases k <;> simp [increment3D, to3D, mf] <;> ring
  · simp [increment3D, to3D, mf, kel6]
    ring

theorem tr6_smul (c : ℝ) (a : V6) : tr6 (fun k => c * a k) = c * tr6 a := by
  simp only [tr6]
  ring

theorem tr6_flowDirection {p : PType} (E v : ℝ) (D : T2 p.dim) : tr6 (flowDirection E v D) = 0 := by
  have := tr6_smul (3 / 2 / vm6 (unitStress E v D)) (dev6 (unitStress E v D))
  rw [tr6_dev6, mul_zero] at this
  rw [← this]
  congr 1
  funext k
  simp only [flowDirection]
  ring

theorem dev_of_vm_zero {s : V6} (h : vm6 s = 0) (k : Fin 6) : dev6 s k = 0 := by
  have hn : norm6 (dev6 s) = 0 := by
    rw [vm6_eq] at h
    exact (mul_eq_zero.mp h).resolve_left sqrt32_pos.ne'
  unfold norm6 at hn
  rw [Real.sqrt_eq_zero (Finset.sum_nonneg fun _ _ => sq_nonneg _)] at hn
  have := (Finset.sum_eq_zero_iff_of_nonneg fun i _ => sq_nonneg (dev6 s i)).mp hn k (Finset.mem_univ k)
  exact pow_eq_zero_iff (by norm_num) |>.mp this

/-- State after a proportional loading of total `t`. -/
structure PropState {p : PType} (E v : ℝ) (law : HardLaw) (D : T2 p.dim) (t : ℝ) (s : VMState p) :
    Prop where
  total : 0 ≤ t
  elastic : ∀ k, elastic3D s k = t * increment3D p D k - s.acc * flowDirection E v D k
  strain : ∀ k, strain3D s k = t * increment3D p D k
  acc : 0 ≤ s.acc
  upper : t * vm6 (unitStress E v D) - 3 * shear E v * s.acc ≤ (1 + 1e-6) * (law s.acc).1
  lower : 0 < s.acc → (1 - 1e-6) * (law s.acc).1 ≤
    t * vm6 (unitStress E v D) - 3 * shear E v * s.acc

/-- Stress of a strain `t D` with plastic strain `x` times the flow direction. -/
theorem prop_stress {p : PType} (E v : ℝ) (D : T2 p.dim) (t x : ℝ) :
    hooke6 (lame E v) (shear E v) (fun k => t * increment3D p D k - x * flowDirection E v D k) =
      fun k => t * unitStress E v D k - x * (2 * shear E v * flowDirection E v D k) := by
  rw [hooke6_sub_smul, hooke6_dev (tr6_flowDirection E v D)]
  funext k
  congr 1
  have : tr6 (fun k => t * increment3D p D k) = t * tr6 (increment3D p D) := tr6_smul _ _
  simp only [hooke6, unitStress, this]
  ring

theorem prop_dev {p : PType} (E v : ℝ) (D : T2 p.dim) (t x : ℝ) (hx : vm6 (unitStress E v D) = 0 → x = 0) :
    (dev6 (fun k => t * unitStress E v D k - x * (2 * shear E v * flowDirection E v D k)) = fun k =>
      (t - 3 * shear E v * x / vm6 (unitStress E v D)) * dev6 (unitStress E v D) k) ∧
    vm6 (fun k => t * unitStress E v D k - x * (2 * shear E v * flowDirection E v D k)) =
      |t * vm6 (unitStress E v D) - 3 * shear E v * x| := by
  have h1 : dev6 (fun k => t * unitStress E v D k - x * (2 * shear E v * flowDirection E v D k)) =
      fun k => (t - 3 * shear E v * x / vm6 (unitStress E v D)) * dev6 (unitStress E v D) k := by
    have e1 : dev6 (fun k => t * unitStress E v D k) = fun k => t * dev6 (unitStress E v D) k := by
      funext k
      simp only [dev6, tr6_smul]
      ring
    have e2 : tr6 (fun k => 2 * shear E v * flowDirection E v D k) = 0 := by
      rw [tr6_smul, tr6_flowDirection, mul_zero]
    rw [dev6_sub_smul, e1, dev6_of_tr e2]
    funext k
    simp only [flowDirection]
    ring
  refine ⟨h1, ?_⟩
  rw [vm6_eq, h1, norm6_smul]
  by_cases hQ : vm6 (unitStress E v D) = 0
  · rw [hx hQ, hQ]
    rw [vm6_eq] at hQ
    simp only [mul_zero, zero_div, sub_zero, abs_zero]
    rw [← mul_assoc, mul_comm _ |t|, mul_assoc, hQ, mul_zero]
  · have e3 : t * vm6 (unitStress E v D) - 3 * shear E v * x =
        (t - 3 * shear E v * x / vm6 (unitStress E v D)) * vm6 (unitStress E v D) := by
      field_simp
    rw [e3, abs_mul, abs_of_nonneg (vm6_nonneg _)]
    conv_rhs => rw [vm6_eq (unitStress E v D)]
    simp only [vm6_eq]
    ring

theorem prop_step {p : PType} {E v : ℝ} (hA : Admissible E v) {law : HardLaw} (hm : NonSoftening law)
    (hpos : ∀ x, 2e-8 ≤ (law x).1) {D : T2 p.dim} {t c : ℝ} (hc : 0 ≤ c) {old new : VMState p}
    {T : Option (Fin p.len → Fin p.len → ℝ)} (h : vmUpdate p E v law (c • D) old = (.good new, T))
    (hi : PropState E v law D t old) : PropState E v law D (t + c) new := by
  have hG := hA.shear_pos
  have hQ0 := vm6_nonneg (unitStress E v D)
  have hp : ∀ x, 0 < (law x).1 := fun x => lt_of_lt_of_le (by norm_num) (hpos x)
  have hle : 3 * shear E v * old.acc ≤ t * vm6 (unitStress E v D) := by
    rcases hi.acc.eq_or_lt with h0 | h0
    · rw [← h0, mul_zero]
      exact mul_nonneg hi.total hQ0
    · have h1 := hi.lower h0
      have h2 := hp old.acc
      have : (0 : ℝ) ≤ (1 - 1e-6) * (law old.acc).1 := mul_nonneg (by norm_num) h2.le
      linarith
  have hx : vm6 (unitStress E v D) = 0 → old.acc = 0 := fun hz => by
    rw [hz, mul_zero] at hle
    have := hi.acc
    nlinarith
  have htr : trial3D old (c • D) =
      fun k => (t + c) * increment3D p D k - old.acc * flowDirection E v D k := by
    funext k
    simp only [trial3D, hi.elastic, increment3D_smul]
    ring
  have hle' : 3 * shear E v * old.acc ≤ (t + c) * vm6 (unitStress E v D) := by
    have := mul_nonneg hc hQ0
    linarith
  obtain ⟨hdev, hvm⟩ := prop_dev E v D (t + c) old.acc hx
  rw [abs_of_nonneg (by linarith)] at hvm
  obtain ⟨hup, hstay⟩ := C31_accumulated hA hm hpos h
  obtain ⟨-, -, hel, -⟩ := C28_success h
  obtain ⟨r, hr, h1, h2, h3, h4, -, h6, -⟩ := vmUpdate_good h
  obtain ⟨hs, hcs⟩ := vmReturn_cases hr
  have hst : ∀ k, strain3D new k = (t + c) * increment3D p D k := fun k => by
    rw [strain3D_step h6, hi.strain, increment3D_smul]
    ring
  rw [htr, prop_stress, hvm] at hcs
  rcases hcs with ⟨hf, he, hacc, hne, hcv⟩ | ⟨hf, hne, x, hx', hacc, he⟩
  · have ha : new.acc = old.acc := h3.trans hacc
    refine ⟨add_nonneg hi.total hc, fun k => ?_, hst, by rw [ha]; exact hi.acc, ?_, fun h0 => ?_⟩
    · rw [h1, he, ha]
    · rw [ha]
      rw [div_le_iff₀ (hp _), show suTol = 1e-6 from rfl] at hcv
      linarith
    · rw [ha] at h0 ⊢
      have := hi.lower h0
      have := mul_nonneg hc hQ0
      linarith
  · rw [← h4] at hf
    have hne' : ¬ TrialElastic E v law old (c • D) := by rw [← hel, hf]; simp
    obtain ⟨hd, -⟩ := trial_dev_large (hpos _) hne'
    rw [htr, prop_stress] at hd
    have hQ : 0 < vm6 (unitStress E v D) := by
      refine lt_of_le_of_ne hQ0 fun hz => ?_
      rw [hdev, norm6_smul] at hd
      have : norm6 (dev6 (unitStress E v D)) = 0 := by
        rw [vm6_eq] at hz
        exact (mul_eq_zero.mp hz.symm).resolve_left sqrt32_pos.ne'
      rw [this, mul_zero] at hd
      have : (0 : ℝ) < suSmall := by unfold suSmall; norm_num
      linarith
    have hN : 0 < norm6 (dev6 (unitStress E v D)) := by
      rw [vm6_eq] at hQ
      exact (mul_pos_iff_of_pos_left sqrt32_pos).mp hQ
    set f := t + c - 3 * shear E v * old.acc / vm6 (unitStress E v D) with hfd
    have hf0 : 0 < f := by
      have : 0 ≤ f := by
        rw [hfd, sub_nonneg, div_le_iff₀ hQ]
        exact hle'
      refine lt_of_le_of_ne this fun hz => ?_
      rw [hdev, norm6_smul, ← hz, abs_zero, zero_mul] at hd
      have : (0 : ℝ) < suSmall := by unfold suSmall; norm_num
      linarith
    have hfl : vmFlow (fun k => (t + c) * unitStress E v D k -
        old.acc * (2 * shear E v * flowDirection E v D k)) = flowDirection E v D := by
      rw [vmFlow_scale hd, hdev, norm6_smul, abs_of_pos hf0]
      funext k
      simp only [flowDirection, vm6_eq]
      have := sqrt32_mul
      field_simp
      linear_combination 2 * dev6 (unitStress E v D) k * this
    rw [hfl] at he
    obtain ⟨k, -, -, -, ⟨-, hcv⟩, -⟩ := newton_iff.mp hx'
    simp only [vmEval] at hcv
    rw [← hacc, ← h3, abs_of_pos (hp _), show suTol = 1e-6 from rfl] at hcv
    have ha : new.acc = old.acc + x := h3.trans hacc
    obtain ⟨hlo, hhi⟩ := abs_lt.mp hcv
    refine ⟨add_nonneg hi.total hc, fun k => ?_, hst, hi.acc.trans (hup hf).le, ?_, fun _ => ?_⟩
    · rw [h1, he]
      simp only [ha]
      ring
    · have : 3 * shear E v * new.acc = 3 * shear E v * old.acc + 3 * shear E v * x := by rw [ha]; ring
      linarith
    · have : 3 * shear E v * new.acc = 3 * shear E v * old.acc + 3 * shear E v * x := by rw [ha]; ring
      linarith

theorem prop_run {p : PType} {E v : ℝ} (hA : Admissible E v) {law : HardLaw} (hm : NonSoftening law)
    (hpos : ∀ x, 2e-8 ≤ (law x).1) (D : T2 p.dim) (cs : List ℝ) (hcs : ∀ c ∈ cs, 0 ≤ c) {s : VMState p}
    (h : vmRun p E v law (proportional D cs) = .good s) : PropState E v law D cs.sum s := by
  suffices H : ∀ (cs : List ℝ) (s0 : VMState p) (t : ℝ), (∀ c ∈ cs, 0 ≤ c) → PropState E v law D t s0 →
      (proportional D cs).foldl (vmStep p E v law) (.good s0) = .good s →
      PropState E v law D (t + cs.sum) s by
    have hz : ∀ p : PType, to3D p (0 : Vmf p) 0 = 0 := by
      intro p; cases p
      · funext k; fin_cases k <;> simp [to3D]
      · rfl
    have hi : PropState E v law D 0 (vmInit p) := by
      have he : elastic3D (vmInit p) = 0 := hz p
      have ht : strain3D (vmInit p) = 0 := hz p
      have ha : (vmInit p).acc = 0 := rfl
      refine ⟨le_rfl, fun k => by rw [he, ha]; simp, fun k => by rw [ht]; simp, le_rfl, ?_, fun h0 => ?_⟩
      · rw [ha, zero_mul, mul_zero, sub_zero]
        exact mul_nonneg (by norm_num) (le_trans (by norm_num) (hpos 0))
      · rw [ha] at h0
        exact absurd h0 (lt_irrefl _)
    have := H cs (vmInit p) 0 hcs hi h
    rwa [zero_add] at this
  intro cs
  induction cs with
  | nil =>
    intro s0 t _ hi hs
    simp only [proportional, List.map_nil, List.foldl_nil, VMVars.good.injEq] at hs
    subst hs
    simpa using hi
  | cons c cs ih =>
    intro s0 t hc hi hs
    simp only [proportional, List.map_cons, List.foldl_cons, vmStep] at hs
    cases hu : vmUpdate p E v law (c • D) s0 with
    | mk st T =>
      rw [hu] at hs
      cases st with
      | nan sn => exact absurd hs (vmStep_nan _ _)
      | good s1 =>
        rw [List.sum_cons, ← add_assoc]
        exact ih s1 (t + c) (fun x hx => hc x (by simp [hx]))
          (prop_step hA hm hpos (hc c (by simp)) hu hi) hs

/-- **C141 (proportional loading).** After any number of steps along one direction of strain which do not
fail, the plastic strain is the accumulated plastic strain times the direction of flow, the stress follows
from the total strain and the accumulated plastic strain, and the latter solves the yield condition for the
total strain up to one part in a million; nothing depends on the steps themselves. -/
theorem C141_proportional {p : PType} {E v : ℝ} (hA : Admissible E v) {law : HardLaw}
    (hm : NonSoftening law) (hpos : ∀ x, 2e-8 ≤ (law x).1) (D : T2 p.dim) (cs : List ℝ)
    (hcs : ∀ c ∈ cs, 0 ≤ c) {s : VMState p} (h : vmRun p E v law (proportional D cs) = .good s) :
    0 ≤ s.acc ∧ (∀ k, plastic3D s k = s.acc * flowDirection E v D k) ∧
      (∀ k, stress3D s k = cs.sum * unitStress E v D k -
        s.acc * (2 * shear E v * flowDirection E v D k)) ∧
      cs.sum * vm6 (unitStress E v D) - 3 * shear E v * s.acc ≤ (1 + 1e-6) * (law s.acc).1 ∧
      (0 < s.acc → (1 - 1e-6) * (law s.acc).1 ≤
        cs.sum * vm6 (unitStress E v D) - 3 * shear E v * s.acc) := by
  have hi := prop_run hA hm hpos D cs hcs h
  refine ⟨hi.acc, fun k => ?_, fun k => ?_, hi.upper, hi.lower⟩
  · simp only [plastic3D, hi.elastic, hi.strain]
    ring
  · rw [(C31_history hA hm hpos _ h).stress, show elastic3D s = fun k => cs.sum * increment3D p D k -
      s.acc * flowDirection E v D k from funext hi.elastic, prop_stress]

/-- **C141 (the number of steps does not matter).** Two proportional loadings with the same total strain give
the same accumulated plastic strain, and stresses whose difference has a small equivalent stress, up to one
part in a million of the yield stress. -/
theorem C141_steps {p : PType} {E v : ℝ} (hA : Admissible E v) {law : HardLaw} (hm : NonSoftening law)
    (hpos : ∀ x, 2e-8 ≤ (law x).1) (D : T2 p.dim) (cs cs' : List ℝ) (hcs : ∀ c ∈ cs, 0 ≤ c)
    (hcs' : ∀ c ∈ cs', 0 ≤ c) (hsum : cs.sum = cs'.sum) {s s' : VMState p}
    (h : vmRun p E v law (proportional D cs) = .good s)
    (h' : vmRun p E v law (proportional D cs') = .good s') :
    3 * shear E v * |s.acc - s'.acc| ≤ 1e-6 * ((law s.acc).1 + (law s'.acc).1) ∧
      vm6 (fun k => stress3D s k - stress3D s' k) ≤ 1e-6 * ((law s.acc).1 + (law s'.acc).1) := by
  have hG := hA.shear_pos
  have key : ∀ (cs cs' : List ℝ) (s s' : VMState p), (∀ c ∈ cs, 0 ≤ c) → (∀ c ∈ cs', 0 ≤ c) →
      cs.sum = cs'.sum → vmRun p E v law (proportional D cs) = .good s →
      vmRun p E v law (proportional D cs') = .good s' → s.acc ≤ s'.acc →
      3 * shear E v * (s'.acc - s.acc) ≤ 1e-6 * ((law s.acc).1 + (law s'.acc).1) := by
    intro cs cs' s s' hc hc' he hr hr' hle
    obtain ⟨h0, -, -, hu, -⟩ := C141_proportional hA hm hpos D cs hc hr
    obtain ⟨h0', -, -, -, hl⟩ := C141_proportional hA hm hpos D cs' hc' hr'
    have hmono := hm s.acc s'.acc hle
    have hp1 := hpos s.acc
    have hp2 := hpos s'.acc
    rcases h0'.eq_or_lt with hz | hz
    · have : s.acc = 0 := le_antisymm (hle.trans hz.ge) h0
      rw [← hz, this, sub_self, mul_zero]
      have := hpos 0
      exact mul_nonneg (by norm_num) (by linarith [show (0 : ℝ) < 2e-8 by norm_num])
    · have := hl hz
      rw [← he] at this
      linarith
  have h1 : 3 * shear E v * |s.acc - s'.acc| ≤ 1e-6 * ((law s.acc).1 + (law s'.acc).1) := by
    rcases le_total s.acc s'.acc with hle | hle
    · rw [abs_sub_comm, abs_of_nonneg (by linarith)]
      exact key cs cs' s s' hcs hcs' hsum h h' hle
    · rw [abs_of_nonneg (by linarith), add_comm (law s.acc).1]
      exact key cs' cs s' s hcs' hcs hsum.symm h' h hle
  refine ⟨h1, le_trans ?_ h1⟩
  obtain ⟨-, -, hst, -⟩ := C141_proportional hA hm hpos D cs hcs h
  obtain ⟨-, -, hst', -⟩ := C141_proportional hA hm hpos D cs' hcs' h'
  have hd : (fun k => stress3D s k - stress3D s' k) =
      fun k => 0 * unitStress E v D k - (s.acc - s'.acc) * (2 * shear E v * flowDirection E v D k) := by
    funext k
    rw [hst, hst', hsum]
    ring
  rw [hd]
  by_cases hQ : vm6 (unitStress E v D) = 0
  · have hn : ∀ k, flowDirection E v D k = 0 := fun k => by simp [flowDirection, hQ]
    have : (fun k => 0 * unitStress E v D k -
        (s.acc - s'.acc) * (2 * shear E v * flowDirection E v D k)) = fun k => 0 * one6 k := by
      funext k
      rw [hn]
      ring
    rw [this, vm6_eq]
    have e : dev6 (fun k => 0 * one6 k) = fun k => 0 * one6 k := by
      funext k
      simp [dev6, tr6]
    rw [e, norm6_smul, abs_zero, zero_mul, mul_zero]
    positivity
  · rw [(prop_dev E v D 0 _ fun hz => absurd hz hQ).2, zero_mul, zero_sub, abs_neg, abs_mul,
      abs_of_pos (by linarith)]

theorem linear_nonSoftening {s0 a : ℝ} (ha : 0 ≤ a) : NonSoftening (linearHardening s0 a) := by
  intro x y h
  simp only [linearHardening, relu]
  have := mul_le_mul_of_nonneg_left (max_le_max_right 0 h) ha
  linarith

theorem linear_lower {s0 a : ℝ} (ha : 0 ≤ a) (hs : 2e-8 ≤ s0) (x : ℝ) :
    2e-8 ≤ (linearHardening s0 a x).1 := by
  have : 0 ≤ a * relu x := mul_nonneg ha (le_max_right _ _)
  simp only [linearHardening]
  linarith

/-- **C141 (linear hardening).** With linear hardening every proportional loading succeeds, and if the last
step is plastic the accumulated plastic strain is exactly that of the total strain. -/
theorem C141_linear {p : PType} {E v s0 a : ℝ} (hA : Admissible E v) (ha : 0 ≤ a) (hs : 2e-8 ≤ s0)
    (D : T2 p.dim) (cs : List ℝ) (hcs : ∀ c ∈ cs, 0 ≤ c) :
    ∃ s, vmRun p E v (linearHardening s0 a) (proportional D cs) = .good s ∧
      (s.isPlast = true → s.acc = (cs.sum * vm6 (unitStress E v D) - s0) / (3 * shear E v + a)) := by
  obtain ⟨s, h⟩ := C32_never_fails hA ha hs (proportional D cs)
  refine ⟨s, h, fun hp => ?_⟩
  have hG := hA.shear_pos
  have hm := linear_nonSoftening (s0 := s0) ha
  have hpos := linear_lower (s0 := s0) ha hs
  obtain ⟨-, -, hst, -, hlow⟩ := C141_proportional hA hm hpos D cs hcs h
  rcases List.eq_nil_or_concat cs with rfl | ⟨cs, c, rfl⟩
  · simp only [proportional, List.map_nil, vmRun, List.foldl_nil, VMVars.good.injEq] at h
    subst h
    cases hp
  · obtain ⟨s1, h1⟩ := C32_never_fails hA ha hs (proportional D cs)
    have hc1 := C31_history hA hm hpos _ h1
    have hr := h
    simp only [proportional, List.concat_eq_append, List.map_append, List.map_cons, List.map_nil, vmRun,
      List.foldl_append] at hr
    have h1' : (List.map (fun c => c • D) cs).foldl (vmStep p E v (linearHardening s0 a))
        (.good (vmInit p)) = .good s1 := h1
    rw [h1'] at hr
    simp only [List.foldl_cons, List.foldl_nil, vmStep] at hr
    cases hu : vmUpdate p E v (linearHardening s0 a) (c • D) s1 with
    | mk st T =>
      rw [hu] at hr
      simp only at hr
      subst hr
      obtain ⟨-, -, hel, -⟩ := C28_success hu
      have hne : ¬ TrialElastic E v (linearHardening s0 a) s1 (c • D) := by rw [← hel, hp]; simp
      obtain ⟨new, T', hu', -, -, hlt, hvm⟩ := C32_linear_exact hA ha hs hc1.acc hne
      rw [hu] at hu'
      obtain ⟨rfl, -⟩ : s = new ∧ T = T' := by simpa using hu'
      have hpos' : 0 < s.acc := lt_of_le_of_lt hc1.acc hlt
      have h2 := hlow hpos'
      have h3 := hpos s.acc
      have h4 : 0 < (cs.concat c).sum * vm6 (unitStress E v D) - 3 * shear E v * s.acc := by
        refine lt_of_lt_of_le (mul_pos (by norm_num) (lt_of_lt_of_le ?_ h3)) h2
        norm_num
      have hQ : vm6 (unitStress E v D) ≠ 0 := by
        intro hz
        rw [hz, mul_zero, zero_sub] at h4
        have := mul_pos hG hpos'
        linarith
      rw [show stress3D s = _ from funext hst, (prop_dev E v D _ _ fun hz => absurd hz hQ).2,
        abs_of_pos h4] at hvm
      rw [eq_div_iff (by positivity)]
      linarith

/-- hypotheses of C141 are met: one step and two steps of the same total -/
example : ∃ s s', vmRun .solid 1 0 (linearHardening 1 1) (proportional (p := .solid) (uniInc 1) [3]) = .good s ∧
    vmRun .solid 1 0 (linearHardening 1 1) (proportional (p := .solid) (uniInc 1) [2, 1]) = .good s' ∧
    ([3] : List ℝ).sum = [2, 1].sum ∧ NonSoftening (linearHardening 1 1) ∧
    ∀ x, 2e-8 ≤ (linearHardening 1 1 x).1 := by
  obtain ⟨s, h⟩ := C32_never_fails (p := .solid) admissible_one zero_le_one (by norm_num : (2e-8 : ℝ) ≤ 1)
    (proportional (p := .solid) (uniInc 1) [3])
  obtain ⟨s', h'⟩ := C32_never_fails (p := .solid) admissible_one zero_le_one (by norm_num : (2e-8 : ℝ) ≤ 1)
    (proportional (p := .solid) (uniInc 1) [2, 1])
  exact ⟨s, s', h, h', by norm_num, linear_nonSoftening zero_le_one, linear_lower zero_le_one (by norm_num)⟩

/-! ### Mixed hardening -/

/-- Plastic step along the first axis with `E = 1`, `ν = 0`, yield stress 1 and kinematic hardening stress
equal to the accumulated plastic strain. -/
theorem mix_uni_step {old : MixState .solid} {e f b d : ℝ} (hacc : 0 ≤ old.acc)
    (he : elastic3D old.toVMState = ![e, f, f, 0, 0, 0]) (hb : back3D old = ![b, -b / 2, -b / 2, 0, 0, 0])
    (hq : 1.1 ≤ e + d - f - 3 / 2 * b) :
    ∃ new T, mixUpdate .solid 1 0 (linearHardening 1 0) (linearHardening 0 1) (uniInc d) old =
        (.good new, T) ∧
      new.acc = old.acc + 2 / 5 * (e + d - f - 3 / 2 * b - 1) ∧
      elastic3D new.toVMState = ![e + d - 2 / 5 * (e + d - f - 3 / 2 * b - 1),
        f + 1 / 5 * (e + d - f - 3 / 2 * b - 1), f + 1 / 5 * (e + d - f - 3 / 2 * b - 1), 0, 0, 0] ∧
      back3D new = ![b + 2 / 5 * (e + d - f - 3 / 2 * b - 1),
        -(b + 2 / 5 * (e + d - f - 3 / 2 * b - 1)) / 2,
        -(b + 2 / 5 * (e + d - f - 3 / 2 * b - 1)) / 2, 0, 0, 0] := by
  set q := e + d - f - 3 / 2 * b with hqd
  have hG : shear 1 0 = 1 / 2 := by norm_num [shear]
  have htr : trial3D old.toVMState (uniInc d) = ![e + d, f, f, 0, 0, 0] := by
    funext k
    simp only [trial3D, he]
    fin_cases k <;> simp [increment3D, to3D, mf, kel6, uniInc, ci, cj, kf]
  have hrel : (fun k => dev6 (hooke6 (lame 1 0) (shear 1 0) (trial3D old.toVMState (uniInc d))) k -
      back3D old k) = ![2 / 3 * q, -1 / 3 * q, -1 / 3 * q, 0, 0, 0] := by
    funext k
    rw [htr, hb]
    fin_cases k <;> simp [dev6, hooke6, lame, shear, one6, tr6, hqd] <;> ring
  have hqn : √(3 / 2) * norm6 ![2 / 3 * q, -1 / 3 * q, -1 / 3 * q, 0, 0, 0] = q := by
    rw [norm6, ← Real.sqrt_mul (by norm_num)]
    rw [show (3 / 2 : ℝ) * ∑ k, (![2 / 3 * q, -1 / 3 * q, -1 / 3 * q, 0, 0, 0] : V6) k ^ 2 = q ^ 2 by
      simp [Fin.sum_univ_succ]; ring]
    exact Real.sqrt_sq (by linarith)
  have hflow : mixFlow ![2 / 3 * q, -1 / 3 * q, -1 / 3 * q, 0, 0, 0] = ![1, -1 / 2, -1 / 2, 0, 0, 0] := by
    have hN : norm6 ![2 / 3 * q, -1 / 3 * q, -1 / 3 * q, 0, 0, 0] > suSmall := by
      have := mul_le_mul_of_nonneg_right sqrt32_lt.le
        (norm6_nonneg ![2 / 3 * q, -1 / 3 * q, -1 / 3 * q, 0, 0, 0])
      rw [hqn] at this
      unfold suSmall
      norm_num at this ⊢
      linarith
    have hN0 : 0 < norm6 ![2 / 3 * q, -1 / 3 * q, -1 / 3 * q, 0, 0, 0] :=
      lt_trans (by unfold suSmall; norm_num) hN
    have hc : √(3 / 2) * (1 / norm6 ![2 / 3 * q, -1 / 3 * q, -1 / 3 * q, 0, 0, 0]) = 3 / 2 / q := by
      rw [mul_one_div, div_eq_div_iff hN0.ne' (by linarith), ← hqn]
      rw [hqn]
      conv_lhs => rw [← hqn]
      linear_combination norm6 ![2 / 3 * q, -1 / 3 * q, -1 / 3 * q, 0, 0, 0] * sqrt32_mul
    funext k
    simp only [mixFlow, if_pos hN]
    rw [hc]
    have hq0 : q ≠ 0 := by linarith
    fin_cases k <;> simp <;> field_simp
  have hn : newtonLoop (mixEval (shear 1 0) q old.acc (linearHardening 1 0) (linearHardening 0 1))
      suTol suMaxIter 0 0 = some (2 / 5 * (q - 1)) := by
    have h0 : relu old.acc = old.acc := max_eq_left hacc
    have h1 : relu (old.acc + 2 / 5 * (q - 1)) = old.acc + 2 / 5 * (q - 1) :=
      max_eq_left (by linarith)
    refine newton_affine (by decide) suTol_pos ?_ ?_ ?_ ?_
    · norm_num [mixEval, linearHardening, hG]
    · simp only [mixEval, linearHardening, hG, add_zero, h0]
      norm_num
      ring
    · simp only [mixEval, linearHardening, hG, h0, h1]
      ring
    · norm_num [mixEval, linearHardening]
  cases hu : mixUpdate .solid 1 0 (linearHardening 1 0) (linearHardening 0 1) (uniInc d) old with
  | mk st T =>
    cases st with
    | nan sn =>
      exfalso
      have := (mixReturn_none.mp (mixUpdate_nan.mp ⟨sn, T, hu⟩)).2
      rw [hrel, hqn, hn] at this
      cases this
    | good new =>
      refine ⟨new, T, rfl, ?_⟩
      obtain ⟨r, hr, h1, -, h2, h3, -⟩ := mixUpdate_good hu
      have hc := (mixReturn_cases hr).2
      simp only [hrel, hqn] at hc
      rcases hc with ⟨-, -, -, -, h4, h5⟩ | ⟨-, -, x, hx, h6, h7, h8⟩
      · exfalso
        norm_num [linearHardening, suTol] at h5
        linarith
      · rw [hn] at hx
        obtain rfl := Option.some.inj hx
        have hk : (linearHardening 0 1 (old.acc + 2 / 5 * (q - 1))).1 - (linearHardening 0 1 old.acc).1 =
            2 / 5 * (q - 1) := by
          simp only [linearHardening, relu]
          rw [max_eq_left hacc, max_eq_left (by linarith)]
          ring
        refine ⟨h3.trans h6, ?_, ?_⟩
        · rw [h1, h7, htr, hflow]
          funext k
          fin_cases k <;> simp <;> ring
        · rw [h2, h8, hb, hk, hflow]
          funext k
          fin_cases k <;> simp <;> ring

/-- **C141 is violated for mixed hardening.** The accumulated plastic strain depends on the number of steps:
with `E = 1`, `ν = 0`, yield stress 1 and kinematic hardening stress equal to the accumulated plastic strain,
the uniaxial strain 3 gives 0.8 in one step and 0.72 in two. -/
theorem C141_mixed_violated : ∃ s s',
    mixRun .solid 1 0 (linearHardening 1 0) (linearHardening 0 1) [uniInc 3] = .good s ∧
    mixRun .solid 1 0 (linearHardening 1 0) (linearHardening 0 1) [uniInc 2, uniInc 1] = .good s' ∧
    s.acc = 0.8 ∧ s'.acc = 0.72 := by
  have he : elastic3D (mixInit .solid).toVMState = ![0, 0, 0, 0, 0, 0] := by
    funext k; fin_cases k <;> rfl
  have hb : back3D (mixInit .solid) = ![0, -0 / 2, -0 / 2, 0, 0, 0] := by
    have h0 : (0 : ℝ) = -0 / 2 := by norm_num
    rw [← h0]
    funext k; fin_cases k <;> rfl
  obtain ⟨s, T, h, ha, -⟩ := mix_uni_step (d := 3) le_rfl he hb (by norm_num)
  obtain ⟨s1, T1, h1, ha1, he1, hb1⟩ := mix_uni_step (d := 2) le_rfl he hb (by norm_num)
  have hi : (mixInit .solid).acc = 0 := rfl
  obtain ⟨s2, T2', h2, ha2, -⟩ := mix_uni_step (d := 1) (by rw [ha1, hi]; norm_num) he1 hb1 (by norm_num)
  refine ⟨s, s2, ?_, ?_, ?_, ?_⟩
  · simp only [mixRun, List.foldl_cons, List.foldl_nil, mixStep, h]
  · simp only [mixRun, List.foldl_cons, List.foldl_nil, mixStep, h1, h2]
  · rw [ha, hi]; norm_num
  · rw [ha2, ha1, hi]; norm_num

end Hooke
