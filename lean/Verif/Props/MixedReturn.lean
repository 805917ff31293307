import Verif.Props.ReturnMappingCases
import Verif.Props.VonMisesMixedVMAP

/-!
# C137: convergence of the return mapping with mixed hardening
-/

noncomputable section

namespace Hooke

open Spec

/-- Newton's method from zero for a residual `q - 3 G x - L x` with a concave `L` whose reported slope `S` may
be too small at zero. -/
theorem newton_concave {f : ℝ → NewtonEval} {L S : ℝ → ℝ} {G H q s : ℝ}
    (hr : ∀ x, 0 ≤ x → (f x).residual = q - 3 * G * x - L x)
    (hj : ∀ x, 0 ≤ x → (f x).jacobian = -3 * G - S x) (hsc : ∀ x, 0 ≤ x → s ≤ (f x).scale) (hs : 0 < s)
    (hG : 0 < G) (hH : H < 3 * G) (hS : ∀ x, 0 ≤ x → 0 ≤ S x ∧ S x ≤ H)
    (ht : ∀ x y, 0 < x → 0 ≤ y → L y ≤ L x + S x * (y - x)) (hg : ∀ y, 0 ≤ y → L y ≤ L 0 + H * y)
    (hm : ∀ y, 0 ≤ y → L 0 ≤ L y) (hq : L 0 ≤ q) (hb : q - L 0 ≤ 10000 * s) :
    ∃ y, newtonLoop f suTol suMaxIter 0 0 = some y ∧ 0 ≤ y := by
  rw [show suMaxIter = 18 + 1 + 1 from rfl, newtonLoop_succ, if_neg (by simp)]
  obtain ⟨h00, h0H⟩ := hS 0 le_rfl
  have hD0 : 0 < 3 * G + S 0 := by linarith
  rw [if_neg (by rw [hj 0 le_rfl]; linarith), hj 0 le_rfl, hr 0 le_rfl, mul_zero, sub_zero]
  set x1 : ℝ := 0 + -(q - L 0) / (-3 * G - S 0) with hx1
  have hx1' : (3 * G + S 0) * x1 = q - L 0 := by
    rw [hx1, zero_add, show -3 * G - S 0 = -(3 * G + S 0) by ring, neg_div_neg_eq]
    field_simp
  have hx1n : 0 ≤ x1 := by
    by_contra hcon
    push Not at hcon
    have := mul_neg_of_pos_of_neg hD0 hcon
    linarith
  rw [newtonLoop_succ]
  by_cases hsm : (f x1).small suTol ∧ 0 + 1 > 0
  · exact ⟨x1, by rw [if_pos hsm], hx1n⟩
  rw [if_neg hsm]
  have hr1 : (f x1).residual = L 0 + S 0 * x1 - L x1 := by
    rw [hr x1 hx1n]
    linarith
  have hx1p : 0 < x1 := by
    rcases hx1n.lt_or_eq with h | h
    · exact h
    · exfalso
      refine hsm ⟨?_, by norm_num⟩
      rw [small_iff]
      have h2 := hsc x1 hx1n
      refine ⟨by linarith, ?_⟩
      rw [hr1, ← h, mul_zero, add_zero, sub_self, abs_zero]
      rw [← h] at h2
      exact mul_pos suTol_pos (abs_pos.mpr (by linarith))
  obtain ⟨hn, hle⟩ := hS x1 hx1n
  have hD : 0 < 3 * G + S x1 := by linarith
  rw [if_neg (by rw [hj x1 hx1n]; linarith), hj x1 hx1n, hr1]
  set x2 : ℝ := x1 + -(L 0 + S 0 * x1 - L x1) / (-3 * G - S x1) with hx2
  have hx2' : (3 * G + S x1) * (x2 - x1) = L 0 + S 0 * x1 - L x1 := by
    rw [hx2, show -3 * G - S x1 = -(3 * G + S x1) by ring, neg_div_neg_eq]
    field_simp
    ring
  have hx2p : 0 < x2 := by
    have h1 := hg x1 hx1n
    have h3 : H * x1 < 3 * G * x1 := mul_lt_mul_of_pos_right hH hx1p
    have h4 : 0 ≤ S x1 * x1 := mul_nonneg hn hx1n
    have h5 : 0 ≤ S 0 * x1 := mul_nonneg h00 hx1n
    have h2 : 0 < (3 * G + S x1) * x2 := by
      have e : (3 * G + S x1) * x2 = (3 * G + S x1) * x1 + (L 0 + S 0 * x1 - L x1) := by
        rw [← hx2']; ring
      rw [e]
      nlinarith
    exact (pos_iff_pos_of_mul_pos h2).mp hD
  have hr2 : 0 ≤ (f x2).residual := by
    have h1 := ht x1 x2 hx1p hx2p.le
    rw [hr x2 hx2p.le]
    nlinarith
  obtain ⟨y, hy, hxy, -⟩ := newton_convex (f := f) (tol := suTol) (s := s) (m := 3 * G) (lo := x2)
    (by linarith) hs suTol_pos (fun x hx => hsc x (hx2p.le.trans hx))
    (fun x hx => by
      have := (hS x (hx2p.le.trans hx)).1
      rw [hj x (hx2p.le.trans hx)]
      linarith)
    (fun x y hx hy => by
      have := ht x y (hx2p.trans_le hx) (hx2p.le.trans hy)
      rw [hr x (hx2p.le.trans hx), hj x (hx2p.le.trans hx), hr y (hx2p.le.trans hy)]
      linarith)
    18 (0 + 1 + 1) x2 le_rfl hr2 (Or.inr (by norm_num)) (by
      obtain ⟨hn2, hle2⟩ := hS x2 hx2p.le
      rw [hr x2 hx2p.le] at hr2 ⊢
      rw [hj x2 hx2p.le]
      have h6 : q - 3 * G * x2 - L x2 ≤ 10000 * s := by
        have h1 := hm x2 hx2p.le
        have h2 : 0 ≤ 3 * G * x2 := by positivity
        linarith
      have h7 : (q - 3 * G * x2 - L x2) * -(-3 * G - S x2) ≤ 10000 * s * (6 * G) :=
        mul_le_mul h6 (by linarith) (by linarith) (by positivity)
      have h8 : 10000 * s * (6 * G) < 4 ^ 18 * (suTol * s * (3 * G)) := by
        have : 0 < s * G := mul_pos hs hG
        unfold suTol
        nlinarith
      linarith)
  exact ⟨y, hy, hx2p.le.trans hxy⟩

/-- The return mapping with an isotropic and a kinematic law. -/
theorem newton_mixed {law kin : HardLaw} {H K G q acc : ℝ} (hl : Saturating law H) (hk : Saturating kin K)
    (hG : 0 < G) (hH : H + K < 3 * G) (hs : 0 < (law 0).1) (hacc : 0 ≤ acc) (hq : (law acc).1 ≤ q)
    (hb : q ≤ 10000 * (law acc).1) :
    ∃ y, newtonLoop (mixEval G q acc law kin) suTol suMaxIter 0 0 = some y ∧ 0 ≤ y := by
  have hsa : 0 < (law acc).1 := hs.trans_le (hl.mono 0 acc hacc)
  refine newton_concave (f := mixEval G q acc law kin)
    (L := fun x => (law (acc + x)).1 + ((kin (acc + x)).1 - (kin acc).1))
    (S := fun x => (law (acc + x)).2 + (kin (acc + x)).2) (G := G) (H := H + K) (q := q)
    (s := (law acc).1) (fun x _ => by simp only [mixEval]; ring) (fun x _ => by simp only [mixEval]; ring)
    (fun x hx => hl.mono _ _ (by linarith)) hsa hG hH ?_ ?_ ?_ ?_ ?_ ?_
  · intro x hx
    obtain ⟨h1, h2⟩ := hl.slope_bounds (show 0 ≤ acc + x by linarith)
    obtain ⟨h3, h4⟩ := hk.slope_bounds (show 0 ≤ acc + x by linarith)
    exact ⟨by linarith, by linarith⟩
  · intro x y hx hy
    have h1 := hl.tangent (acc + x) (acc + y) (by linarith) (by linarith)
    have h2 := hk.tangent (acc + x) (acc + y) (by linarith) (by linarith)
    linarith
  · intro y hy
    have h1 := hl.lipschitz hacc (show acc ≤ acc + y by linarith)
    have h2 := hk.lipschitz hacc (show acc ≤ acc + y by linarith)
    simp only [add_zero]
    linarith
  · intro y hy
    have h1 := hl.mono acc (acc + y) (by linarith)
    have h2 := hk.mono acc (acc + y) (by linarith)
    simp only [add_zero]
    linarith
  · simp only [add_zero, sub_self]
    linarith
  · simp only [add_zero, sub_self]
    linarith

/-! ### Steps -/

/-- C137a: with saturating isotropic and kinematic laws whose slopes add up to less than three times the shear
modulus, a step of any size up to a relative trial stress of ten thousand yield stresses succeeds, from every
state with a deviatoric back stress. -/
theorem C137_step {p : PType} {E v H K : ℝ} {law kin : HardLaw} (hA : Admissible E v)
    (hl : Saturating law H) (hk : Saturating kin K) (hH : H + K < 3 * shear E v) (hs : 0 < (law 0).1)
    {inc : T2 p.dim} {old : MixState p} (hacc : 0 ≤ old.acc) (hback : tr6 (back3D old) = 0)
    (hb : relativeTrial E v old inc ≤ 10000 * (law old.acc).1) :
    ∃ new T, mixUpdate p E v law kin inc old = (.good new, T) := by
  cases hu : mixUpdate p E v law kin inc old with
  | mk st T =>
    cases st with
    | good new => exact ⟨new, T, rfl⟩
    | nan sn =>
      exfalso
      obtain ⟨h1, h2⟩ := mixReturn_none.mp (mixUpdate_nan.mp ⟨sn, T, hu⟩)
      have hq : relativeTrial E v old inc = √(3 / 2) * norm6 (fun k => dev6 (hooke6 (lame E v)
          (shear E v) (trial3D old.toVMState inc)) k - back3D old k) := by
        unfold relativeTrial
        rw [vm6_eq, dev6_sub_traceless hback]
      rw [← hq] at h1 h2
      have hsa : 0 < (law old.acc).1 := hs.trans_le (hl.mono 0 old.acc hacc)
      have hle : (law old.acc).1 ≤ relativeTrial E v old inc := by
        by_contra hcon
        push Not at hcon
        refine h1 ⟨hsa.ne', ?_⟩
        have : (relativeTrial E v old inc - (law old.acc).1) / (law old.acc).1 ≤ 0 :=
          div_nonpos_of_nonpos_of_nonneg (by linarith) hsa.le
        exact this.trans suTol_pos.le
      obtain ⟨y, hy, -⟩ := newton_mixed hl hk hA.shear_pos hH hs hacc hle hb
      rw [hy] at h2
      cases h2

/-- C137b: the same for the batched model. -/
theorem C137_step_batched {p : PType} {E v H K : ℝ} {law kin : HardLaw} (hA : Admissible E v)
    (hl : Saturating law H) (hk : Saturating kin K) (hH : H + K < 3 * shear E v) (hs : 0 < (law 0).1)
    {inc : T2 p.dim} {old : MixState p} (hacc : 0 ≤ old.acc) (hback : tr6 (back3D old) = 0)
    (hb : relativeTrial E v old inc ≤ 10000 * (law old.acc).1) :
    ∃ new T, mixVmapUpdate p E v law kin inc old = (.good new, T) := by
  obtain ⟨new, T, hu⟩ := C137_step hA hl hk hH hs hacc hback hb
  cases hv : mixVmapUpdate p E v law kin inc old with
  | mk st T' =>
    cases st with
    | good new' => exact ⟨new', T', rfl⟩
    | nan sn =>
      exfalso
      have := C86_failure_iff.mp ⟨sn, T', hv⟩
      obtain ⟨sn', T'', h⟩ := this
      rw [hu] at h
      cases h

/-! ### The stress after a plastic step -/

/-- What a plastic step has solved. -/
theorem mix_plastic {p : PType} {E v H K : ℝ} {law kin : HardLaw} (hA : Admissible E v)
    (hl : Saturating law H) (hk : Saturating kin K) (hs : 2e-8 ≤ (law 0).1) {inc : T2 p.dim}
    {old new : MixState p} {T : Option (Fin p.len → Fin p.len → ℝ)} (hacc : 0 ≤ old.acc)
    (hback : tr6 (back3D old) = 0) (h : mixUpdate p E v law kin inc old = (.good new, T))
    (hp : new.isPlast = true) :
    (law old.acc).1 < relativeTrial E v old inc ∧
      |relativeTrial E v old inc - 3 * shear E v * (new.acc - old.acc) -
        ((kin new.acc).1 - (kin old.acc).1) - (law new.acc).1| < 1e-6 * (law new.acc).1 := by
  have hpos : ∀ x, 2e-8 ≤ (law x).1 := by
    intro x
    rcases le_total x 0 with hx | hx
    · rw [hl.below x hx]; exact hs
    · exact hs.trans (hl.mono 0 x hx)
  have hpo : 0 < (law old.acc).1 := lt_of_lt_of_le (by norm_num) (hpos old.acc)
  have hpn : 0 < (law new.acc).1 := lt_of_lt_of_le (by norm_num) (hpos new.acc)
  obtain ⟨r, hr, -, -, -, h3, h4, -⟩ := mixUpdate_good h
  obtain ⟨-, hc⟩ := mixReturn_cases hr
  rw [← h4, hp] at hc
  rcases hc with ⟨hf, -⟩ | ⟨-, hne, x, hx, hx', -⟩
  · cases hf
  have hq : relativeTrial E v old inc = √(3 / 2) * norm6 (fun k => dev6 (hooke6 (lame E v)
      (shear E v) (trial3D old.toVMState inc)) k - back3D old k) := by
    unfold relativeTrial
    rw [vm6_eq, dev6_sub_traceless hback]
  rw [← hq] at hne hx
  refine ⟨?_, ?_⟩
  · by_contra hcon
    push Not at hcon
    exact hne ⟨hpo.ne', (div_nonpos_of_nonpos_of_nonneg (by linarith) hpo.le).trans suTol_pos.le⟩
  · obtain ⟨k, -, -, -, ⟨-, hcv⟩, -⟩ := newton_iff.mp hx
    simp only [mixEval] at hcv
    rw [← hx', ← h3, abs_of_pos hpn, show suTol = 1e-6 from rfl] at hcv
    rw [h3, hx', add_sub_cancel_left, ← hx', ← h3]
    refine lt_of_eq_of_lt ?_ hcv
    congr 1
    ring

/-- C137c: after a plastic step the accumulated plastic strain has not decreased, and the relative stress
differs from the yield stress by at most the tolerance and half the increase of the kinematic hardening
stress. -/
theorem C137_yield {p : PType} {E v H K : ℝ} {law kin : HardLaw} (hA : Admissible E v)
    (hl : Saturating law H) (hk : Saturating kin K) (hH : H + K < 3 * shear E v) (hs : 2e-8 ≤ (law 0).1)
    {inc : T2 p.dim} {old new : MixState p} {T : Option (Fin p.len → Fin p.len → ℝ)} (hacc : 0 ≤ old.acc)
    (hback : tr6 (back3D old) = 0) (hb : relativeTrial E v old inc ≤ 10000 * (law old.acc).1)
    (h : mixUpdate p E v law kin inc old = (.good new, T)) (hp : new.isPlast = true) :
    old.acc ≤ new.acc ∧
      |relativeStress new - (law new.acc).1| ≤
        1e-6 * (law new.acc).1 + ((kin new.acc).1 - (kin old.acc).1) / 2 ∧
      relativeStress new ≤ max ((1 + 1e-6) * (law new.acc).1) (relativeTrial E v old inc / 2) := by
  have hpos : ∀ x, 2e-8 ≤ (law x).1 := by
    intro x
    rcases le_total x 0 with hx | hx
    · rw [hl.below x hx]; exact hs
    · exact hs.trans (hl.mono 0 x hx)
  have hs0 : 0 < (law 0).1 := lt_of_lt_of_le (by norm_num) hs
  have hpn : 0 < (law new.acc).1 := lt_of_lt_of_le (by norm_num) (hpos new.acc)
  obtain ⟨hq, hcv⟩ := mix_plastic hA hl hk hs hacc hback h hp
  have hrs := C35_relative_stress h hp hback (hpos old.acc)
  have hle : old.acc ≤ new.acc := by
    obtain ⟨r, hr, -, -, -, h3, h4, -⟩ := mixUpdate_good h
    obtain ⟨-, hc⟩ := mixReturn_cases hr
    rw [← h4, hp] at hc
    rcases hc with ⟨hf, -⟩ | ⟨-, -, x, hx, hx', -⟩
    · cases hf
    have hq' : relativeTrial E v old inc = √(3 / 2) * norm6 (fun k => dev6 (hooke6 (lame E v)
        (shear E v) (trial3D old.toVMState inc)) k - back3D old k) := by
      unfold relativeTrial
      rw [vm6_eq, dev6_sub_traceless hback]
    rw [← hq'] at hx
    obtain ⟨y, hy, hy0⟩ := newton_mixed hl hk hA.shear_pos hH hs0 hacc hq.le hb
    rw [hx] at hy
    cases hy
    rw [h3, hx']
    linarith
  have hkin := hk.mono old.acc new.acc hle
  have hG := hA.shear_pos
  have hx3 : 0 ≤ 3 * shear E v * (new.acc - old.acc) :=
    mul_nonneg (by linarith) (by linarith)
  obtain ⟨hc1, hc2⟩ := abs_lt.mp hcv
  refine ⟨hle, ?_, ?_⟩
  · rw [hrs]
    have := abs_abs_sub_abs_le (relativeTrial E v old inc - 3 * shear E v * (new.acc - old.acc) -
      3 / 2 * ((kin new.acc).1 - (kin old.acc).1)) (law new.acc).1
    rw [abs_of_pos hpn] at this
    refine this.trans ?_
    rw [abs_le]
    constructor <;> linarith
  · rw [hrs]
    refine abs_le.mpr ⟨?_, ?_⟩
    · have h1 : relativeTrial E v old inc / 2 ≤
          max ((1 + 1e-6) * (law new.acc).1) (relativeTrial E v old inc / 2) := le_max_right _ _
      have h2 : (1e-6 : ℝ) * (law new.acc).1 ≤ (law new.acc).1 := by
        have : (1e-6 : ℝ) ≤ 1 := by norm_num
        nlinarith
      linarith
    · have h1 : (1 + 1e-6) * (law new.acc).1 ≤
          max ((1 + 1e-6) * (law new.acc).1) (relativeTrial E v old inc / 2) := le_max_left _ _
      linarith

/-! ### Histories -/

theorem vm6_add_le' (a b : V6) : vm6 (fun k => a k + b k) ≤ vm6 a + vm6 b := by
  have e : dev6 (fun k => a k + b k) = fun k => dev6 a k + dev6 b k := by
    funext k
    simp only [dev6, tr6]
    ring
  rw [vm6_eq, vm6_eq, vm6_eq, e, ← mul_add]
  exact mul_le_mul_of_nonneg_left (norm6_add_le _ _) (Real.sqrt_nonneg _)

theorem relativeTrial_le {p : PType} {E v : ℝ} {s : MixState p} (inc : T2 p.dim)
    (hst : stress3D s.toVMState = hooke6 (lame E v) (shear E v) (elastic3D s.toVMState)) :
    relativeTrial E v s inc ≤ relativeStress s + elasticStep p E v inc := by
  unfold relativeTrial relativeStress elasticStep
  refine le_of_eq_of_le ?_ (vm6_add_le' _ _)
  congr 1
  funext k
  rw [hst]
  simp only [trial3D, hooke6, tr6]
  ring

/-- What the histories keep. -/
structure MixBounded {p : PType} (E v B : ℝ) (law : HardLaw) (s : MixState p) : Prop where
  acc : 0 ≤ s.acc
  back : tr6 (back3D s) = 0
  stress : stress3D s.toVMState = hooke6 (lame E v) (shear E v) (elastic3D s.toVMState)
  rel : relativeStress s ≤ max ((1 + 1e-6) * (law s.acc).1) B

/-- C137d: no history fails whose strain increments would each cause, elastically, at most five thousand
times the initial yield stress.  Afterwards the relative stress exceeds neither the yield stress, within the
tolerance, nor the largest of these increments. -/
theorem C137_never_fails {p : PType} {E v H K B : ℝ} {law kin : HardLaw} (hA : Admissible E v)
    (hl : Saturating law H) (hk : Saturating kin K) (hH : H + K < 3 * shear E v) (hs : 2e-8 ≤ (law 0).1)
    (hB : B ≤ 5000 * (law 0).1) (incs : List (T2 p.dim)) (hi : ∀ inc ∈ incs, elasticStep p E v inc ≤ B) :
    ∃ s, mixRun p E v law kin incs = .good s ∧
      relativeStress s ≤ max ((1 + 1e-6) * (law s.acc).1) B := by
  have hs0 : 0 < (law 0).1 := lt_of_lt_of_le (by norm_num) hs
  suffices Q : ∀ (incs : List (T2 p.dim)) (st : MixState p),
      (∀ inc ∈ incs, elasticStep p E v inc ≤ B) → MixBounded E v B law st →
      ∃ s, incs.foldl (mixStep p E v law kin) (.good st) = .good s ∧ MixBounded E v B law s by
    have h0 : ∀ p : PType, to3D p (0 : Vmf p) 0 = 0 := by
      intro p; cases p
      · funext k; fin_cases k <;> simp [to3D]
      · rfl
    have hst : stress3D (mixInit p).toVMState = 0 := h0 p
    have he : elastic3D (mixInit p).toVMState = 0 := h0 p
    have hb : back3D (mixInit p) = 0 := h0 p
    have hinit : MixBounded E v B law (mixInit p) := by
      refine ⟨le_rfl, by rw [hb]; simp [tr6], ?_, ?_⟩
      · rw [hst, he]; funext k; simp [hooke6, tr6]
      · have hz : relativeStress (mixInit p) = 0 := by
          unfold relativeStress
          rw [hst, hb, vm6_eq]
          simp [norm6, dev6, tr6]
        rw [hz]
        refine le_max_of_le_left ?_
        have : (mixInit p).acc = 0 := rfl
        rw [this]
        positivity
    obtain ⟨s, h1, h2⟩ := Q incs (mixInit p) hi hinit
    exact ⟨s, h1, h2.rel⟩
  intro incs
  induction incs with
  | nil => intro st _ hst; exact ⟨st, rfl, hst⟩
  | cons inc incs ih =>
    intro st hi hst
    have hla : (law 0).1 ≤ (law st.acc).1 := hl.mono 0 st.acc hst.acc
    have hstep := hi inc (List.mem_cons_self ..)
    have htr := relativeTrial_le (E := E) (v := v) inc hst.stress
    have hq : relativeTrial E v st inc ≤ 10000 * (law st.acc).1 := by
      have h1 : max ((1 + 1e-6) * (law st.acc).1) B ≤ 5000 * (law st.acc).1 := by
        refine max_le ?_ ?_
        · exact mul_le_mul_of_nonneg_right (by norm_num) (by linarith)
        · linarith
      have := hst.rel
      linarith
    obtain ⟨new, T, hu⟩ := C137_step hA hl hk hH hs0 hst.acc hst.back hq
    simp only [List.foldl_cons, mixStep, hu]
    refine ih new (fun i h => hi i (List.mem_cons_of_mem _ h)) ?_
    obtain ⟨r, hr, h1, h2, hb, h3, h4, -⟩ := mixUpdate_good hu
    obtain ⟨hss, hc⟩ := mixReturn_cases hr
    have hrel : tr6 (fun k => dev6 (hooke6 (lame E v) (shear E v)
        (trial3D st.toVMState inc)) k - back3D st k) = 0 := by
      have := tr6_sub_smul (dev6 (hooke6 (lame E v) (shear E v)
        (trial3D st.toVMState inc))) (back3D st) 1
      simp only [one_mul] at this
      rw [this, tr6_dev6, hst.back]; simp
    have hstr : stress3D new.toVMState = hooke6 (lame E v) (shear E v) (elastic3D new.toVMState) := by
      rw [h2, h1, hss]
    rcases hc with ⟨hpl, he, hac, hbk, hne, hle⟩ | ⟨hpl, -, x, -, -, -, hbk⟩
    · rw [← h3] at hac
      refine ⟨by rw [hac]; exact hst.acc, by rw [hb, hbk]; exact hst.back, hstr, ?_⟩
      have hqe : relativeTrial E v st inc = √(3 / 2) * norm6 (fun k => dev6 (hooke6 (lame E v)
          (shear E v) (trial3D st.toVMState inc)) k - back3D st k) := by
        unfold relativeTrial
        rw [vm6_eq, dev6_sub_traceless hst.back]
      rw [← hqe, div_le_iff₀ (by linarith)] at hle
      have hnew : relativeStress new = relativeTrial E v st inc := by
        unfold relativeStress relativeTrial
        rw [h2, hss, he, hb, hbk]
      rw [hnew, hac]
      refine le_max_of_le_left ?_
      rw [show suTol = 1e-6 from rfl] at hle
      linarith
    · rw [← h4] at hpl
      obtain ⟨ha, -, hy⟩ := C137_yield hA hl hk hH hs hst.acc hst.back hq hu hpl
      refine ⟨hst.acc.trans ha, ?_, hstr, hy.trans ?_⟩
      · rw [hb, hbk]
        have hf := tr6_mixFlow hrel
        have hbk := hst.back
        simp only [tr6] at hf hbk ⊢
        linear_combination hbk + ((kin (st.acc + x)).1 - (kin st.acc).1) * hf
      · refine max_le (le_max_left _ _) ?_
        have hmono : (law st.acc).1 ≤ (law new.acc).1 := hl.mono _ _ ha
        have h6 : max ((1 + 1e-6) * (law st.acc).1) B ≤ max ((1 + 1e-6) * (law new.acc).1) B :=
          max_le_max (mul_le_mul_of_nonneg_left hmono (by norm_num)) le_rfl
        have h7 : B ≤ max ((1 + 1e-6) * (law new.acc).1) B := le_max_right _ _
        have := hst.rel
        linarith

/-! ### Accuracy -/

/-- C137e: the return mapping has exactly one exact solution, and the accumulated plastic strain found by a
plastic step differs from it by less than a millionth of the yield stress over three times the shear
modulus. -/
theorem C137_accuracy {p : PType} {E v H K : ℝ} {law kin : HardLaw} (hA : Admissible E v)
    (hl : Saturating law H) (hk : Saturating kin K) (hH : H + K < 3 * shear E v) (hs : 2e-8 ≤ (law 0).1)
    {inc : T2 p.dim} {old new : MixState p} {T : Option (Fin p.len → Fin p.len → ℝ)} (hacc : 0 ≤ old.acc)
    (hback : tr6 (back3D old) = 0) (hb : relativeTrial E v old inc ≤ 10000 * (law old.acc).1)
    (h : mixUpdate p E v law kin inc old = (.good new, T)) (hp : new.isPlast = true) :
    ∃ x : ℝ, 0 < x ∧
      (∀ y, 0 ≤ y → (relativeTrial E v old inc - 3 * shear E v * y -
        ((kin (old.acc + y)).1 - (kin old.acc).1) = (law (old.acc + y)).1 ↔ y = x)) ∧
      |new.acc - (old.acc + x)| < 1e-6 * (law new.acc).1 / (3 * shear E v) := by
  have hG := hA.shear_pos
  have hpos : ∀ x, 2e-8 ≤ (law x).1 := by
    intro x
    rcases le_total x 0 with hx | hx
    · rw [hl.below x hx]; exact hs
    · exact hs.trans (hl.mono 0 x hx)
  obtain ⟨hq', hcv⟩ := mix_plastic hA hl hk hs hacc hback h hp
  have hle := (C137_yield hA hl hk hH hs hacc hback hb h hp).1
  set q := relativeTrial E v old inc with hqd
  have hcont : ContinuousOn (fun y => 3 * shear E v * y + ((kin (old.acc + y)).1 - (kin old.acc).1) +
      (law (old.acc + y)).1) (Set.Icc 0 (q / (3 * shear E v))) := by
    have hmaps : Set.MapsTo (fun y => old.acc + y) (Set.Icc 0 (q / (3 * shear E v))) (Set.Ici 0) := by
      intro y hy
      have := hy.1
      exact Set.mem_Ici.mpr (by linarith)
    refine ContinuousOn.add (ContinuousOn.add (by fun_prop) (ContinuousOn.sub ?_ continuousOn_const)) ?_
    · exact ContinuousOn.comp (g := fun x => (kin x).1) (f := fun y => old.acc + y) hk.continuousOn
        (by fun_prop) hmaps
    · exact ContinuousOn.comp (g := fun x => (law x).1) (f := fun y => old.acc + y) hl.continuousOn
        (by fun_prop) hmaps
  have hp0 := hpos old.acc
  have hq0 : 0 ≤ q / (3 * shear E v) := div_nonneg (by linarith) (by linarith)
  have hend : 3 * shear E v * (q / (3 * shear E v)) = q := by field_simp
  obtain ⟨x, hx, hxe⟩ := intermediate_value_Icc hq0 hcont
    (show q ∈ _ from ⟨by simp only [mul_zero, add_zero, zero_add, sub_self]; exact hq'.le, by
      have h1 := hk.mono old.acc (old.acc + q / (3 * shear E v)) (by linarith)
      simp only [hend]
      linarith [hpos (old.acc + q / (3 * shear E v))]⟩)
  simp only at hxe
  have hx0 : 0 < x := by
    rcases hx.1.lt_or_eq with h0 | h0
    · exact h0
    · rw [← h0, mul_zero, add_zero, sub_self, add_zero, zero_add] at hxe
      linarith
  refine ⟨x, hx0, fun y hy => ⟨fun he => ?_, fun he => ?_⟩, ?_⟩
  · rcases lt_trichotomy y x with hlt | heq | hgt
    · have h1 := hl.mono (old.acc + y) (old.acc + x) (by linarith)
      have h2 := hk.mono (old.acc + y) (old.acc + x) (by linarith)
      nlinarith
    · exact heq
    · have h1 := hl.mono (old.acc + x) (old.acc + y) (by linarith)
      have h2 := hk.mono (old.acc + x) (old.acc + y) (by linarith)
      nlinarith
  · subst he; linarith
  · rw [lt_div_iff₀ (by linarith)]
    refine lt_of_le_of_lt ?_ hcv
    rcases le_total (old.acc + x) new.acc with hle' | hle'
    · have h1 := hl.mono (old.acc + x) new.acc hle'
      have h2 := hk.mono (old.acc + x) new.acc hle'
      rw [abs_of_nonneg (by linarith), abs_of_nonpos (by nlinarith)]
      nlinarith
    · have h1 := hl.mono new.acc (old.acc + x) hle'
      have h2 := hk.mono new.acc (old.acc + x) hle'
      rw [abs_of_nonpos (by linarith), abs_of_nonneg (by nlinarith)]
      nlinarith

/-! ### The hypotheses are met -/

theorem elasticStep_uni (d : ℝ) : elasticStep .solid 1 0 (uniInc d) = |d| := by
  rw [← vm6_uni d]
  unfold elasticStep
  congr 2
  funext k
  simp [trial3D, elastic3D, vmInit, to3D]

/-- C137: a table and a line as laws, and a history of two strain increments; the first step is plastic. -/
example : (∃ s, mixRun .solid 1 0 (piecewiseLinear softTable) (linearHardening 0 (1 / 10))
      [uniInc 3, uniInc (-7)] = .good s) ∧
    ∃ new T, mixUpdate .solid 1 0 (piecewiseLinear softTable) (linearHardening 0 (1 / 10)) (uniInc 3)
      (mixInit .solid) = (.good new, T) ∧ new.isPlast = true := by
  have h2 : (1 : ℝ) + 1 / 10 < 3 * shear 1 0 := by rw [shear_one]; norm_num
  have hl := C132_table softTable_concave
  rw [softTable_slope] at hl
  have hk := C132_linear (s0 := 0) (a := 1 / 10) (by norm_num)
  have hback : tr6 (back3D (mixInit .solid)) = 0 := by
    have : back3D (mixInit .solid) = 0 := rfl
    rw [this]
    simp [tr6]
  constructor
  · obtain ⟨s, h, -⟩ := C137_never_fails (p := .solid) (B := 5000) admissible_one hl hk h2
      (by rw [softTable_zero]; norm_num) (by rw [softTable_zero]; norm_num) [uniInc 3, uniInc (-7)]
      (by
        intro inc hinc
        simp only [List.mem_cons, List.not_mem_nil, or_false] at hinc
        rcases hinc with rfl | rfl <;> rw [elasticStep_uni] <;> norm_num [abs_of_pos])
    exact ⟨s, h⟩
  · obtain ⟨new, T, h⟩ := C137_step (p := .solid) (inc := uniInc 3) (old := mixInit .solid) admissible_one hl
      hk h2 (by rw [softTable_zero]; norm_num) le_rfl hback (by
        rw [relativeTrial_uni]
        change _ ≤ 10000 * (piecewiseLinear softTable 0).1
        rw [softTable_zero]
        norm_num [abs_of_pos])
    refine ⟨new, T, h, ?_⟩
    obtain ⟨r, hr, -, -, -, -, h4, -⟩ := mixUpdate_good h
    rcases (mixReturn_cases hr).2 with ⟨hp, -, -, -, -, hc⟩ | ⟨hp, -⟩
    · exfalso
      have hq : relativeTrial 1 0 (mixInit .solid) (uniInc 3) = √(3 / 2) * norm6 (fun k => dev6 (hooke6
          (lame 1 0) (shear 1 0) (trial3D (mixInit .solid).toVMState (uniInc 3))) k -
            back3D (mixInit .solid) k) := by
        unfold relativeTrial
        rw [vm6_eq, dev6_sub_traceless hback]
      rw [← hq, relativeTrial_uni] at hc
      change (_ - (piecewiseLinear softTable 0).1) / (piecewiseLinear softTable 0).1 ≤ _ at hc
      rw [softTable_zero] at hc
      norm_num [abs_of_pos, suTol] at hc
    · rw [h4, hp]

end Hooke
