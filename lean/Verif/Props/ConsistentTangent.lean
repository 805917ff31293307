import Verif.Lemmas.ConsistentTangent
import Verif.Props.VonMises

/-! # C83: the tangent of the von Mises state update is the derivative of the updated stress -/

noncomputable section

namespace Hooke

open Spec
open scoped Topology

theorem dot_dev_hooke (lam G : ℝ) (s d : V6) (hs : tr6 s = 0) :
    ∑ j, s j * dev6 (hooke6 lam G d) j = 2 * G * ∑ j, s j * d j := by
  rw [dev6_hooke6]
  simp only [dev6, one6, Fin.sum_univ_succ, Fin.sum_univ_zero]
  simp only [tr6] at hs ⊢
  simp
  have : s 2 = - s 0 - s 1 := by linarith
  rw [this]
  ring

theorem tangent_algebra {c N G D x P h dv s : ℝ} (hc : c * c = 3 / 2) (hN : N ≠ 0) (hD : D ≠ 0)
    (hcz : c ≠ 0) :
    h - 2 * G * c * ((1 / D * (c * (1 / N * (2 * G * P)))) / N * s + x / N * (2 * G * dv) -
      x * (2 * G * P) / N ^ 3 * s) =
    h - x * 6 * G ^ 2 / (c * N) * dv + 6 * G ^ 2 * (x / (c * N) - 1 / D) *
      ((2 / 3) * (c / N * P) * (c / N * s)) := by
  have h1 : x * 6 * G ^ 2 / (c * N) = 4 * G ^ 2 * c * x / N := by
    field_simp
    linear_combination (-4 : ℝ) * x * G ^ 2 * hc
  have h2 : 6 * G ^ 2 * (x / (c * N) - 1 / D) * ((2 / 3) * (c / N * P) * (c / N * s)) =
      4 * G ^ 2 * c * x * P * s / N ^ 3 - 4 * G ^ 2 * (c * c) * P * s / (N ^ 2 * D) := by
    field_simp
    ring
  rw [h1, h2]
  field_simp
  ring

/-- Strain increment as a continuous linear map. -/
def incrementL (p : PType) : T2 p.dim →L[ℝ] V6 := LinearMap.toContinuousLinearMap
  { toFun := increment3D p
    map_add' := fun a b => by
      funext k; cases p
      · fin_cases k <;> simp [increment3D, to3D, mf, add_mul]
      · fin_cases k <;> simp [increment3D, to3D, mf, kel6, ci, cj, kf, add_mul]
    map_smul' := fun c a => by
      funext k; cases p
      · fin_cases k <;> simp [increment3D, to3D, mf, mul_assoc]
      · fin_cases k <;> simp [increment3D, to3D, mf, kel6, ci, cj, kf, mul_assoc] }

/-- Reduction to the components of the problem type as a continuous linear map. -/
def to2DL (p : PType) : V6 →L[ℝ] Vmf p := LinearMap.toContinuousLinearMap
  { toFun := to2D p
    map_add' := fun a b => to2D_add p a b
    map_smul' := fun c a => by
      cases p
      · funext k; fin_cases k <;> simp [to2D]
      · rfl }

theorem hasFDerivAt_trial {p : PType} (old : VMState p) (inc : T2 p.dim) :
    HasFDerivAt (trial3D old) (incrementL p) inc := by
  have := (incrementL p).hasFDerivAt (x := inc)
  exact this.const_add (elastic3D old)

theorem to2D_mv6 (p : PType) (M : M6) (x : Vmf p) (i : Fin p.len) :
    to2D p (mv6 M (to3D p x 0)) i = ∑ j, to2DM p M i j * x j := by
  cases p
  · fin_cases i <;> simp [to2D, to2DM, mv6, to3D, Fin.sum_univ_succ]
  · rfl

/-- The three-dimensional derivative gives the tangent of the problem type. -/
theorem isTangent_of_3D {p : PType} {R : T2 p.dim → V6} {L : T2 p.dim →L[ℝ] V6} {M : M6}
    {inc : T2 p.dim} (hR : HasFDerivAt R L inc)
    (hL : ∀ d k, L d k = mv6 M (increment3D p d) k) :
    IsTangent p (fun i => to2D p (R i)) (to2DM p M) inc := by
  refine ⟨(to2DL p).comp L, fun d i => ?_, (to2DL p).hasFDerivAt.comp inc hR⟩
  have : L d = mv6 M (increment3D p d) := funext (hL d)
  show to2D p (L d) i = _
  rw [this]
  exact to2D_mv6 p M (mf p d) i

/-- Derivative of the exact plastic stress. -/
theorem plastic_derivative {p : PType} {E v : ℝ} (hA : Admissible E v) {law : HardLaw}
    (hlaw : NonSoftening law) {old : VMState p} {inc : T2 p.dim} {r : VMReturn}
    (hr : vmReturn E v law (trial3D old inc) old.acc = some r) (hp : r.isPlast = true)
    (hbig : norm6 (dev6 (hooke6 (lame E v) (shear E v) (trial3D old inc))) > suSmall)
    (hx : vm6 (hooke6 (lame E v) (shear E v) (trial3D old inc)) - 3 * shear E v * (r.acc - old.acc) =
      (law r.acc).1)
    (hd : HasDerivAt (fun y => (law y).1) (law r.acc).2 r.acc)
    {R : T2 p.dim → V6} (hR : ∀ᶠ i in 𝓝 inc, ExactPlasticStress E v law old i (R i)) :
    ∃ L : T2 p.dim →L[ℝ] V6, HasFDerivAt R L inc ∧
      ∀ d k, L d k = mv6 r.tangent (increment3D p d) k := by
  classical
  have hG := hA.shear_pos
  have hN : 0 < norm6 (dev6 (hooke6 (lame E v) (shear E v) (trial3D old inc))) :=
    lt_trans (by unfold suSmall; norm_num) hbig
  have hH : 0 ≤ (law r.acc).2 := by
    have hm : Monotone fun y => (law y).1 := fun a b h => hlaw a b h
    exact hd.nonneg_of_monotone hm
  have hex := hR
  -- the multiplier as a function of the increment
  set x : T2 p.dim → ℝ := fun i => if h : ExactPlasticStress E v law old i (R i) then h.choose else 0
    with hxdef
  have hx1 : ∀ᶠ i in 𝓝 inc,
      vm6 (hooke6 (lame E v) (shear E v) (trial3D old i)) - 3 * shear E v * x i =
        (law (old.acc + x i)).1 := by
    filter_upwards [hR] with i hi
    simp only [hxdef, dif_pos hi]
    exact hi.choose_spec.1
  have hx2 : ∀ᶠ i in 𝓝 inc, (fun k => hooke6 (lame E v) (shear E v) (trial3D old i) k -
      2 * shear E v * x i *
      (√(3 / 2) / norm6 (dev6 (hooke6 (lame E v) (shear E v) (trial3D old i)))) *
        dev6 (hooke6 (lame E v) (shear E v) (trial3D old i)) k) = R i := by
    filter_upwards [hR] with i hi
    simp only [hxdef, dif_pos hi]
    exact (funext hi.choose_spec.2).symm
  have hxi : x inc = r.acc - old.acc := by
    have h1 := hx1.self_of_nhds
    have h2 : old.acc + (r.acc - old.acc) = r.acc := by ring
    rcases lt_trichotomy (x inc) (r.acc - old.acc) with h | h | h
    · have := hlaw (old.acc + x inc) r.acc (by linarith)
      nlinarith
    · exact h
    · have := hlaw r.acc (old.acc + x inc) (by linarith)
      nlinarith
  have ht := hasFDerivAt_trial old inc
  have hq : HasFDerivAt (fun i => vm6 (hooke6 (lame E v) (shear E v) (trial3D old i)))
      (√(3 / 2) • _) inc :=
    (((hasFDerivAt_norm6 (devHookeL (lame E v) (shear E v)) hN.ne').comp inc ht).const_mul √(3 / 2))
  have hacc : old.acc + x inc = r.acc := by rw [hxi]; ring
  have hx' := hasFDerivAt_multiplier (y := fun y => (law y).1) hG hH (fun a b h => hlaw a b h) hq hx1
    (by rw [hacc]; exact hd)
  obtain ⟨L, hL, hLd⟩ := hasFDerivAt_corrected (lame E v) (shear E v) hN.ne' ht hx'
  refine ⟨L, hLd.congr_of_eventuallyEq (hx2.mono fun i hi => hi.symm), ?_⟩
  intro d k
  rw [hL, vmReturn_tangent hr hp, hxi]
  have hD : 3 * shear E v + (law r.acc).2 ≠ 0 := by positivity
  have hdot := dot_dev_hooke (lame E v) (shear E v)
    (dev6 (hooke6 (lame E v) (shear E v) (trial3D old inc))) (increment3D p d) (tr6_dev6 _)
  have hinc : (incrementL p) d = increment3D p d := rfl
  have hflow := vmFlow_scale hbig
  have hsum : ∑ j, vmFlow (hooke6 (lame E v) (shear E v) (trial3D old inc)) j * increment3D p d j =
      √(3 / 2) / norm6 (dev6 (hooke6 (lame E v) (shear E v) (trial3D old inc))) *
        ∑ j, dev6 (hooke6 (lame E v) (shear E v) (trial3D old inc)) j * increment3D p d j := by
    rw [hflow, Finset.mul_sum]
    exact Finset.sum_congr rfl fun j _ => by ring
  have hfk : vmFlow (hooke6 (lame E v) (shear E v) (trial3D old inc)) k =
      √(3 / 2) / norm6 (dev6 (hooke6 (lame E v) (shear E v) (trial3D old inc))) *
        dev6 (hooke6 (lame E v) (shear E v) (trial3D old inc)) k := congrFun hflow k
  have hdk : dev6 (hooke6 (lame E v) (shear E v) (increment3D p d)) k =
      2 * shear E v * dev6 (increment3D p d) k := congrFun (dev6_hooke6 _ _ _) k
  rw [hinc, hdot, hsum, hfk, hdk, vm6_eq]
  rw [← tangent_algebra sqrt32_mul hN.ne' hD sqrt32_pos.ne']
  congr 5
  rw [← hdot]
  simp [hinc]

theorem continuousAt_vm {p : PType} (E v : ℝ) (old : VMState p) (inc : T2 p.dim) :
    ContinuousAt (fun i => vm6 (hooke6 (lame E v) (shear E v) (trial3D old i))) inc := by
  have h1 : ContinuousAt (trial3D old) inc := (hasFDerivAt_trial old inc).continuousAt
  have h2 : Continuous fun e : V6 => vm6 (hooke6 (lame E v) (shear E v) e) := by
    unfold vm6
    refine continuous_const.mul (Real.continuous_sqrt.comp ?_)
    refine continuous_finsetSum _ fun k _ => ?_
    exact (((pr6 k).comp (devHookeL (lame E v) (shear E v))).continuous).pow 2
  exact h2.continuousAt.comp h1

theorem corrected_stress {E v x : ℝ} {e : V6}
    (h : norm6 (dev6 (hooke6 (lame E v) (shear E v) e)) > suSmall) (k : Fin 6) :
    hooke6 (lame E v) (shear E v) (fun k => e k - x * vmFlow (hooke6 (lame E v) (shear E v) e) k) k =
      hooke6 (lame E v) (shear E v) e k - 2 * shear E v * x *
      (√(3 / 2) / norm6 (dev6 (hooke6 (lame E v) (shear E v) e))) *
        dev6 (hooke6 (lame E v) (shear E v) e) k := by
  rw [hooke6_sub_smul, hooke6_dev (tr6_vmFlow _), vmFlow_scale h]
  ring

/-! ### C83 -/

/-- C83a: for every hardening law, if the trial stress is strictly below the yield tolerance the
tangent returned by the state update is the derivative of the updated stress with respect to the
strain increment. -/
theorem C83_elastic {p : PType} {E v : ℝ} {law : HardLaw} {inc : T2 p.dim} {old : VMState p}
    (h : StrictlyElastic E v law old inc) :
    ∃ new T, vmUpdate p E v law inc old = (.good new, some T) ∧
      updatedStress p E v law old inc = new.stress ∧
      IsTangent p (updatedStress p E v law old) T inc := by
  have hel : TrialElastic E v law old inc := ⟨h.1, h.2.le⟩
  obtain ⟨new, hu, -⟩ := C29_elastic_step hel
  refine ⟨new, _, hu, by simp [updatedStress, hu], ?_⟩
  have hev : ∀ᶠ i in 𝓝 inc, TrialElastic E v law old i := by
    have hc := ((continuousAt_vm E v old inc).sub (continuousAt_const (y := (law old.acc).1))).div_const (law old.acc).1
    filter_upwards [hc.eventually_lt_const h.2] with i hi
    exact ⟨h.1, le_of_lt hi⟩
  have hR : HasFDerivAt (fun i => hooke6 (lame E v) (shear E v) (trial3D old i))
      ((hookeL (lame E v) (shear E v)).comp (incrementL p)) inc :=
    (hookeL (lame E v) (shear E v)).hasFDerivAt.comp inc (hasFDerivAt_trial old inc)
  obtain ⟨L, hL, hd⟩ := isTangent_of_3D (M := kel66 (isoTensor (lame E v) (shear E v))) hR
    (fun d k => by rw [mv6_iso]; rfl)
  refine ⟨L, hL, hd.congr_of_eventuallyEq ?_⟩
  filter_upwards [hev] with i hi
  obtain ⟨s, hs, -, -, -, he, -, -, hst, -⟩ := C29_elastic_step hi
  simp only [updatedStress, hs]
  have h1 : trial3D old i = elastic3D s := funext fun k => (he k).symm
  rw [h1, ← hst, stress3D, to2D_to3D]

/-- C83b: for every nonsoftening hardening law, if a plastic step has ended exactly on the updated
yield surface and the hardening slope the law reports there is the derivative of the yield stress,
then the tangent returned by the state update is the derivative of the exact plastic stress with
respect to the strain increment. -/
theorem C83_exact {p : PType} {E v : ℝ} (hA : Admissible E v) {law : HardLaw}
    (hlaw : NonSoftening law) {inc : T2 p.dim} {old new : VMState p}
    {T : Fin p.len → Fin p.len → ℝ} (hsy : 2e-8 ≤ (law old.acc).1)
    (h : vmUpdate p E v law inc old = (.good new, some T)) (hp : new.isPlast = true)
    (hx : vm6 (stress3D new) = (law new.acc).1)
    (hd : HasDerivAt (fun y => (law y).1) (law new.acc).2 new.acc)
    {R : T2 p.dim → Vmf p}
    (hR : ∀ᶠ i in 𝓝 inc, ∃ s, ExactPlasticStress E v law old i s ∧ R i = to2D p s) :
    R inc = new.stress ∧ IsTangent p R T inc := by
  classical
  have hG := hA.shear_pos
  obtain ⟨r, hr, h1, h2, h3, h4, -, -, hT⟩ := vmUpdate_good h
  cases hT
  obtain ⟨hst, hc⟩ := vmReturn_cases hr
  rw [← h4, hp] at hc
  rcases hc with ⟨hf, -⟩ | ⟨-, hne, x, hx1, hxa, he⟩
  · cases hf
  have hne' : ¬ TrialElastic E v law old inc := hne
  obtain ⟨hbig, -⟩ := trial_dev_large hsy hne'
  have hvm : vm6 (stress3D new) =
      |vm6 (hooke6 (lame E v) (shear E v) (trial3D old inc)) - 3 * shear E v * x| := by
    rw [h2, hst, he, vm6_corrected hbig]
  have hres : vm6 (hooke6 (lame E v) (shear E v) (trial3D old inc)) -
      3 * shear E v * (r.acc - old.acc) = (law r.acc).1 := by
    obtain ⟨k, -, -, -, ⟨-, hconv⟩, -⟩ := newton_iff.mp hx1
    have hxx : r.acc - old.acc = x := by rw [hxa]; ring
    rw [hxx]
    rw [hvm, h3] at hx
    have hconv : |vm6 (hooke6 (lame E v) (shear E v) (trial3D old inc)) - 3 * shear E v * x -
        (law (old.acc + x)).1| < suTol * |(law (old.acc + x)).1| := hconv
    rw [← hxa] at hconv
    have h0 : 0 ≤ (law r.acc).1 := hx ▸ abs_nonneg _
    rcases abs_choice (vm6 (hooke6 (lame E v) (shear E v) (trial3D old inc)) - 3 * shear E v * x)
      with hch | hch
    · rw [← hx, hch]
    · exfalso
      rw [abs_of_nonneg h0] at hconv
      have h5 : vm6 (hooke6 (lame E v) (shear E v) (trial3D old inc)) - 3 * shear E v * x =
          - (law r.acc).1 := by rw [← hx, hch]; ring
      rw [h5] at hconv
      have h6 : |-(law r.acc).1 - (law r.acc).1| = 2 * (law r.acc).1 := by
        rw [show -(law r.acc).1 - (law r.acc).1 = -(2 * (law r.acc).1) by ring, abs_neg,
          abs_of_nonneg (by linarith)]
      rw [h6] at hconv
      have := suTol_lt
      nlinarith
  set R6 : T2 p.dim → V6 := fun i =>
    if h : ∃ s, ExactPlasticStress E v law old i s ∧ R i = to2D p s then h.choose else 0 with hR6
  have hR1 : ∀ᶠ i in 𝓝 inc, ExactPlasticStress E v law old i (R6 i) := by
    filter_upwards [hR] with i hi
    simp only [hR6, dif_pos hi]
    exact hi.choose_spec.1
  have hR2 : ∀ᶠ i in 𝓝 inc, R i = to2D p (R6 i) := by
    filter_upwards [hR] with i hi
    simp only [hR6, dif_pos hi]
    exact hi.choose_spec.2
  obtain ⟨L, hL, hLd⟩ := plastic_derivative hA hlaw hr (h4 ▸ hp) hbig hres (h3 ▸ hd) hR1
  obtain ⟨L', hL', hd'⟩ := isTangent_of_3D hL hLd
  refine ⟨?_, L', hL', hd'.congr_of_eventuallyEq hR2⟩
  rw [hR2.self_of_nhds]
  have hs : stress3D new = R6 inc := by
    obtain ⟨y, hy1, hy2⟩ := hR1.self_of_nhds
    have hxy : y = x := by
      have hxx : r.acc - old.acc = x := by rw [hxa]; ring
      rw [hxx] at hres
      rcases lt_trichotomy y x with hlt | heq | hlt
      · have := hlaw (old.acc + y) r.acc (by linarith)
        nlinarith
      · exact heq
      · have := hlaw r.acc (old.acc + y) (by linarith)
        nlinarith
    funext k
    rw [hy2, hxy, h2, hst, he, corrected_stress hbig]
  rw [← hs, stress3D, to2D_to3D]

/-- C83c: with linear hardening (positive initial yield stress, nonnegative slope) the tangent
returned by a plastic step is the derivative of the updated stress with respect to the strain
increment. -/
theorem C83_linear {p : PType} {E v s0 a : ℝ} (hA : Admissible E v) (ha : 0 ≤ a)
    (hs : 2e-8 ≤ s0) {inc : T2 p.dim} {old : VMState p} (hacc : 0 ≤ old.acc)
    (hne : ¬ TrialElastic E v (linearHardening s0 a) old inc) :
    ∃ new T, vmUpdate p E v (linearHardening s0 a) inc old = (.good new, some T) ∧
      updatedStress p E v (linearHardening s0 a) old inc = new.stress ∧
      IsTangent p (updatedStress p E v (linearHardening s0 a) old) T inc := by
  have hs0 : 0 < s0 := by linarith [show (0:ℝ) < 2e-8 by norm_num]
  have hlaw : ∀ y, 0 ≤ y → (linearHardening s0 a y).1 = s0 + a * y := by
    intro y hy
    simp [linearHardening, relu, max_eq_left hy]
  have hsy : 2e-8 ≤ (linearHardening s0 a old.acc).1 := by
    rw [hlaw _ hacc]; have := mul_nonneg ha hacc; linarith
  have hmono : NonSoftening (linearHardening s0 a) := by
    intro x y hxy
    simp only [linearHardening, relu]
    have := mul_le_mul_of_nonneg_left (max_le_max_right 0 hxy) ha
    linarith
  have hstep : ∀ i, ¬ TrialElastic E v (linearHardening s0 a) old i →
      ∃ s, ExactPlasticStress E v (linearHardening s0 a) old i s ∧
        updatedStress p E v (linearHardening s0 a) old i = to2D p s := by
    intro i hi
    obtain ⟨new, T, hu, hpl, hna, hlt, hvm⟩ := C32_linear_exact hA ha hs hacc hi
    obtain ⟨hbig, -⟩ := trial_dev_large hsy hi
    obtain ⟨r, hr, -, h2, h3, h4, -, -, -⟩ := vmUpdate_good hu
    obtain ⟨hst, hc⟩ := vmReturn_cases hr
    rw [← h4, hpl] at hc
    rcases hc with ⟨hf, -⟩ | ⟨-, -, x, hx1, hxa, he⟩
    · cases hf
    have hG := hA.shear_pos
    have hxx : x = (vm6 (hooke6 (lame E v) (shear E v) (trial3D old i)) - (s0 + a * old.acc)) /
        (3 * shear E v + a) := by
      rw [h3, hxa] at hna; linarith
    refine ⟨stress3D new, ⟨x, ?_, fun k => ?_⟩, ?_⟩
    · rw [hlaw _ (by rw [← hxa, ← h3]; linarith), hxx]
      have : 3 * shear E v + a ≠ 0 := by positivity
      field_simp
      ring
    · rw [h2, hst, he, corrected_stress hbig]
    · simp only [updatedStress, hu]
      rw [stress3D, to2D_to3D]
  obtain ⟨new, T, hu, hpl, hna, hlt, hvm⟩ := C32_linear_exact hA ha hs hacc hne
  have hTs := (C28_success hu).2.1
  obtain ⟨T, rfl⟩ := Option.isSome_iff_exists.mp hTs
  refine ⟨new, T, hu, by simp only [updatedStress, hu], ?_⟩
  have hna' : 0 < new.acc := by linarith
  refine (C83_exact hA hmono hsy hu hpl (by rw [hvm, hlaw _ hna'.le]) ?_ ?_).2
  · have h1 : HasDerivAt (fun y : ℝ => s0 + a * y) a new.acc := by
      simpa using ((hasDerivAt_id new.acc).const_mul a).const_add s0
    refine h1.congr_of_eventuallyEq ?_
    filter_upwards [lt_mem_nhds hna'] with y hy
    exact hlaw y hy.le
  · have hpos : 0 < (linearHardening s0 a old.acc).1 := by
      linarith [show (0:ℝ) < 2e-8 by norm_num]
    have hlt : 1e-6 < (vm6 (hooke6 (lame E v) (shear E v) (trial3D old inc)) -
        (linearHardening s0 a old.acc).1) / (linearHardening s0 a old.acc).1 := by
      by_contra hcon
      exact hne ⟨hpos.ne', not_lt.mp hcon⟩
    have hc := ((continuousAt_vm E v old inc).sub
      (continuousAt_const (y := (linearHardening s0 a old.acc).1))).div_const
        (linearHardening s0 a old.acc).1
    filter_upwards [hc.eventually_const_lt hlt] with i hi
    exact hstep i fun hel => absurd hel.2 (not_le.mpr hi)

/-- hypotheses of C83a are met -/
example : StrictlyElastic 1 0 (linearHardening 1 1) (vmInit .solid) (uniInc (1 / 2)) := by
  unfold StrictlyElastic
  rw [vm6_uni, law_init]
  norm_num [abs_of_pos]

/-- hypotheses of C83c are met -/
example : ∃ new T, vmUpdate .solid 1 0 (linearHardening 1 1) (uniInc 3) (vmInit .solid) =
      (.good new, some T) ∧ new.isPlast = true ∧
    IsTangent .solid (updatedStress .solid 1 0 (linearHardening 1 1) (vmInit .solid)) T
      (uniInc 3) := by
  obtain ⟨new, T, h, -, h'⟩ := C83_linear admissible_one zero_le_one
    (by norm_num : (2e-8 : ℝ) ≤ 1) (le_refl (vmInit .solid).acc) uni_plastic
  refine ⟨new, T, h, ?_, h'⟩
  obtain ⟨new', T', hu, hp, -⟩ := C32_linear_exact admissible_one zero_le_one
    (by norm_num : (2e-8 : ℝ) ≤ 1) (le_refl (vmInit .solid).acc) uni_plastic
  rw [h] at hu
  cases hu
  exact hp

end Hooke
