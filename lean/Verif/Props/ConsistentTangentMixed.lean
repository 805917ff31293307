import Verif.Spec.ConsistentTangentMixed
import Verif.Props.ConsistentTangent
import Verif.Props.VonMisesMixed

/-! # C84: tangent of the von Mises state update with mixed hardening -/

noncomputable section

namespace Hooke

open Spec
open scoped Topology

variable {F : Type*} [NormedAddCommGroup F] [NormedSpace ℝ F]

theorem hasFDerivAt_norm6_comp {f : F → V6} {f' : F →L[ℝ] V6} {u : F} (hf : HasFDerivAt f f' u)
    (h : norm6 (f u) ≠ 0) :
    HasFDerivAt (fun u => norm6 (f u)) ((1 / norm6 (f u)) • ∑ k, (f u k) • (pr6 k).comp f') u := by
  have := (hasFDerivAt_norm6 (ContinuousLinearMap.id ℝ V6) (e := f u) h).comp u hf
  refine this.congr_fderiv ?_
  ext d
  simp

theorem hasFDerivAt_corrected_rel (lam G : ℝ) {x : F → ℝ} {x' : F →L[ℝ] ℝ} {t f : F → V6}
    {t' f' : F →L[ℝ] V6} {u : F} (h : norm6 (f u) ≠ 0) (ht : HasFDerivAt t t' u)
    (hf : HasFDerivAt f f' u) (hx : HasFDerivAt x x' u) :
    ∃ L : F →L[ℝ] V6,
      (∀ d k, L d k = hooke6 lam G (t' d) k -
        2 * G * √(3 / 2) * (x' d / norm6 (f u) * f u k + x u / norm6 (f u) * f' d k -
          x u * (∑ j, f u j * f' d j) / norm6 (f u) ^ 3 * f u k)) ∧
      HasFDerivAt (fun u k => hooke6 lam G (t u) k - 2 * G * x u *
        (√(3 / 2) / norm6 (f u)) * f u k) L u := by
  have hn := hasFDerivAt_norm6_comp hf h
  have hinv := (hasDerivAt_inv h).comp_hasFDerivAt u hn
  have hk : ∀ k, HasFDerivAt (fun u => hooke6 lam G (t u) k - 2 * G * x u *
        (√(3 / 2) / norm6 (f u)) * f u k) _ u := fun k =>
    HasFDerivAt.fun_sub (((pr6 k).comp (hookeL lam G)).hasFDerivAt.comp u ht)
      (HasFDerivAt.fun_mul (HasFDerivAt.fun_mul (hx.const_mul (2 * G)) (hinv.const_mul √(3 / 2)))
        ((pr6 k).hasFDerivAt.comp u hf))
  refine ⟨_, ?_, hasFDerivAt_pi.mpr hk⟩
  intro d k
  simp
  field_simp
  ring

/-- The tangent of a plastic step with mixed hardening. -/
theorem mixReturn_tangent {E v : ℝ} {law kin : HardLaw} {eT b : V6} {acc : ℝ} {r : MixReturn}
    (h : mixReturn E v law kin eT acc b = some r) (hp : r.isPlast = true) (d : V6) (k : Fin 6) :
    let rel : V6 := fun k => dev6 (hooke6 (lame E v) (shear E v) eT) k - b k
    mv6 r.tangent d k = hooke6 (lame E v) (shear E v) d k -
      (r.acc - acc) * 6 * shear E v ^ 2 / (√(3 / 2) * norm6 rel) * dev6 d k +
      6 * shear E v ^ 2 * ((r.acc - acc) / (√(3 / 2) * norm6 rel) -
        1 / (3 * shear E v + (kin r.acc).2 + (law r.acc).2)) *
        ((2 / 3) * (∑ j, mixFlow rel j * d j) * mixFlow rel k) := by
  have hl : lamOf E v = lame E v := rfl
  have hm : miuOf E v = shear E v := rfl
  have hG : E / (2 * (1 + v)) = shear E v := rfl
  unfold mixReturn at h
  simp only [mv6_iso, mv6_devprojsym, hl, hm, hG] at h
  split at h
  · cases h; cases hp
  · split at h
    · cases h
    · rename_i inc hinc
      cases h
      have hadd : acc + inc - acc = inc := by ring
      simp only [hadd]
      have h23 : √(2 / 3 : ℝ) ^ 2 = 2 / 3 := Real.sq_sqrt (by norm_num)
      refine (mv6_kel66_lin _ _ _ _ _ _ _).trans ?_
      rw [mv6_iso, mv6_devprojsym, mv6_dyad, h23]
      rfl

/-- Relative trial stress of an increment. -/
def relTrial {p : PType} (E v : ℝ) (old : MixState p) (inc : T2 p.dim) : V6 :=
  fun k => dev6 (hooke6 (lame E v) (shear E v) (trial3D old.toVMState inc)) k - back3D old k

theorem hasFDerivAt_relTrial {p : PType} (E v : ℝ) (old : MixState p) (inc : T2 p.dim) :
    HasFDerivAt (relTrial E v old)
      ((devHookeL (lame E v) (shear E v)).comp (incrementL p)) inc := by
  have h := ((devHookeL (lame E v) (shear E v)).hasFDerivAt.comp inc
    (hasFDerivAt_trial old.toVMState inc)).sub_const (back3D old)
  exact h

theorem relativeTrial_eq {p : PType} {E v : ℝ} {old : MixState p} {inc : T2 p.dim}
    (hback : tr6 (back3D old) = 0) :
    relativeTrial E v old inc = √(3 / 2) * norm6 (relTrial E v old inc) := by
  unfold relativeTrial relTrial
  rw [vm6_eq, dev6_sub_traceless hback]

theorem continuousAt_relativeTrial {p : PType} (E v : ℝ) (old : MixState p) (inc : T2 p.dim)
    (hback : tr6 (back3D old) = 0) : ContinuousAt (relativeTrial E v old) inc := by
  have h1 : ContinuousAt (relTrial E v old) inc := (hasFDerivAt_relTrial E v old inc).continuousAt
  have h2 : Continuous fun e : V6 => √(3 / 2) * norm6 e := by
    unfold norm6
    refine continuous_const.mul (Real.continuous_sqrt.comp ?_)
    exact continuous_finsetSum _ fun k _ => (continuous_apply k).pow 2
  have h3 : relativeTrial E v old = fun i => √(3 / 2) * norm6 (relTrial E v old i) :=
    funext fun i => relativeTrial_eq hback
  rw [h3]
  exact h2.continuousAt.comp h1

theorem mix_elastic {p : PType} {E v : ℝ} {law kin : HardLaw} {inc : T2 p.dim} {old : MixState p}
    (hback : tr6 (back3D old) = 0) (h : MixTrialElastic E v law old inc) :
    ∃ new, mixUpdate p E v law kin inc old =
      (.good new, some (to2DM p (kel66 (isoTensor (lame E v) (shear E v))))) ∧
      new.isPlast = false ∧
      new.stress = to2D p (hooke6 (lame E v) (shear E v) (trial3D old.toVMState inc)) := by
  have hr : mixReturn E v law kin (trial3D old.toVMState inc) old.acc (back3D old) = some
      { eStrain := trial3D old.toVMState inc
        stress := mv6 (kel66 (isoTensor (lame E v) (shear E v))) (trial3D old.toVMState inc)
        acc := old.acc, back := back3D old, isPlast := false
        tangent := kel66 (isoTensor (lame E v) (shear E v)) } := by
    unfold mixReturn
    have h' : (law old.acc).1 ≠ 0 ∧ (√(3 / 2) * norm6 (fun k => dev6 (hooke6 (lamOf E v) (miuOf E v)
        (trial3D old.toVMState inc)) k - back3D old k) -
        (law old.acc).1) / (law old.acc).1 ≤ suTol := by
      have h2 : (law old.acc).1 ≠ 0 ∧ (√(3 / 2) * norm6 (relTrial E v old inc) -
        (law old.acc).1) / (law old.acc).1 ≤ suTol := by
        rw [← relativeTrial_eq hback]; exact h
      exact h2
    simp only [mv6_iso, mv6_devprojsym]
    rw [if_pos h']
    rfl
  unfold mixUpdate
  have htr : to3D p old.eStrain old.e33 + to3D p (mf p inc) 0 = trial3D old.toVMState inc := rfl
  have hb : to3D p old.back old.b33 = back3D old := rfl
  simp only [htr, hb, hr]
  exact ⟨_, rfl, rfl, by rw [mv6_iso]⟩

/-- Closed form of a plastic step with linear isotropic and kinematic hardening. -/
theorem mix_linear_step {p : PType} {E v s0 a k0 b : ℝ} (hA : Admissible E v) (ha : 0 ≤ a)
    (hb : 0 ≤ b) (hs : 2e-8 ≤ s0) {inc : T2 p.dim} {old : MixState p} (hacc : 0 ≤ old.acc)
    (hback : tr6 (back3D old) = 0)
    (hne : ¬ MixTrialElastic E v (linearHardening s0 a) old inc) :
    ∃ new r, mixUpdate p E v (linearHardening s0 a) (linearHardening k0 b) inc old =
        (.good new, some (to2DM p r.tangent)) ∧
      mixReturn E v (linearHardening s0 a) (linearHardening k0 b) (trial3D old.toVMState inc)
        old.acc (back3D old) = some r ∧ r.isPlast = true ∧ new.isPlast = true ∧
      suSmall < norm6 (relTrial E v old inc) ∧ 0 < r.acc - old.acc ∧
      r.acc - old.acc = (√(3 / 2) * norm6 (relTrial E v old inc) - (s0 + a * old.acc)) /
        (3 * shear E v + b + a) ∧
      new.stress = to2D p (fun k => hooke6 (lame E v) (shear E v) (trial3D old.toVMState inc) k -
        2 * shear E v * (r.acc - old.acc) * (√(3 / 2) / norm6 (relTrial E v old inc)) *
          relTrial E v old inc k) := by
  have hG := hA.shear_pos
  have hs0 : 0 < s0 := by linarith [show (0:ℝ) < 2e-8 by norm_num]
  have hr0 : relu old.acc = old.acc := max_eq_left hacc
  have hsy : (linearHardening s0 a old.acc).1 = s0 + a * old.acc := by simp [linearHardening, hr0]
  have hpos : 0 < s0 + a * old.acc := by have := mul_nonneg ha hacc; linarith
  set q := √(3 / 2) * norm6 (relTrial E v old inc) with hq
  have hqlt : (1 + 1e-6) * (s0 + a * old.acc) < q := by
    by_contra hcon
    apply hne
    rw [MixTrialElastic, hsy, relativeTrial_eq hback]
    refine ⟨hpos.ne', ?_⟩
    rw [div_le_iff₀ hpos]
    linarith
  have hq' : s0 + a * old.acc < q := by nlinarith
  have hbig : suSmall < norm6 (relTrial E v old inc) := by
    have hn := norm6_nonneg (relTrial E v old inc)
    have h1 : q ≤ 2 * norm6 (relTrial E v old inc) := by
      rw [hq]; exact mul_le_mul_of_nonneg_right sqrt32_lt.le hn
    have h2 : 0 ≤ a * old.acc := mul_nonneg ha hacc
    have : suSmall = 1e-8 := rfl
    rw [this]
    linarith [show (2e-8 : ℝ) = 2 * 1e-8 by norm_num]
  have hD : 0 < 3 * shear E v + b + a := by linarith
  set x := (q - (s0 + a * old.acc)) / (3 * shear E v + b + a) with hx
  have hx0 : 0 < x := div_pos (by linarith) hD
  have hrx : relu (old.acc + x) = old.acc + x := max_eq_left (by linarith)
  have hnew : newtonLoop (mixEval (shear E v) q old.acc (linearHardening s0 a)
      (linearHardening k0 b)) suTol suMaxIter 0 0 = some x := by
    refine newton_affine (by decide) suTol_pos ?_ ?_ ?_ ?_
    · simp only [mixEval, linearHardening]; intro h0; linarith
    · simp only [mixEval, linearHardening, add_zero, hr0, hx]
      rw [show -3 * shear E v - b - a = -(3 * shear E v + b + a) by ring, neg_div_neg_eq]
      ring
    · simp only [mixEval, linearHardening, hr0, hrx]
      rw [hx]; field_simp; ring
    · simp only [mixEval, linearHardening, hrx]
      have := mul_nonneg ha (by linarith : 0 ≤ old.acc + x)
      intro h0; linarith
  have hel : ¬ ((linearHardening s0 a old.acc).1 ≠ 0 ∧
      (q - (linearHardening s0 a old.acc).1) / (linearHardening s0 a old.acc).1 ≤ suTol) := by
    intro hc
    apply hne
    rw [MixTrialElastic, relativeTrial_eq hback]
    exact hc
  cases hu : mixUpdate p E v (linearHardening s0 a) (linearHardening k0 b) inc old with
  | mk st T =>
    cases hr : mixReturn E v (linearHardening s0 a) (linearHardening k0 b)
        (trial3D old.toVMState inc) old.acc (back3D old) with
    | none =>
      have := (mixReturn_none.mp hr).2
      have hq2 : √(3 / 2) * norm6 (fun k => dev6 (hooke6 (lame E v) (shear E v)
        (trial3D old.toVMState inc)) k - back3D old k) = q := rfl
      rw [hq2, hnew] at this
      cases this
    | some r =>
      have hst : ∃ new, st = .good new := by
        unfold mixUpdate at hu
        have htr : to3D p old.eStrain old.e33 + to3D p (mf p inc) 0 =
          trial3D old.toVMState inc := rfl
        have hb : to3D p old.back old.b33 = back3D old := rfl
        simp only [htr, hb, hr, Prod.mk.injEq] at hu
        exact ⟨_, hu.1.symm⟩
      obtain ⟨new, rfl⟩ := hst
      obtain ⟨r', hr', -, h2, -, h3, h4, -, -, hT⟩ := mixUpdate_good hu
      rw [hr] at hr'
      cases hr'
      obtain ⟨hst, hc⟩ := mixReturn_cases hr
      rcases hc with ⟨-, -, -, -, hc1, hc2⟩ | ⟨hpl, -, y, hy, hya, he, -⟩
      · exact absurd ⟨hc1, hc2⟩ hel
      have hyx : y = x := by
        have : some y = some x := hy.symm.trans hnew
        exact Option.some.inj this
      rw [hyx] at hya he
      have hsub : r.acc - old.acc = x := by rw [hya]; ring
      refine ⟨new, r, by rw [hT], rfl, hpl, h4.trans hpl, hbig, by rw [hsub]; exact hx0,
        by rw [hsub], ?_⟩
      have hss : new.stress = to2D p (stress3D new.toVMState) := by rw [stress3D, to2D_to3D]
      rw [hss, h2, hst, he, hsub]
      congr 1
      have htr : tr6 (relTrial E v old inc) = 0 := by
        have h5 := tr6_sub_smul (dev6 (hooke6 (lame E v) (shear E v)
          (trial3D old.toVMState inc))) (back3D old) 1
        simp only [one_mul] at h5
        exact h5.trans (by rw [tr6_dev6, hback, sub_zero])
      have hrel : (fun k => dev6 (hooke6 (lame E v) (shear E v) (trial3D old.toVMState inc)) k -
        back3D old k) = relTrial E v old inc := rfl
      rw [hooke6_sub_smul, hrel, hooke6_dev (tr6_mixFlow htr)]
      funext k
      have hfl : mixFlow (relTrial E v old inc) k =
          √(3 / 2) / norm6 (relTrial E v old inc) * relTrial E v old inc k := by
        simp only [mixFlow]
        rw [if_pos hbig]; ring
      show _ - x * (2 * shear E v * mixFlow (relTrial E v old inc) k) = _
      rw [hfl]; ring

/-! ### C84 -/

/-- C84a: for all hardening laws, if the relative trial stress is strictly below the yield
tolerance the tangent returned by the mixed hardening state update is the derivative of the updated
stress with respect to the strain increment. -/
theorem C84_elastic {p : PType} {E v : ℝ} {law kin : HardLaw} {inc : T2 p.dim} {old : MixState p}
    (hback : tr6 (back3D old) = 0) (h : MixStrictlyElastic E v law old inc) :
    ∃ new T, mixUpdate p E v law kin inc old = (.good new, some T) ∧
      updatedStressMixed p E v law kin old inc = new.stress ∧
      IsTangent p (updatedStressMixed p E v law kin old) T inc := by
  obtain ⟨new, hu, -, -⟩ := mix_elastic (kin := kin) hback (inc := inc) ⟨h.1, h.2.le⟩
  refine ⟨new, _, hu, by simp only [updatedStressMixed, hu], ?_⟩
  have hev : ∀ᶠ i in 𝓝 inc, MixTrialElastic E v law old i := by
    have hc := ((continuousAt_relativeTrial E v old inc hback).sub
      (continuousAt_const (y := (law old.acc).1))).div_const (law old.acc).1
    filter_upwards [hc.eventually_lt_const h.2] with i hi
    exact ⟨h.1, le_of_lt hi⟩
  have hR : HasFDerivAt (fun i => hooke6 (lame E v) (shear E v) (trial3D old.toVMState i))
      ((hookeL (lame E v) (shear E v)).comp (incrementL p)) inc :=
    (hookeL (lame E v) (shear E v)).hasFDerivAt.comp inc (hasFDerivAt_trial old.toVMState inc)
  obtain ⟨L, hL, hd⟩ := isTangent_of_3D (M := kel66 (isoTensor (lame E v) (shear E v))) hR
    (fun d k => by rw [mv6_iso]; rfl)
  refine ⟨L, hL, hd.congr_of_eventuallyEq ?_⟩
  filter_upwards [hev] with i hi
  obtain ⟨s, hs, -, hst⟩ := mix_elastic (kin := kin) hback hi
  simp only [updatedStressMixed, hs, hst]

/-- C84b: with linear isotropic and kinematic hardening (positive initial yield stress,
nonnegative slopes) the tangent returned by a plastic step of the mixed hardening model is the
derivative of the updated stress with respect to the strain increment. -/
theorem C84_linear {p : PType} {E v s0 a k0 b : ℝ} (hA : Admissible E v) (ha : 0 ≤ a)
    (hb : 0 ≤ b) (hs : 2e-8 ≤ s0) {inc : T2 p.dim} {old : MixState p} (hacc : 0 ≤ old.acc)
    (hback : tr6 (back3D old) = 0)
    (hne : ¬ MixTrialElastic E v (linearHardening s0 a) old inc) :
    ∃ new T, mixUpdate p E v (linearHardening s0 a) (linearHardening k0 b) inc old =
        (.good new, some T) ∧ new.isPlast = true ∧
      updatedStressMixed p E v (linearHardening s0 a) (linearHardening k0 b) old inc = new.stress ∧
      IsTangent p (updatedStressMixed p E v (linearHardening s0 a) (linearHardening k0 b) old) T
        inc := by
  have hG := hA.shear_pos
  have hD : 0 < 3 * shear E v + b + a := by linarith
  obtain ⟨new, r, hu, hr, hpl, hpl', hbig, hx0, hx, hst⟩ :=
    mix_linear_step (k0 := k0) hA ha hb hs hacc hback hne
  refine ⟨new, _, hu, hpl', by simp only [updatedStressMixed, hu], ?_⟩
  have hN : 0 < norm6 (relTrial E v old inc) := lt_trans (by unfold suSmall; norm_num) hbig
  have ht := hasFDerivAt_trial old.toVMState inc
  have hf := hasFDerivAt_relTrial E v old inc
  have hxd : HasFDerivAt (fun i => (√(3 / 2) * norm6 (relTrial E v old i) - (s0 + a * old.acc)) /
      (3 * shear E v + b + a)) _ inc :=
    HasFDerivAt.mul_const ((((hasFDerivAt_norm6_comp hf hN.ne').const_mul √(3 / 2))).sub_const
      (s0 + a * old.acc)) (3 * shear E v + b + a)⁻¹
  obtain ⟨L, hL, hLd⟩ := hasFDerivAt_corrected_rel (lame E v) (shear E v) hN.ne' ht hf hxd
  have htr : tr6 (relTrial E v old inc) = 0 := by
    have h5 := tr6_sub_smul (dev6 (hooke6 (lame E v) (shear E v)
      (trial3D old.toVMState inc))) (back3D old) 1
    simp only [one_mul] at h5
    exact h5.trans (by rw [tr6_dev6, hback, sub_zero])
  have hLt : ∀ d k, L d k = mv6 r.tangent (increment3D p d) k := by
    intro d k
    have hrel : (fun k => dev6 (hooke6 (lame E v) (shear E v) (trial3D old.toVMState inc)) k -
      back3D old k) = relTrial E v old inc := rfl
    have hmt := mixReturn_tangent hr hpl (increment3D p d) k
    simp only [hrel] at hmt
    rw [hL, hmt, ← hx]
    have hdot := dot_dev_hooke (lame E v) (shear E v) (relTrial E v old inc) (increment3D p d) htr
    have hinc : (incrementL p) d = increment3D p d := rfl
    have hfl : ∀ k, mixFlow (relTrial E v old inc) k =
        √(3 / 2) / norm6 (relTrial E v old inc) * relTrial E v old inc k := by
      intro k
      simp only [mixFlow]
      rw [if_pos hbig]; ring
    have hsum : ∑ j, mixFlow (relTrial E v old inc) j * increment3D p d j =
        √(3 / 2) / norm6 (relTrial E v old inc) *
          ∑ j, relTrial E v old inc j * increment3D p d j := by
      rw [Finset.mul_sum]
      exact Finset.sum_congr rfl fun j _ => by rw [hfl]; ring
    have hdk : dev6 (hooke6 (lame E v) (shear E v) (increment3D p d)) k =
        2 * shear E v * dev6 (increment3D p d) k := congrFun (dev6_hooke6 _ _ _) k
    have hcomp : ((devHookeL (lame E v) (shear E v)).comp (incrementL p)) d =
      dev6 (hooke6 (lame E v) (shear E v) (increment3D p d)) := rfl
    have hk2 : (linearHardening k0 b r.acc).2 = b := rfl
    have hk3 : (linearHardening s0 a r.acc).2 = a := rfl
    rw [hcomp, hinc, hdot, hsum, hfl, hdk, hk2, hk3]
    rw [← tangent_algebra sqrt32_mul hN.ne' hD.ne' sqrt32_pos.ne']
    congr 5
    rw [← hdot]
    simp [hinc]
  obtain ⟨L', hL', hd'⟩ := isTangent_of_3D hLd hLt
  refine ⟨L', hL', hd'.congr_of_eventuallyEq ?_⟩
  have hsyne : (linearHardening s0 a old.acc).1 ≠ 0 := by
    have := mul_nonneg ha hacc
    have h0 : relu old.acc = old.acc := max_eq_left hacc
    simp only [linearHardening, h0]
    intro h; linarith [show (0:ℝ) < 2e-8 by norm_num]
  have hlt : 1e-6 < (relativeTrial E v old inc - (linearHardening s0 a old.acc).1) /
      (linearHardening s0 a old.acc).1 := by
    by_contra hcon
    exact hne ⟨hsyne, not_lt.mp hcon⟩
  have hc := ((continuousAt_relativeTrial E v old inc hback).sub
    (continuousAt_const (y := (linearHardening s0 a old.acc).1))).div_const
      (linearHardening s0 a old.acc).1
  filter_upwards [hc.eventually_const_lt hlt] with i hi
  obtain ⟨new', r', hu', -, -, -, -, -, hx', hst'⟩ :=
    mix_linear_step (k0 := k0) hA ha hb hs hacc hback (inc := i)
      (fun hel => absurd hel.2 (not_le.mpr hi))
  simp only [updatedStressMixed, hu', hst', hx']

/-- hypotheses of C84a are met -/
example : tr6 (back3D (mixInit .solid)) = 0 ∧
    MixStrictlyElastic 1 0 (linearHardening 1 0) (mixInit .solid) (uniInc (1 / 2)) := by
  refine ⟨by simp [tr6, back3D, mixInit, to3D], by simp [linearHardening], ?_⟩
  rw [relativeTrial_uni]
  norm_num [linearHardening, abs_of_pos]

/-- hypotheses of C84b are met by the step of C35d -/
example : ¬ MixTrialElastic 1 0 (linearHardening 1 0) (mixInit .solid) (uniInc 3) := by
  rintro ⟨-, h⟩
  rw [relativeTrial_uni] at h
  norm_num [linearHardening, abs_of_pos] at h

end Hooke
