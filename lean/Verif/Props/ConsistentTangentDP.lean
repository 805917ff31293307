import Verif.Spec.ConsistentTangentMixed
import Verif.Props.ConsistentTangentMixed
import Verif.Props.DruckerPrager

/-! # C85: tangent of the Drucker-Prager state update -/

noncomputable section

namespace Hooke

open Spec
open scoped Topology

variable {F : Type*} [NormedAddCommGroup F] [NormedSpace ℝ F]

theorem dpTangent_of_cone {p : PType} {m : DPParams} (hm : Frictional m) {c0 a : ℝ} (ha : 0 ≤ a)
    {inc : T2 p.dim} {old : DPState p} (hacc : 0 ≤ old.acc)
    (hne : ¬ DPTrialElastic m (linearHardening c0 a) old inc) (hrest : 0 ≤ coneRest m c0 a old inc) :
    let s := hooke6 (lame m.E m.v) (shear m.E m.v) (trial3D old.toVMState inc)
    let x := coneMultiplier m a (dpYield m s (c0 + a * old.acc))
    ∃ new, dpUpdate p m (linearHardening c0 a) inc old =
        (.good new, some (to2DM p (kel66 (dpConeTangent m (trial3D old.toVMState inc) x a)))) ∧
      new.isPlast = true ∧ new.isApex = false ∧
      new.stress = to2D p (fun k => (pressure6 s - bulk m.E m.v * m.etaf * x) * one6 k +
        (if sqrtJ2 s > suSmall then 1 - shear m.E m.v * x / sqrtJ2 s else 0) * dev6 s k) := by
  intro s x
  obtain ⟨new, T, hu, -, h⟩ := C36_linear hm (c0 := c0) ha (inc := inc) hacc
  have hap := ((h hne).1 hrest).1
  obtain ⟨r, hr, -, h2, h3, h4, h5, -, -, hT⟩ := dpUpdate_good hu
  have hlaw := linear_nonneg (c0 := c0) (a := a) hacc
  rcases dpReturn_cases hr with ⟨hp', ha', hc, -⟩ |
    ⟨hp', ha', hc, y, hy, hge, hac, -, hst, htan⟩ | ⟨hp', ha', -⟩
  · exact absurd hc hne
  · have hyl : 0 ≤ dpYield m s (c0 + a * old.acc) := by
      have := cohesionTol_pos (linearHardening c0 a old.acc).1
      have h6 := not_le.mp hc
      have h7 : (linearHardening c0 a old.acc).1 = c0 + a * old.acc := by rw [hlaw]
      rw [h7] at h6 this
      linarith
    have hyx : y = x := firstConverged_unique hy (cone_linear hm ha hacc hyl)
    rw [hyx] at hst htan
    refine ⟨new, ?_, h4.trans hp', hap, ?_⟩
    · rw [hu, hT, htan]; rfl
    · have hss : new.stress = to2D p (stress3D new.toVMState) := by rw [stress3D, to2D_to3D]
      rw [hss, h2, hst]
  · rw [← h5, hap] at ha'; cases ha'

theorem dpTangent_of_apex {p : PType} {m : DPParams} (hm : Frictional m) {c0 a : ℝ} (ha : 0 ≤ a)
    {inc : T2 p.dim} {old : DPState p} (hacc : 0 ≤ old.acc)
    (hne : ¬ DPTrialElastic m (linearHardening c0 a) old inc) (hrest : coneRest m c0 a old inc < 0) :
    let s := hooke6 (lame m.E m.v) (shear m.E m.v) (trial3D old.toVMState inc)
    ∃ new, dpUpdate p m (linearHardening c0 a) inc old =
        (.good new, some (to2DM p (kel66 (dpApexTangent m a)))) ∧
      new.isPlast = true ∧ new.isApex = true ∧
      new.stress = to2D p (fun k => (pressure6 s - bulk m.E m.v *
        ((pressure6 s - m.xi / m.etay * (c0 + a * old.acc)) /
          (bulk m.E m.v + m.xi / m.etaf * (m.xi / m.etay) * a))) * one6 k) := by
  intro s
  obtain ⟨new, T, hu, -, h⟩ := C36_linear hm (c0 := c0) ha (inc := inc) hacc
  have hap := ((h hne).2 hrest).1
  obtain ⟨r, hr, -, h2, h3, h4, h5, -, -, hT⟩ := dpUpdate_good hu
  rcases dpReturn_cases hr with ⟨hp', ha', hc, -⟩ |
    ⟨hp', ha', -⟩ | ⟨hp', ha', hc, -, -, -, y, hy, hac, -, hst, htan⟩
  · exact absurd hc hne
  · rw [← h5, hap] at ha'; cases ha'
  · have hpr := apex_pressure hm ha hrest
    have hyx : y = _ := firstConverged_unique hy (apex_linear hm ha hacc hpr.le)
    rw [hyx] at hst
    refine ⟨new, ?_, h4.trans hp', hap, ?_⟩
    · rw [hu, hT, htan]; rfl
    · have hss : new.stress = to2D p (stress3D new.toVMState) := by rw [stress3D, to2D_to3D]
      rw [hss, h2, hst]

theorem mv6_dyad_kel (a b : T2 3) (d : V6) (k : Fin 6) :
    mv6 (kel66 (dyad22_1 a b)) d k = kel6 a k * ∑ j, kel6 b j * d j := by
  simp only [mv6, kel66, dyad22_1, kel6, Finset.mul_sum]
  exact Finset.sum_congr rfl fun j _ => by ring

theorem sum_one6 (d : V6) : ∑ j, one6 j * d j = tr6 d := by
  simp [one6, tr6, Fin.sum_univ_six]

theorem kel6_trialUnit (e : V6) (k : Fin 6) : kel6 (dpTrialUnit e) k = dpNormDiv e * dev6 e k := by
  have h := congrFun (kel6_unkel6 (dev6 e)) k
  simp only [kel6] at h
  simp only [kel6, dpTrialUnit, mv6_devprojsym, ← h]
  ring

theorem mv6_lin5 (A B C D E' : T4 3) (a b c c1 c2 e : ℝ) (d : V6) (k : Fin 6) :
    mv6 (kel66 fun i j k l => a * A i j k l + b * B i j k l -
      c * (c1 * C i j k l + c2 * D i j k l) + e * E' i j k l) d k =
      a * mv6 (kel66 A) d k + b * mv6 (kel66 B) d k - c * (c1 * mv6 (kel66 C) d k +
        c2 * mv6 (kel66 D) d k) + e * mv6 (kel66 E') d k := by
  simp only [mv6, kel66, Fin.sum_univ_succ, Fin.sum_univ_zero]
  ring

/-- The cone tangent applied to a strain direction. -/
theorem mv6_coneTangent (m : DPParams) (e d : V6) (x H : ℝ) (k : Fin 6) :
    let N := dpNormDiv e
    let s2 := 1 / (shear m.E m.v + bulk m.E m.v * m.etay * m.etaf + H * m.xi ^ 2)
    mv6 (kel66 (dpConeTangent m e x H)) d k =
      2 * shear m.E m.v * (1 - N * (x / √2)) * dev6 d k +
      2 * shear m.E m.v * (N * (x / √2) - shear m.E m.v * s2) *
        (N * dev6 e k * (N * ∑ j, dev6 e j * d j)) -
      √2 * shear m.E m.v * s2 * bulk m.E m.v * (m.etay * (N * dev6 e k * tr6 d) +
        m.etaf * (one6 k * (N * ∑ j, dev6 e j * d j))) +
      bulk m.E m.v * (1 - bulk m.E m.v * m.etay * m.etaf * s2) * (one6 k * tr6 d) := by
  intro N s2
  have hso : ∀ k, kel6 (getIdOperators 3).soid k = one6 k := fun k => congrFun soid6_eq k
  have hu : ∑ j, kel6 (dpTrialUnit e) j * d j = N * ∑ j, dev6 e j * d j := by
    rw [Finset.mul_sum]
    exact Finset.sum_congr rfl fun j _ => by rw [kel6_trialUnit]; ring
  have hs : ∑ j, kel6 (getIdOperators 3).soid j * d j = tr6 d := by
    rw [← sum_one6]
    exact Finset.sum_congr rfl fun j _ => by rw [hso]
  refine (mv6_lin5 _ _ _ _ _ _ _ _ _ _ _ _ _).trans ?_
  rw [mv6_devprojsym, mv6_dyad_kel, mv6_dyad_kel, mv6_dyad_kel, mv6_dyad_kel, hu, hs, hso,
    kel6_trialUnit]
  rfl

/-- Pressure of Hooke's law as a continuous linear map. -/
def pressureL (E v : ℝ) : V6 →L[ℝ] ℝ :=
  ((1 / 3 : ℝ) • (pr6 0 + pr6 1 + pr6 2)).comp (hookeL (lame E v) (shear E v))

theorem pressureL_apply (E v : ℝ) (e : V6) :
    pressureL E v e = pressure6 (hooke6 (lame E v) (shear E v) e) := by
  simp [pressureL, pressure6, tr6]; ring

theorem hasFDerivAt_cone (G c : ℝ) {P J x : F → ℝ} {P' J' x' : F →L[ℝ] ℝ} {s : F → V6}
    {s' : F →L[ℝ] V6} {u : F} (h : J u ≠ 0) (hP : HasFDerivAt P P' u) (hJ : HasFDerivAt J J' u)
    (hx : HasFDerivAt x x' u) (hs : HasFDerivAt s s' u) :
    ∃ L : F →L[ℝ] V6,
      (∀ d k, L d k = (P' d - c * x' d) * one6 k + (1 - G * x u / J u) * s' d k -
        G * (x' d / J u - x u * J' d / J u ^ 2) * s u k) ∧
      HasFDerivAt (fun u k => (P u - c * x u) * one6 k + (1 - G * x u / J u) * s u k) L u := by
  have hinv := (hasDerivAt_inv h).comp_hasFDerivAt u hJ
  have hk : ∀ k, HasFDerivAt (fun u => (P u - c * x u) * one6 k + (1 - G * x u / J u) * s u k) _ u :=
    fun k => HasFDerivAt.fun_add (HasFDerivAt.mul_const (hP.fun_sub (hx.const_mul c)) (one6 k))
      (HasFDerivAt.fun_mul (HasFDerivAt.const_sub (HasFDerivAt.fun_mul (hx.const_mul G) hinv) 1)
        ((pr6 k).hasFDerivAt.comp u hs))
  refine ⟨_, ?_, hasFDerivAt_pi.mpr hk⟩
  intro d k
  simp
  field_simp
  ring

theorem pressure_hooke {E v : ℝ} (hA : Admissible E v) (e : V6) :
    pressure6 (hooke6 (lame E v) (shear E v) e) = bulk E v * tr6 e := by
  rw [pressure6, tr6_hooke6, hA.lame_bulk]; ring

theorem cone_algebra {r G K M D x Q t dv de o ey ef : ℝ} (hr : r * r = 2) (hrp : r ≠ 0)
    (hG : G ≠ 0) (hM : M ≠ 0) (hD : D ≠ 0) :
    (K * t - K * ef * ((r * G / M * Q + ey * (K * t)) / D)) * o +
      (1 - G * x / (r * G * M)) * (2 * G * dv) -
      G * ((r * G / M * Q + ey * (K * t)) / D / (r * G * M) -
        x * (r * G / M * Q) / (r * G * M) ^ 2) * (2 * G * de) =
    2 * G * (1 - 1 / M * (x / r)) * dv +
      2 * G * (1 / M * (x / r) - G * (1 / D)) * (1 / M * de * (1 / M * Q)) -
      r * G * (1 / D) * K * (ey * (1 / M * de * t) + ef * (o * (1 / M * Q))) +
      K * (1 - K * ey * ef * (1 / D)) * (o * t) := by
  have hr2 : r ^ 2 = 2 := by rw [sq]; exact hr
  have hi : 1 / r = r / 2 := by field_simp; linarith
  have h1 : G * x / (r * G * M) = 1 / M * (x / r) := by field_simp
  have h2 : G * ((r * G / M * Q + ey * (K * t)) / D / (r * G * M) -
        x * (r * G / M * Q) / (r * G * M) ^ 2) * (2 * G * de) =
      2 * G * (G * (1 / D) - 1 / M * (x / r)) * (1 / M * de * (1 / M * Q)) +
        2 * (1 / r) * G * (1 / D) * K * (ey * (1 / M * de * t)) := by
    field_simp
    ring
  rw [h1, h2, hi]
  ring

/-- The derivative of the return to the cone: the formula of the tangent with a unit direction. -/
theorem cone_derivative {p : PType} {m : DPParams} (hm : Frictional m) {c0 a : ℝ} (ha : 0 ≤ a)
    {inc : T2 p.dim} {old : DPState p}
    (hJ : 0 < sqrtJ2 (hooke6 (lame m.E m.v) (shear m.E m.v) (trial3D old.toVMState inc))) :
    let e := trial3D old.toVMState inc
    let s := fun i => hooke6 (lame m.E m.v) (shear m.E m.v) (trial3D old.toVMState i)
    let x := fun i => coneMultiplier m a (dpYield m (s i) (c0 + a * old.acc))
    let N := 1 / norm6 (dev6 e)
    let s2 := 1 / (shear m.E m.v + bulk m.E m.v * m.etay * m.etaf + a * m.xi ^ 2)
    ∃ L : T2 p.dim →L[ℝ] V6,
      (∀ d k, L d k =
        2 * shear m.E m.v * (1 - N * (x inc / √2)) * dev6 (increment3D p d) k +
        2 * shear m.E m.v * (N * (x inc / √2) - shear m.E m.v * s2) *
          (N * dev6 e k * (N * ∑ j, dev6 e j * increment3D p d j)) -
        √2 * shear m.E m.v * s2 * bulk m.E m.v * (m.etay * (N * dev6 e k * tr6 (increment3D p d)) +
          m.etaf * (one6 k * (N * ∑ j, dev6 e j * increment3D p d j))) +
        bulk m.E m.v * (1 - bulk m.E m.v * m.etay * m.etaf * s2) *
          (one6 k * tr6 (increment3D p d))) ∧
      HasFDerivAt (fun i k => (pressure6 (s i) - bulk m.E m.v * m.etaf * x i) * one6 k +
        (1 - shear m.E m.v * x i / sqrtJ2 (s i)) * dev6 (s i) k) L inc ∧
      0 < norm6 (dev6 e) := by
  intro e s x N s2
  have hK := hm.elastic.bulk_pos; have hG := hm.elastic.shear_pos
  have h1 := hm.xi; have h2 := hm.etay; have h3 := hm.etaf
  have hD : 0 < shear m.E m.v + bulk m.E m.v * m.etaf * m.etay + m.xi ^ 2 * a := by positivity
  have hr := sqrt2_mul; have hr0 := sqrt2_ne
  have hMs : norm6 (dev6 (s inc)) = 2 * shear m.E m.v * norm6 (dev6 e) := by
    show norm6 (dev6 (hooke6 _ _ e)) = _
    rw [dev6_hooke6, norm6_smul, abs_of_pos (by linarith)]
  have hM : 0 < norm6 (dev6 e) := by
    have : 0 < norm6 (dev6 (s inc)) := by
      by_contra hc
      have h0 : norm6 (dev6 (s inc)) = 0 := le_antisymm (not_lt.mp hc) (norm6_nonneg _)
      have : sqrtJ2 (s inc) = 0 := by rw [sqrtJ2, h0, zero_div]
      have hJ' : 0 < sqrtJ2 (s inc) := hJ
      linarith
    rw [hMs] at this
    exact (mul_pos_iff_of_pos_left (by linarith)).mp this
  have hJv : sqrtJ2 (s inc) = √2 * shear m.E m.v * norm6 (dev6 e) := by
    rw [sqrtJ2, hMs, div_eq_iff hr0]
    linear_combination (-(shear m.E m.v * norm6 (dev6 e))) * hr
  have hs : HasFDerivAt (fun i => dev6 (s i))
      ((devHookeL (lame m.E m.v) (shear m.E m.v)).comp (incrementL p)) inc :=
    (devHookeL (lame m.E m.v) (shear m.E m.v)).hasFDerivAt.comp inc
      (hasFDerivAt_trial old.toVMState inc)
  have hN0 : norm6 (dev6 (s inc)) ≠ 0 := by rw [hMs]; positivity
  have hdot : ∀ d, ∑ j, dev6 (s inc) j *
      ((devHookeL (lame m.E m.v) (shear m.E m.v)).comp (incrementL p)) d j =
      2 * shear m.E m.v * (2 * shear m.E m.v * ∑ j, dev6 e j * increment3D p d j) := by
    intro d
    have := dot_dev_hooke (lame m.E m.v) (shear m.E m.v) (dev6 (s inc)) (increment3D p d)
      (tr6_dev6 _)
    refine this.trans ?_
    congr 1
    rw [Finset.mul_sum]
    refine Finset.sum_congr rfl fun j _ => ?_
    have hsj : dev6 (s inc) j = 2 * shear m.E m.v * dev6 e j := congrFun (dev6_hooke6 _ _ _) j
    rw [hsj]; ring
  obtain ⟨J', hJd, hJ'⟩ : ∃ J' : T2 p.dim →L[ℝ] ℝ, HasFDerivAt (fun i => sqrtJ2 (s i)) J' inc ∧
      ∀ d, J' d = √2 * shear m.E m.v / norm6 (dev6 e) * ∑ j, dev6 e j * increment3D p d j := by
    refine ⟨_, HasFDerivAt.mul_const (hasFDerivAt_norm6_comp hs hN0) (√2)⁻¹, fun d => ?_⟩
    have hap : ∀ (c c' : ℝ), (c • c' • ∑ k, dev6 (s inc) k • (pr6 k).comp
        ((devHookeL (lame m.E m.v) (shear m.E m.v)).comp (incrementL p))) d =
        c * (c' * ∑ j, dev6 (s inc) j *
          ((devHookeL (lame m.E m.v) (shear m.E m.v)).comp (incrementL p)) d j) := by
      intro c c'; simp
    rw [hap, hdot, hMs]
    generalize ∑ j, dev6 e j * increment3D p d j = Q
    field_simp
    linear_combination (-Q) * hr
  have hP : HasFDerivAt (fun i => pressure6 (s i)) ((pressureL m.E m.v).comp (incrementL p)) inc := by
    have := (pressureL m.E m.v).hasFDerivAt.comp inc (hasFDerivAt_trial old.toVMState inc)
    refine this.congr_of_eventuallyEq (Filter.Eventually.of_forall fun i => ?_)
    exact (pressureL_apply _ _ _).symm
  have hPd : ∀ d, ((pressureL m.E m.v).comp (incrementL p)) d =
      bulk m.E m.v * tr6 (increment3D p d) := by
    intro d
    show pressureL m.E m.v (increment3D p d) = _
    rw [pressureL_apply, pressure_hooke hm.elastic]
  obtain ⟨x', hxd, hx'⟩ : ∃ x' : T2 p.dim →L[ℝ] ℝ, HasFDerivAt x x' inc ∧
      ∀ d, x' d = (J' d + m.etay * (bulk m.E m.v * tr6 (increment3D p d))) /
        (shear m.E m.v + bulk m.E m.v * m.etay * m.etaf + a * m.xi ^ 2) := by
    refine ⟨_, HasFDerivAt.mul_const ((hJd.fun_add (hP.const_mul m.etay)).sub_const
      (m.xi * (c0 + a * old.acc)))
      (shear m.E m.v + bulk m.E m.v * m.etaf * m.etay + m.xi ^ 2 * a)⁻¹, fun d => ?_⟩
    rw [← hPd]
    simp
    rw [show shear m.E m.v + bulk m.E m.v * m.etay * m.etaf + a * m.xi ^ 2 =
      shear m.E m.v + bulk m.E m.v * m.etaf * m.etay + m.xi ^ 2 * a by ring]
    field_simp
  obtain ⟨L, hL, hLd⟩ := hasFDerivAt_cone (J := fun i => sqrtJ2 (s i)) (shear m.E m.v)
    (bulk m.E m.v * m.etaf) (show sqrtJ2 (s inc) ≠ 0 by rw [hJv]; positivity) hP hJd hxd hs
  refine ⟨L, ?_, hLd, hM⟩
  intro d k
  have hdk : ((devHookeL (lame m.E m.v) (shear m.E m.v)).comp (incrementL p)) d k =
      2 * shear m.E m.v * dev6 (increment3D p d) k := congrFun (dev6_hooke6 _ _ _) k
  have hsk : dev6 (s inc) k = 2 * shear m.E m.v * dev6 e k := congrFun (dev6_hooke6 _ _ _) k
  have hD' : shear m.E m.v + bulk m.E m.v * m.etay * m.etaf + a * m.xi ^ 2 ≠ 0 := by positivity
  rw [hL, hPd, hx', hJ', hdk, hsk, hJv]
  exact cone_algebra hr hr0 hG.ne' hM.ne' hD'

theorem continuous_hookeTrial {p : PType} (E v : ℝ) (old : VMState p) :
    Continuous fun i => hooke6 (lame E v) (shear E v) (trial3D old i) :=
  (hookeL (lame E v) (shear E v)).continuous.comp
    (continuous_iff_continuousAt.mpr fun i => (hasFDerivAt_trial old i).continuousAt)

theorem continuous_sqrtJ2 : Continuous sqrtJ2 := by
  unfold sqrtJ2 norm6
  refine Continuous.div_const (Real.continuous_sqrt.comp ?_) _
  refine continuous_finsetSum _ fun k _ => Continuous.pow ?_ 2
  simp only [dev6, tr6]
  fun_prop

theorem continuous_dpYield (m : DPParams) (c : ℝ) : Continuous fun s => dpYield m s c := by
  unfold dpYield
  refine (continuous_sqrtJ2.add (continuous_const.mul ?_)).sub continuous_const
  unfold pressure6 tr6
  fun_prop

theorem continuous_trialYield {p : PType} (m : DPParams) (old : DPState p) (c : ℝ) :
    Continuous fun i => dpYield m
      (hooke6 (lame m.E m.v) (shear m.E m.v) (trial3D old.toVMState i)) c :=
  (continuous_dpYield m c).comp (continuous_hookeTrial m.E m.v old.toVMState)

theorem continuous_coneRest {p : PType} (m : DPParams) (c0 a : ℝ) (old : DPState p) :
    Continuous (coneRest m c0 a old) := by
  unfold coneRest
  refine (continuous_sqrtJ2.comp (continuous_hookeTrial m.E m.v old.toVMState)).sub ?_
  exact continuous_const.mul ((continuous_trialYield m old _).div_const _)

theorem dp_elastic {p : PType} {m : DPParams} {law : HardLaw} {inc : T2 p.dim} {old : DPState p}
    (h : DPTrialElastic m law old inc) :
    ∃ new, dpUpdate p m law inc old =
      (.good new, some (to2DM p (kel66 (isoTensor (lame m.E m.v) (shear m.E m.v))))) ∧
      new.isPlast = false ∧
      new.stress = to2D p (hooke6 (lame m.E m.v) (shear m.E m.v) (trial3D old.toVMState inc)) := by
  cases hu : dpUpdate p m law inc old with
  | mk st T =>
    cases st with
    | nan s =>
      exact absurd h (C36_failure_iff.mp ⟨s, T, hu⟩).1
    | good new =>
      have hpl := (C36_elastic_step hu).1.mpr h
      obtain ⟨r, hr, -, h2, h3, h4, h5, -, -, hT⟩ := dpUpdate_good hu
      rcases dpReturn_cases hr with ⟨hp', -, -, -, hst, -, ht⟩ | ⟨hp', -⟩ | ⟨hp', -⟩
      · have hss : new.stress = to2D p (stress3D new.toVMState) := by rw [stress3D, to2D_to3D]
        exact ⟨new, by rw [hT, ht], hpl, by rw [hss, h2, hst]⟩
      · rw [← h4, hpl] at hp'; cases hp'
      · rw [← h4, hpl] at hp'; cases hp'

/-! ### C85 -/

/-- C85a: for every cohesion law, if the trial stress is strictly below the yield tolerance the
tangent returned by the Drucker-Prager state update is the derivative of the updated stress with
respect to the strain increment. -/
theorem C85_elastic {p : PType} {m : DPParams} {law : HardLaw} {inc : T2 p.dim} {old : DPState p}
    (h : DPStrictlyElastic m law old inc) :
    ∃ new T, dpUpdate p m law inc old = (.good new, some T) ∧
      updatedStressDP p m law old inc = new.stress ∧
      IsTangent p (updatedStressDP p m law old) T inc := by
  have hel : DPTrialElastic m law old inc := le_of_lt h
  obtain ⟨new, hu, -, -⟩ := dp_elastic hel
  refine ⟨new, _, hu, by simp only [updatedStressDP, hu], ?_⟩
  have hev : ∀ᶠ i in 𝓝 inc, DPTrialElastic m law old i := by
    filter_upwards [(continuous_trialYield m old (law old.acc).1).continuousAt.eventually_lt_const h]
      with i hi
    exact le_of_lt hi
  have hR : HasFDerivAt (fun i => hooke6 (lame m.E m.v) (shear m.E m.v) (trial3D old.toVMState i))
      ((hookeL (lame m.E m.v) (shear m.E m.v)).comp (incrementL p)) inc :=
    (hookeL (lame m.E m.v) (shear m.E m.v)).hasFDerivAt.comp inc
      (hasFDerivAt_trial old.toVMState inc)
  obtain ⟨L, hL, hd⟩ := isTangent_of_3D (M := kel66 (isoTensor (lame m.E m.v) (shear m.E m.v))) hR
    (fun d k => by rw [mv6_iso]; rfl)
  refine ⟨L, hL, hd.congr_of_eventuallyEq ?_⟩
  filter_upwards [hev] with i hi
  obtain ⟨s, hs, -, hst⟩ := dp_elastic hi
  simp only [updatedStressDP, hs, hst]

/-- With linear cohesion hardening plastic steps stay plastic for nearby increments. -/
theorem dp_plastic_near {p : PType} {m : DPParams} {law : HardLaw} {inc : T2 p.dim}
    {old : DPState p} (hne : ¬ DPTrialElastic m law old inc) :
    ∀ᶠ i in 𝓝 inc, ¬ DPTrialElastic m law old i := by
  filter_upwards [(continuous_trialYield m old (law old.acc).1).continuousAt.eventually_const_lt
    (not_le.mp hne)] with i hi
  exact not_le.mpr hi

/-- C85b: with linear cohesion hardening (nonnegative slope) and frictional parameters the tangent
returned by a return to the apex is the derivative of the updated stress with respect to the strain
increment. -/
theorem C85_apex {p : PType} {m : DPParams} (hm : Frictional m) {c0 a : ℝ} (ha : 0 ≤ a)
    {inc : T2 p.dim} {old : DPState p} (hacc : 0 ≤ old.acc)
    (hne : ¬ DPTrialElastic m (linearHardening c0 a) old inc)
    (hrest : coneRest m c0 a old inc < 0) :
    ∃ new T, dpUpdate p m (linearHardening c0 a) inc old = (.good new, some T) ∧
      new.isApex = true ∧ updatedStressDP p m (linearHardening c0 a) old inc = new.stress ∧
      IsTangent p (updatedStressDP p m (linearHardening c0 a) old) T inc := by
  have hK := hm.elastic.bulk_pos
  have h1 := hm.xi; have h2 := hm.etay; have h3 := hm.etaf
  obtain ⟨new, hu, -, hap, -⟩ := dpTangent_of_apex hm ha hacc hne hrest
  refine ⟨new, _, hu, hap, by simp only [updatedStressDP, hu], ?_⟩
  have hP : HasFDerivAt (fun i => pressure6 (hooke6 (lame m.E m.v) (shear m.E m.v)
      (trial3D old.toVMState i))) ((pressureL m.E m.v).comp (incrementL p)) inc := by
    have := (pressureL m.E m.v).hasFDerivAt.comp inc (hasFDerivAt_trial old.toVMState inc)
    refine this.congr_of_eventuallyEq (Filter.Eventually.of_forall fun i => ?_)
    exact (pressureL_apply _ _ _).symm
  have hk : ∀ k, HasFDerivAt (fun i => (pressure6 (hooke6 (lame m.E m.v) (shear m.E m.v)
      (trial3D old.toVMState i)) - bulk m.E m.v *
        ((pressure6 (hooke6 (lame m.E m.v) (shear m.E m.v) (trial3D old.toVMState i)) -
          m.xi / m.etay * (c0 + a * old.acc)) /
          (bulk m.E m.v + m.xi / m.etaf * (m.xi / m.etay) * a))) * one6 k) _ inc := fun k =>
    HasFDerivAt.mul_const (hP.fun_sub (HasFDerivAt.const_mul (HasFDerivAt.mul_const
      (hP.sub_const (m.xi / m.etay * (c0 + a * old.acc)))
      (bulk m.E m.v + m.xi / m.etaf * (m.xi / m.etay) * a)⁻¹) (bulk m.E m.v))) (one6 k)
  have hso : ∀ k, kel6 (getIdOperators 3).soid k = one6 k := fun k => congrFun soid6_eq k
  obtain ⟨L, hL, hd⟩ := isTangent_of_3D (M := kel66 (dpApexTangent m a)) (hasFDerivAt_pi.mpr hk)
    (fun d k => by
      have hPd : pressureL m.E m.v (incrementL p d) = bulk m.E m.v * tr6 (increment3D p d) := by
        show pressureL m.E m.v (increment3D p d) = _
        rw [pressureL_apply, pressure_hooke hm.elastic]
      have hap : mv6 (kel66 (dpApexTangent m a)) (increment3D p d) k =
          bulk m.E m.v * (1 - bulk m.E m.v / (bulk m.E m.v + m.xi / m.etaf * (m.xi / m.etay) * a)) *
            (one6 k * tr6 (increment3D p d)) := by
        have hlin : ∀ (c : ℝ) (A : T4 3), mv6 (kel66 fun i j k l => c * A i j k l)
            (increment3D p d) k = c * mv6 (kel66 A) (increment3D p d) k := by
          intro c A
          simp only [mv6, kel66, Finset.mul_sum]
          exact Finset.sum_congr rfl fun j _ => by ring
        refine (hlin _ _).trans ?_
        rw [mv6_dyad_kel, hso, ← sum_one6]
        simp only [hso]
        rfl
      rw [hap]
      simp [hPd]
      rw [div_eq_mul_inv (bulk m.E m.v)]
      ring)
  refine ⟨L, hL, hd.congr_of_eventuallyEq ?_⟩
  filter_upwards [dp_plastic_near hne,
    (continuous_coneRest m c0 a old).continuousAt.eventually_lt_const hrest] with i hi hi2
  obtain ⟨s, hs, -, -, hst⟩ := dpTangent_of_apex hm ha hacc hi hi2
  simp only [updatedStressDP, hs, hst]

/-- The updated stress near a return to the cone. -/
theorem cone_near {p : PType} {m : DPParams} (hm : Frictional m) {c0 a : ℝ} (ha : 0 ≤ a)
    {inc : T2 p.dim} {old : DPState p} (hacc : 0 ≤ old.acc)
    (hne : ¬ DPTrialElastic m (linearHardening c0 a) old inc)
    (hrest : 0 < coneRest m c0 a old inc)
    (hJ : 1e-8 < sqrtJ2 (hooke6 (lame m.E m.v) (shear m.E m.v) (trial3D old.toVMState inc))) :
    ∀ᶠ i in 𝓝 inc, updatedStressDP p m (linearHardening c0 a) old i =
      to2D p (fun k => (pressure6 (hooke6 (lame m.E m.v) (shear m.E m.v) (trial3D old.toVMState i)) -
        bulk m.E m.v * m.etaf * coneMultiplier m a (dpYield m (hooke6 (lame m.E m.v) (shear m.E m.v)
          (trial3D old.toVMState i)) (c0 + a * old.acc))) * one6 k +
        (1 - shear m.E m.v * coneMultiplier m a (dpYield m (hooke6 (lame m.E m.v) (shear m.E m.v)
          (trial3D old.toVMState i)) (c0 + a * old.acc)) /
          sqrtJ2 (hooke6 (lame m.E m.v) (shear m.E m.v) (trial3D old.toVMState i))) *
          dev6 (hooke6 (lame m.E m.v) (shear m.E m.v) (trial3D old.toVMState i)) k) := by
  filter_upwards [dp_plastic_near hne,
    (continuous_coneRest m c0 a old).continuousAt.eventually_const_lt hrest,
    (continuous_sqrtJ2.comp (continuous_hookeTrial m.E m.v
      old.toVMState)).continuousAt.eventually_const_lt hJ] with i hi hi2 hi3
  obtain ⟨s, hs, -, -, hst⟩ := dpTangent_of_cone hm ha hacc hi hi2.le
  have hi3' : sqrtJ2 (hooke6 (lame m.E m.v) (shear m.E m.v) (trial3D old.toVMState i)) > suSmall :=
    hi3
  simp only [updatedStressDP, hs, hst, if_pos hi3']

theorem dpNormDiv_iff {e : V6} (hM : 0 < norm6 (dev6 e)) :
    dpNormDiv e = 1 / norm6 (dev6 e) ↔ tr6 e = 0 ∧ 1e-8 < norm6 e := by
  have hne := norm6_dev e
  have hn := norm6_nonneg e
  have hs : suSmall = 1e-8 := rfl
  constructor
  · intro h
    unfold dpNormDiv at h
    split at h
    · rename_i hgt
      have hpos : 0 < norm6 e := lt_trans (by rw [hs]; norm_num) hgt
      have heq : norm6 e = norm6 (dev6 e) := by
        rw [div_eq_div_iff hpos.ne' hM.ne'] at h
        linarith
      rw [heq] at hne
      exact ⟨by
        have : tr6 e ^ 2 = 0 := by linarith
        exact pow_eq_zero_iff (two_ne_zero) |>.mp this, hgt⟩
    · exact absurd h.symm (by positivity)
  · rintro ⟨ht, hgt⟩
    rw [ht] at hne
    have heq : norm6 e = norm6 (dev6 e) := by
      have h2 : norm6 e ^ 2 = norm6 (dev6 e) ^ 2 := by rw [hne]; ring
      exact (pow_left_inj₀ hn hM.le two_ne_zero).mp h2
    rw [dpNormDiv, if_pos (show norm6 e > suSmall from hgt), heq]

/-- C85c: with linear cohesion hardening and frictional parameters, in a return to the cone from an
elastic trial strain without volumetric part the returned tangent is the derivative of the updated
stress with respect to the strain increment. -/
theorem C85_cone {p : PType} {m : DPParams} (hm : Frictional m) {c0 a : ℝ} (ha : 0 ≤ a)
    {inc : T2 p.dim} {old : DPState p} (hacc : 0 ≤ old.acc)
    (hne : ¬ DPTrialElastic m (linearHardening c0 a) old inc)
    (hrest : 0 < coneRest m c0 a old inc)
    (hJ : 1e-8 < sqrtJ2 (hooke6 (lame m.E m.v) (shear m.E m.v) (trial3D old.toVMState inc)))
    (ht : tr6 (trial3D old.toVMState inc) = 0) (hn : 1e-8 < norm6 (trial3D old.toVMState inc)) :
    ∃ new T, dpUpdate p m (linearHardening c0 a) inc old = (.good new, some T) ∧
      new.isPlast = true ∧ new.isApex = false ∧
      updatedStressDP p m (linearHardening c0 a) old inc = new.stress ∧
      IsTangent p (updatedStressDP p m (linearHardening c0 a) old) T inc := by
  obtain ⟨new, hu, hpl, hap, -⟩ := dpTangent_of_cone hm ha hacc hne hrest.le
  refine ⟨new, _, hu, hpl, hap, by simp only [updatedStressDP, hu], ?_⟩
  obtain ⟨L, hL, hLd, hM⟩ := cone_derivative (c0 := c0) hm ha (lt_trans (by norm_num) hJ)
  have hN := (dpNormDiv_iff hM).mpr ⟨ht, hn⟩
  obtain ⟨L', hL', hd'⟩ := isTangent_of_3D (M := kel66 (dpConeTangent m (trial3D old.toVMState inc)
      (coneMultiplier m a (dpYield m (hooke6 (lame m.E m.v) (shear m.E m.v)
        (trial3D old.toVMState inc)) (c0 + a * old.acc))) a)) hLd
    (fun d k => by rw [hL, mv6_coneTangent, hN])
  exact ⟨L', hL', hd'.congr_of_eventuallyEq (cone_near hm ha hacc hne hrest hJ)⟩

theorem cone_direction {A A' B B' c ef N M d0 d1 d2 y y' z0 z1 z2 : ℝ} (hM : 0 < M)
    (hc : 0 < c * ef) (hz : d0 + d1 + d2 = 0)
    (h0 : A * d0 + B * (N * d0 * (N * M ^ 2)) - c * (y * (N * d0 * 0) + ef * (1 * (N * M ^ 2))) +
      z0 * (1 * 0) = A' * d0 + B' * (1 / M * d0 * (1 / M * M ^ 2)) -
        c * (y' * (1 / M * d0 * 0) + ef * (1 * (1 / M * M ^ 2))) + z0 * (1 * 0))
    (h1 : A * d1 + B * (N * d1 * (N * M ^ 2)) - c * (y * (N * d1 * 0) + ef * (1 * (N * M ^ 2))) +
      z1 * (1 * 0) = A' * d1 + B' * (1 / M * d1 * (1 / M * M ^ 2)) -
        c * (y' * (1 / M * d1 * 0) + ef * (1 * (1 / M * M ^ 2))) + z1 * (1 * 0))
    (h2 : A * d2 + B * (N * d2 * (N * M ^ 2)) - c * (y * (N * d2 * 0) + ef * (1 * (N * M ^ 2))) +
      z2 * (1 * 0) = A' * d2 + B' * (1 / M * d2 * (1 / M * M ^ 2)) -
        c * (y' * (1 / M * d2 * 0) + ef * (1 * (1 / M * M ^ 2))) + z2 * (1 * 0)) :
    N = 1 / M := by
  have hMi : 1 / M * M = 1 := by field_simp
  generalize 1 / M = n at *
  have key : (c * ef * M ^ 2) * (N - n) = 0 := by
    linear_combination (-1 / 3) * (h0 + h1 + h2) +
      (1 / 3) * (A + B * N ^ 2 * M ^ 2 - A' - B' * n ^ 2 * M ^ 2) * hz
  have : c * ef * M ^ 2 ≠ 0 := by positivity
  have := (mul_eq_zero.mp key).resolve_left this
  linarith

/-- C85d: the claim is false for every return to the cone from an elastic trial strain with a
volumetric part (3D, linear cohesion hardening, frictional parameters): the returned tangent is not
the derivative of the updated stress. -/
theorem C85_cone_violated {m : DPParams} (hm : Frictional m) {c0 a : ℝ} (ha : 0 ≤ a)
    {inc : T2 3} {old : DPState .solid} (hacc : 0 ≤ old.acc)
    (hne : ¬ DPTrialElastic m (linearHardening c0 a) old inc)
    (hrest : 0 < coneRest m c0 a old inc)
    (hJ : 1e-8 < sqrtJ2 (hooke6 (lame m.E m.v) (shear m.E m.v) (trial3D old.toVMState inc)))
    (ht : tr6 (trial3D old.toVMState inc) ≠ 0) :
    ∃ new T, dpUpdate .solid m (linearHardening c0 a) inc old = (.good new, some T) ∧
      new.isPlast = true ∧ new.isApex = false ∧
      ¬ IsTangent .solid (updatedStressDP .solid m (linearHardening c0 a) old) T inc := by
  obtain ⟨new, hu, hpl, hap, -⟩ := dpTangent_of_cone hm ha hacc hne hrest.le
  refine ⟨new, _, hu, hpl, hap, ?_⟩
  rintro ⟨L2, hL2, hd2⟩
  obtain ⟨L, hL, hLd, hM⟩ := cone_derivative (c0 := c0) hm ha (lt_trans (by norm_num) hJ)
  have hd1 : HasFDerivAt (updatedStressDP .solid m (linearHardening c0 a) old) L inc :=
    hLd.congr_of_eventuallyEq (cone_near hm ha hacc hne hrest hJ)
  have hEq : L2 = L := hd2.unique hd1
  set e := trial3D old.toVMState inc with he
  -- the direction of the trial deviator
  have hK := hm.elastic.bulk_pos; have hG := hm.elastic.shear_pos
  have h1 := hm.xi; have h2 := hm.etay; have h3 := hm.etaf
  have hinc : increment3D .solid (unkel6 (dev6 e)) = dev6 e := kel6_unkel6 _
  have hdot : ∑ j, dev6 e j * dev6 e j = norm6 (dev6 e) ^ 2 := by
    rw [norm6, Real.sq_sqrt (Finset.sum_nonneg fun _ _ => sq_nonneg _)]
    exact Finset.sum_congr rfl fun j _ => by ring
  have key : ∀ k, mv6 (kel66 (dpConeTangent m e (coneMultiplier m a (dpYield m
      (hooke6 (lame m.E m.v) (shear m.E m.v) e) (c0 + a * old.acc))) a)) (dev6 e) k =
      L (unkel6 (dev6 e)) k := by
    intro k
    rw [← hEq]
    have := hL2 (unkel6 (dev6 e)) k
    refine Eq.trans ?_ this.symm
    have hmf : mf .solid (unkel6 (dev6 e)) = dev6 e := kel6_unkel6 _
    rw [hmf]
    rfl
  have hs : ∀ k, _ := fun k => (key k).trans (hL (unkel6 (dev6 e)) k)
  simp only [mv6_coneTangent, hinc, tr6_dev6, hdot, dev6_dev6] at hs
  have hsum : ∀ w : V6, w 0 + w 1 + w 2 = tr6 w := fun _ => rfl
  have hz : dev6 e 0 + dev6 e 1 + dev6 e 2 = 0 := tr6_dev6 e
  have ho : (one6 0 : ℝ) = 1 ∧ (one6 1 : ℝ) = 1 ∧ (one6 2 : ℝ) = 1 := by simp [one6]
  have k0 := hs 0; have k1 := hs 1; have k2 := hs 2
  rw [ho.1] at k0; rw [ho.2.1] at k1; rw [ho.2.2] at k2
  have hN : dpNormDiv e = 1 / norm6 (dev6 e) := by
    refine cone_direction (c := √2 * shear m.E m.v * (1 / (shear m.E m.v +
      bulk m.E m.v * m.etay * m.etaf + a * m.xi ^ 2)) * bulk m.E m.v) (ef := m.etaf) hM ?_ hz
      k0 k1 k2
    positivity
  exact ht ((dpNormDiv_iff hM).mp hN).1

/-! ### Non-vacuity: `E = 1`, `ν = 0`, `ξ = η = η̄ = 1`, cohesion `1 + acc` -/

/-- Shear strain increment `d` with a hydrostatic part `t`. -/
def mixedInc (d t : ℝ) : T2 3 := fun i j => shearInc d i j + hydroInc t i j

theorem mixed_trial (d t : ℝ) : hooke6 (lame 1 0) (shear 1 0)
    (trial3D (dpInit .solid).toVMState (mixedInc d t)) = ![t, t, t, √2 * d, 0, 0] := by
  funext k
  fin_cases k <;>
    simp [hooke6, lame, shear, trial3D, elastic3D, increment3D, dpInit, vmInit, to3D, mf, kel6,
      mixedInc, shearInc, hydroInc, one6, tr6, ci, cj, kf]
  ring

theorem tr6_mixed_trial (d t : ℝ) :
    tr6 (trial3D (dpInit .solid).toVMState (mixedInc d t)) = 3 * t := by
  simp [trial3D, elastic3D, increment3D, dpInit, vmInit, to3D, mf, kel6,
      mixedInc, shearInc, hydroInc, tr6, ci, cj, kf]
  ring

theorem sqrtJ2_mixed {d : ℝ} (hd : 0 ≤ d) (t : ℝ) : sqrtJ2 ![t, t, t, √2 * d, 0, 0] = d := by
  have hn : norm6 (dev6 ![t, t, t, √2 * d, 0, 0]) = √2 * d := by
    unfold norm6
    rw [show ∑ k, dev6 ![t, t, t, √2 * d, 0, 0] k ^ 2 = (√2 * d) ^ 2 by
      simp [Fin.sum_univ_six, dev6, tr6, one6]; ring, Real.sqrt_sq (by positivity)]
  rw [sqrtJ2, hn]
  field_simp

theorem dpYield_mixed {d : ℝ} (hd : 0 ≤ d) (t c : ℝ) :
    dpYield dpOne ![t, t, t, √2 * d, 0, 0] c = d + t - c := by
  rw [dpYield, sqrtJ2_mixed hd]
  simp [dpOne, pressure6, tr6]
  ring

theorem mixed_plastic {d t : ℝ} (hd : 0 ≤ d) (h : 2 ≤ d + t) :
    ¬ DPTrialElastic dpOne (linearHardening 1 1) (dpInit .solid) (mixedInc d t) := by
  have hE : dpOne.E = 1 := rfl
  have hv : dpOne.v = 0 := rfl
  have hacc : (dpInit .solid).acc = 0 := rfl
  unfold DPTrialElastic
  rw [hacc, linear_nonneg le_rfl, hE, hv, mixed_trial]
  simp only [mul_zero, add_zero, dpYield_mixed hd, cohesionTol]
  norm_num
  linarith

theorem mixed_rest {d : ℝ} (hd : 0 ≤ d) (t : ℝ) :
    coneRest dpOne 1 1 (dpInit .solid) (mixedInc d t) = d - 3 / 11 * (d + t - 1) := by
  have hE : dpOne.E = 1 := rfl
  have hv : dpOne.v = 0 := rfl
  have hacc : (dpInit .solid).acc = 0 := rfl
  unfold coneRest
  rw [hE, hv, hacc, mixed_trial]
  simp only [mul_zero, add_zero, dpYield_mixed hd, sqrtJ2_mixed hd]
  norm_num [shear, bulk, dpOne]
  ring

theorem norm6_mixed_trial {d t : ℝ} (hd : 1 ≤ d) :
    1e-8 < norm6 (trial3D (dpInit .solid).toVMState (mixedInc d t)) := by
  unfold norm6
  rw [show ∑ k, trial3D (dpInit .solid).toVMState (mixedInc d t) k ^ 2 = 3 * t ^ 2 + 2 * d ^ 2 by
    have h2 : √(2 : ℝ) ^ 2 = 2 := Real.sq_sqrt (by norm_num)
    simp [trial3D, elastic3D, increment3D, dpInit, vmInit, to3D, mf, kel6,
      mixedInc, shearInc, hydroInc, Fin.sum_univ_six, ci, cj, kf]
    linear_combination d ^ 2 * h2]
  refine Real.lt_sqrt_of_sq_lt ?_
  nlinarith [sq_nonneg t]

/-- hypotheses of C85a are met -/
example : DPStrictlyElastic dpOne (linearHardening 1 1) (dpInit .solid) (mixedInc (1 / 4) (1 / 4)) := by
  have hE : dpOne.E = 1 := rfl
  have hv : dpOne.v = 0 := rfl
  have hacc : (dpInit .solid).acc = 0 := rfl
  unfold DPStrictlyElastic
  rw [hacc, linear_nonneg le_rfl, hE, hv, mixed_trial]
  simp only [mul_zero, add_zero, dpYield_mixed (show (0:ℝ) ≤ 1 / 4 by norm_num), cohesionTol]
  norm_num

/-- a return to the apex with a consistent tangent -/
example : ∃ new T, dpUpdate .solid dpOne (linearHardening 1 1) (mixedInc 0 3) (dpInit .solid) =
    (.good new, some T) ∧ new.isApex = true ∧
    IsTangent .solid (updatedStressDP .solid dpOne (linearHardening 1 1) (dpInit .solid)) T
      (mixedInc 0 3) := by
  obtain ⟨new, T, h1, h2, -, h3⟩ := C85_apex frictional_one (c0 := 1) zero_le_one le_rfl
    (mixed_plastic (d := 0) (t := 3) le_rfl (by norm_num))
    (by rw [mixed_rest le_rfl]; norm_num)
  exact ⟨new, T, h1, h2, h3⟩

/-- a return to the cone without volumetric strain and a consistent tangent -/
example : ∃ new T, dpUpdate .solid dpOne (linearHardening 1 1) (mixedInc 3 0) (dpInit .solid) =
    (.good new, some T) ∧ new.isApex = false ∧
    IsTangent .solid (updatedStressDP .solid dpOne (linearHardening 1 1) (dpInit .solid)) T
      (mixedInc 3 0) := by
  have hE : dpOne.E = 1 := rfl
  have hv : dpOne.v = 0 := rfl
  obtain ⟨new, T, h1, -, h2, -, h3⟩ := C85_cone frictional_one (c0 := 1) zero_le_one le_rfl
    (mixed_plastic (d := 3) (t := 0) (by norm_num) (by norm_num))
    (by rw [mixed_rest (by norm_num)]; norm_num)
    (by rw [hE, hv, mixed_trial, sqrtJ2_mixed (by norm_num)]; norm_num)
    (by rw [tr6_mixed_trial]; norm_num) (norm6_mixed_trial (by norm_num))
  exact ⟨new, T, h1, h2, h3⟩

/-- a return to the cone whose tangent is wrong -/
example : ∃ new T, dpUpdate .solid dpOne (linearHardening 1 1) (mixedInc 3 1) (dpInit .solid) =
    (.good new, some T) ∧ new.isPlast = true ∧ new.isApex = false ∧
    ¬ IsTangent .solid (updatedStressDP .solid dpOne (linearHardening 1 1) (dpInit .solid)) T
      (mixedInc 3 1) := by
  have hE : dpOne.E = 1 := rfl
  have hv : dpOne.v = 0 := rfl
  exact C85_cone_violated frictional_one (c0 := 1) zero_le_one le_rfl
    (mixed_plastic (d := 3) (t := 1) (by norm_num) (by norm_num))
    (by rw [mixed_rest (by norm_num)]; norm_num)
    (by rw [hE, hv, mixed_trial, sqrtJ2_mixed (by norm_num)]; norm_num)
    (by rw [tr6_mixed_trial]; norm_num)

end Hooke
