import Verif.Spec.ConsistentTangentVMAP
import Verif.Props.ConsistentTangentDP
import Verif.Props.DruckerPragerVMAP
import Verif.Props.VonMisesVMAP
import Mathlib.Algebra.Order.Chebyshev

/-! # C94: tangents of the batched von Mises and Drucker-Prager state updates -/

noncomputable section

namespace Hooke

open Spec
open scoped Topology

theorem abs_le_norm6 (v : V6) (k : Fin 6) : |v k| ≤ norm6 v := by
  unfold norm6
  refine Real.abs_le_sqrt ?_
  exact Finset.single_le_sum (f := fun k => v k ^ 2) (fun _ _ => sq_nonneg _) (Finset.mem_univ k)

theorem abs_dot_le (u v : V6) : |∑ j, u j * v j| ≤ norm6 u * norm6 v := by
  unfold norm6
  rw [← Real.sqrt_mul (Finset.sum_nonneg fun _ _ => sq_nonneg _)]
  exact Real.abs_le_sqrt (Finset.sum_mul_sq_le_sq_mul_sq _ _ _)

theorem norm6_dev_le (d : V6) : norm6 (dev6 d) ≤ norm6 d := by
  have h := norm6_dev d
  have h2 : norm6 (dev6 d) ^ 2 ≤ norm6 d ^ 2 := by nlinarith [sq_nonneg (tr6 d)]
  exact (pow_le_pow_iff_left₀ (norm6_nonneg _) (norm6_nonneg _) two_ne_zero).mp h2

theorem abs_tr6_le (d : V6) : |tr6 d| ≤ 2 * norm6 d := by
  refine abs_le_of_sq_le_sq ?_ (by have := norm6_nonneg d; linarith)
  rw [mul_pow]
  unfold norm6
  rw [Real.sq_sqrt (Finset.sum_nonneg fun _ _ => sq_nonneg _), Fin.sum_univ_six]
  simp only [tr6]
  nlinarith [sq_nonneg (d 0 - d 1), sq_nonneg (d 1 - d 2), sq_nonneg (d 0 - d 2), sq_nonneg (d 3),
    sq_nonneg (d 4), sq_nonneg (d 5), sq_nonneg (d 0), sq_nonneg (d 1), sq_nonneg (d 2)]

theorem abs_one6_le (k : Fin 6) : |one6 k| ≤ 1 := by fin_cases k <;> simp [one6]

theorem to2D_abs_le {p : PType} {u : V6} {C : ℝ} (h : ∀ k, |u k| ≤ C) (i : Fin p.len) :
    |to2D p u i| ≤ C := by
  cases p
  · fin_cases i
    · exact h 0
    · exact h 1
    · exact h 3
  · exact h i

/-- The three-dimensional bound gives that of the problem type. -/
theorem isTangentWithin_of_3D {p : PType} {R : T2 p.dim → V6} {L : T2 p.dim →L[ℝ] V6} {M : M6}
    {inc : T2 p.dim} {C : ℝ} (hR : HasFDerivAt R L inc)
    (hL : ∀ d k, |mv6 M (increment3D p d) k - L d k| ≤ C * norm6 (increment3D p d)) :
    IsTangentWithin p (fun i => to2D p (R i)) (to2DM p M) inc C := by
  refine ⟨(to2DL p).comp L, (to2DL p).hasFDerivAt.comp inc hR, fun d i => ?_⟩
  rw [← to2D_mv6 p M (mf p d) i]
  have h : to2D p (mv6 M (to3D p (mf p d) 0)) i - ((to2DL p).comp L) d i =
      to2D p (fun k => mv6 M (increment3D p d) k - L d k) i := by
    have : (fun k => mv6 M (increment3D p d) k - L d k) =
        mv6 M (increment3D p d) + (-1 : ℝ) • L d := by
      funext k; simp; ring
    rw [this]
    have h2 : to2D p (mv6 M (increment3D p d) + (-1 : ℝ) • L d) =
        to2DL p (mv6 M (increment3D p d)) + (-1 : ℝ) • to2DL p (L d) := by
      rw [← (to2DL p).map_smul, ← (to2DL p).map_add]; rfl
    rw [h2]
    simp only [Pi.add_apply, Pi.smul_apply, smul_eq_mul]
    show _ = to2D p (mv6 M (increment3D p d)) i + -1 * to2D p (L d) i
    have h3 : ((to2DL p).comp L) d i = to2D p (L d) i := rfl
    rw [h3]
    have h4 : to3D p (mf p d) 0 = increment3D p d := rfl
    rw [h4]; ring
  rw [h]
  exact to2D_abs_le (hL d) i

/-! ### Drucker-Prager -/

theorem sum_sq_dev_eq (e : V6) : ∑ i, ∑ j, unkel6 (dev6 e) i j ^ 2 = norm6 (dev6 e) ^ 2 := by
  have := norm6_kel6 (unkel6_isSym (dev6 e))
  rw [kel6_unkel6] at this
  rw [this, frob, Real.sq_sqrt]
  exact Finset.sum_nonneg fun _ _ => Finset.sum_nonneg fun _ _ => sq_nonneg _

/-- The scaling of the unit direction in the batched cone tangent. -/
theorem dpVmapNormDiv_scale {e : V6} (hM : 6e-8 ≤ norm6 (dev6 e)) :
    ∃ κ, dpVmapNormDiv e = κ / norm6 (dev6 e) ∧ |κ - 1| ≤ 6e-8 / norm6 (dev6 e) := by
  set M := norm6 (dev6 e) with hMd
  have hM0 : 0 < M := lt_of_lt_of_le (by norm_num) hM
  set u := unkel6 (dev6 e) with hu
  have hs : suSmall = 1e-8 := rfl
  set S := ∑ i, ∑ j, (u i j + suSmall) ^ 2 with hS
  have h1 : ∑ i, ∑ j, u i j ^ 2 = M ^ 2 := sum_sq_dev_eq e
  have hlin : S = M ^ 2 + 2 * suSmall * (∑ i, ∑ j, u i j) + 9 * suSmall ^ 2 := by
    rw [← h1, hS]
    simp only [Fin.sum_univ_three]
    ring
  have hsum : (∑ i, ∑ j, u i j) ^ 2 ≤ 9 * M ^ 2 := by
    have c1 := sq_sum_le_card_mul_sum_sq (s := Finset.univ) (f := fun i => ∑ j, u i j)
    have c2 : ∀ i, (∑ j, u i j) ^ 2 ≤ 3 * ∑ j, u i j ^ 2 := fun i => by
      have := sq_sum_le_card_mul_sum_sq (s := Finset.univ) (f := fun j => u i j)
      simpa using this
    have c3 : ∑ i, (∑ j, u i j) ^ 2 ≤ ∑ i, 3 * ∑ j, u i j ^ 2 := Finset.sum_le_sum fun i _ => c2 i
    rw [← Finset.mul_sum, h1] at c3
    simp only [Finset.card_univ, Fintype.card_fin] at c1
    push_cast at c1
    linarith
  have habs : |∑ i, ∑ j, u i j| ≤ 3 * M := by
    refine abs_le_of_sq_le_sq ?_ (by linarith)
    nlinarith
  obtain ⟨hlo, hhi⟩ := abs_le.mp habs
  have hF : |√S - M| ≤ 3e-8 := by
    rw [abs_le]
    constructor
    · have : M - 3e-8 ≤ √S := by
        refine Real.le_sqrt_of_sq_le ?_
        rw [hlin, hs]; nlinarith
      linarith
    · have : √S ≤ M + 3e-8 := by
        rw [Real.sqrt_le_left (by linarith), hlin, hs]; nlinarith
      linarith
  obtain ⟨hF1, hF2⟩ := abs_le.mp hF
  have hS0 : 0 < √S := by linarith
  refine ⟨M / √S, ?_, ?_⟩
  · unfold dpVmapNormDiv
    simp only [mv6_devprojsym]
    rw [← hu, h1, Real.sqrt_sq hM0.le, if_pos (show M > suSmall by rw [hs]; linarith), ← hS]
    field_simp
  · rw [div_sub_one hS0.ne', abs_div, abs_of_pos hS0, div_le_div_iff₀ hS0 hM0]
    rw [abs_sub_comm]
    nlinarith [abs_nonneg (√S - M)]

theorem mv6_vmapConeTangent (m : DPParams) (e d : V6) (x H : ℝ) (k : Fin 6) :
    let N := dpVmapNormDiv e
    let s2 := 1 / (shear m.E m.v + bulk m.E m.v * m.etay * m.etaf + H * m.xi ^ 2)
    mv6 (kel66 (dpVmapConeTangent m e x H)) d k =
      2 * shear m.E m.v * (1 - N * (x / √2)) * dev6 d k +
      2 * shear m.E m.v * (N * (x / √2) - shear m.E m.v * s2) *
        (N * dev6 e k * (N * ∑ j, dev6 e j * d j)) -
      √2 * shear m.E m.v * s2 * bulk m.E m.v * (m.etay * (N * dev6 e k * tr6 d) +
        m.etaf * (one6 k * (N * ∑ j, dev6 e j * d j))) +
      bulk m.E m.v * (1 - bulk m.E m.v * m.etay * m.etaf * s2) * (one6 k * tr6 d) := by
  intro N s2
  have hso : ∀ k, kel6 (getIdOperators 3).soid k = one6 k := fun k => congrFun soid6_eq k
  have hun : ∀ k, kel6 (fun i j => dpVmapNormDiv e *
      unkel6 (mv6 (kel66 (getIdOperators 3).fodevprojsym) e) i j) k = N * dev6 e k := by
    intro k
    have h := congrFun (kel6_unkel6 (dev6 e)) k
    simp only [kel6] at h
    simp only [kel6, mv6_devprojsym, ← h]
    ring
  have hu : ∑ j, kel6 (fun i j => dpVmapNormDiv e *
      unkel6 (mv6 (kel66 (getIdOperators 3).fodevprojsym) e) i j) j * d j =
      N * ∑ j, dev6 e j * d j := by
    rw [Finset.mul_sum]
    exact Finset.sum_congr rfl fun j _ => by rw [hun]; ring
  have hs : ∑ j, kel6 (getIdOperators 3).soid j * d j = tr6 d := by
    rw [← sum_one6]
    exact Finset.sum_congr rfl fun j _ => by rw [hso]
  refine (mv6_lin5 _ _ _ _ _ _ _ _ _ _ _ _ _).trans ?_
  rw [mv6_devprojsym, mv6_dyad_kel, mv6_dyad_kel, mv6_dyad_kel, mv6_dyad_kel, hu, hs, hso, hun]
  rfl

/-- Effect of scaling the unit direction in the cone tangent. -/
theorem cone_slope_bound {G K ey ef κ ε r y g n P dv t o D : ℝ} (hG : 0 ≤ G) (hK : 0 ≤ K)
    (hey : 0 ≤ ey) (hef : 0 ≤ ef) (hε : |κ - 1| ≤ ε) (hε1 : ε ≤ 1) (hr0 : 0 ≤ r) (hr : r ≤ 3 / 2)
    (hy0 : 0 ≤ y) (hy1 : y ≤ 1) (hg0 : 0 ≤ g) (hg1 : g ≤ 1) (hD : 0 ≤ D) (hn : |n| ≤ 1)
    (hP : |P| ≤ D) (hdv : |dv| ≤ D) (ht : |t| ≤ 2 * D) (ho : |o| ≤ 1) :
    |2 * G * ((1 - κ) * y) * dv + 2 * G * (κ ^ 2 * (κ * y - g) - (y - g)) * (n * P) -
      r * g * K * (κ - 1) * (ey * (n * t) + ef * (o * P))| ≤
      (22 * G + 3 * K * (ey + ef)) * ε * D := by
  have hε0 : 0 ≤ ε := (abs_nonneg _).trans hε
  obtain ⟨k1, k2⟩ := abs_le.mp hε
  have hκ0 : 0 ≤ κ := by linarith
  have hκ2 : κ ≤ 2 := by linarith
  have a1 : |2 * G * ((1 - κ) * y) * dv| ≤ 2 * G * ε * D := by
    rw [abs_mul _ dv, abs_mul (2 * G), abs_mul (1 - κ), abs_of_nonneg (show 0 ≤ 2 * G by linarith),
      abs_of_nonneg hy0, abs_sub_comm]
    have : |κ - 1| * y ≤ ε * 1 := mul_le_mul hε hy1 hy0 hε0
    have h3 : 2 * G * (|κ - 1| * y) ≤ 2 * G * ε := by nlinarith
    exact mul_le_mul h3 hdv (abs_nonneg _) (by positivity)
  have a2 : |2 * G * (κ ^ 2 * (κ * y - g) - (y - g)) * (n * P)| ≤ 20 * G * ε * D := by
    rw [abs_mul _ (n * P), abs_mul (2 * G), abs_of_nonneg (show 0 ≤ 2 * G by linarith), abs_mul n]
    have e1 : |κ ^ 2 * (κ * y - g) - (y - g)| ≤ 10 * ε := by
      have : κ ^ 2 * (κ * y - g) - (y - g) =
          (κ - 1) * ((κ ^ 2 + κ + 1) * y) - (κ - 1) * ((κ + 1) * g) := by ring
      rw [this]
      refine (abs_sub _ _).trans ?_
      rw [abs_mul (κ - 1), abs_mul (κ - 1), abs_of_nonneg (show 0 ≤ (κ ^ 2 + κ + 1) * y by positivity),
        abs_of_nonneg (show 0 ≤ (κ + 1) * g by positivity)]
      have b1 : (κ ^ 2 + κ + 1) * y ≤ 7 := by
        have : κ ^ 2 + κ + 1 ≤ 7 := by nlinarith
        nlinarith [show 0 ≤ κ ^ 2 + κ + 1 by positivity]
      have b2 : (κ + 1) * g ≤ 3 := by nlinarith
      have c1 := mul_le_mul hε b1 (by positivity) hε0
      have c2 := mul_le_mul hε b2 (by positivity) hε0
      linarith
    have e2 : |n| * |P| ≤ D := by
      have := mul_le_mul hn hP (abs_nonneg _) zero_le_one
      linarith
    have e3 : 2 * G * |κ ^ 2 * (κ * y - g) - (y - g)| ≤ 20 * G * ε := by nlinarith
    exact mul_le_mul e3 e2 (by positivity) (by positivity)
  have a3 : |r * g * K * (κ - 1) * (ey * (n * t) + ef * (o * P))| ≤ 3 * K * (ey + ef) * ε * D := by
    rw [abs_mul, abs_mul _ (κ - 1), abs_of_nonneg (show 0 ≤ r * g * K by positivity)]
    have e1 : |ey * (n * t) + ef * (o * P)| ≤ 2 * D * (ey + ef) := by
      refine (abs_add_le _ _).trans ?_
      rw [abs_mul ey, abs_mul n, abs_mul ef, abs_mul o, abs_of_nonneg hey, abs_of_nonneg hef]
      have c1 := mul_le_mul hn ht (abs_nonneg _) zero_le_one
      have c2 := mul_le_mul ho hP (abs_nonneg _) zero_le_one
      nlinarith
    have e2 : r * g ≤ 3 / 2 := by nlinarith
    have e3 : r * g * K ≤ 3 / 2 * K := by nlinarith
    have e4 : r * g * K * |κ - 1| ≤ 3 / 2 * K * ε := mul_le_mul e3 hε (abs_nonneg _) (by positivity)
    have := mul_le_mul e4 e1 (abs_nonneg _) (by positivity)
    linarith
  refine (abs_sub _ _).trans ?_
  have := abs_add_le (2 * G * ((1 - κ) * y) * dv) (2 * G * (κ ^ 2 * (κ * y - g) - (y - g)) * (n * P))
  linarith

theorem dpVmap_of_cone {p : PType} {m : DPParams} (hm : Frictional m) {c0 a : ℝ} (ha : 0 ≤ a)
    {inc : T2 p.dim} {old : DPState p} (hacc : 0 ≤ old.acc) (hc : 1e-8 ≤ |c0 + a * old.acc|)
    (hne : ¬ DPTrialElastic m (linearHardening c0 a) old inc) (hrest : 0 ≤ coneRest m c0 a old inc) :
    ∃ new, dpVmapUpdate p m (linearHardening c0 a) inc old =
        (.good new, some (to2DM p (kel66 (dpVmapConeTangent m (trial3D old.toVMState inc)
          (coneMultiplier m a (dpYield m (hooke6 (lame m.E m.v) (shear m.E m.v)
            (trial3D old.toVMState inc)) (c0 + a * old.acc))) a)))) ∧
      new.isPlast = true ∧ new.isApex = false := by
  have hlaw := linear_nonneg (c0 := c0) (a := a) hacc
  have hel : ¬ bElastic m (linearHardening c0 a)
      (hooke6 (lame m.E m.v) (shear m.E m.v) (trial3D old.toVMState inc)) old.acc := fun h =>
    hne ((bElastic_iff (by rw [hlaw]; exact hc)).mp h)
  have hx := dpMaskResult_some.mpr (cone_linear10 hm ha hacc (batched_yield_nonneg hacc hel))
  have hr := (((dpVmapReturn_eq (m := m) (law := linearHardening c0 a)
    (eT := trial3D old.toVMState inc) (acc := old.acc)).2 hel).2 _ hx).1 hrest
  have htr : to3D p old.eStrain old.e33 + to3D p (mf p inc) 0 = trial3D old.toVMState inc := rfl
  unfold dpVmapUpdate
  simp only [htr, hr]
  exact ⟨_, rfl, rfl, rfl⟩

/-- The batched update stores the stress of the standard update. -/
theorem batched_stress_eq {p : PType} {m : DPParams} (hm : Frictional m) {c0 a : ℝ} (ha : 0 ≤ a)
    {inc : T2 p.dim} {old : DPState p} (hacc : 0 ≤ old.acc) (hc : 1e-8 ≤ |c0 + a * old.acc|)
    (hJ : DPTrialElastic m (linearHardening c0 a) old inc ∨ coneRest m c0 a old inc < 0 ∨
      1e-4 ≤ sqrtJ2 (hooke6 (lame m.E m.v) (shear m.E m.v) (trial3D old.toVMState inc))) :
    updatedStressBatchedDP p m (linearHardening c0 a) old inc =
      updatedStressDP p m (linearHardening c0 a) old inc := by
  obtain ⟨new, T, T', h1, h2, -⟩ := C87_linear_standard (c0 := c0) hm ha hacc hc hJ
  simp only [updatedStressBatchedDP, updatedStressDP, h1, h2]

/-! ### C94 -/

/-- C94a: for every cohesion law, if the cohesion is at least `1e-8` and the trial stress is strictly
below the yield tolerance, the tangent returned by the batched Drucker-Prager update is the
derivative of its updated stress with respect to the strain increment. -/
theorem C94_dp_elastic {p : PType} {m : DPParams} {law : HardLaw} {inc : T2 p.dim} {old : DPState p}
    (hc : 1e-8 ≤ |(law old.acc).1|) (h : DPStrictlyElastic m law old inc) :
    ∃ new T, dpVmapUpdate p m law inc old = (.good new, some T) ∧ new.isPlast = false ∧
      updatedStressBatchedDP p m law old inc = new.stress ∧
      IsTangent p (updatedStressBatchedDP p m law old) T inc := by
  have hstep : ∀ i, DPTrialElastic m law old i → ∃ new, dpVmapUpdate p m law i old =
      (.good new, some (to2DM p (kel66 (isoTensor (lame m.E m.v) (shear m.E m.v))))) ∧
      new.isPlast = false ∧
      new.stress = to2D p (hooke6 (lame m.E m.v) (shear m.E m.v) (trial3D old.toVMState i)) := by
    intro i hi
    have hel := (bElastic_iff (m := m) (law := law) (acc := old.acc)
      (s := hooke6 (lame m.E m.v) (shear m.E m.v) (trial3D old.toVMState i)) hc).mpr hi
    have hr := (dpVmapReturn_eq (m := m) (law := law)
      (eT := trial3D old.toVMState i) (acc := old.acc)).1 hel
    have htr : to3D p old.eStrain old.e33 + to3D p (mf p i) 0 = trial3D old.toVMState i := rfl
    unfold dpVmapUpdate
    simp only [htr, hr]
    exact ⟨_, rfl, rfl, rfl⟩
  obtain ⟨new, hu, hp, -⟩ := hstep inc (le_of_lt h)
  refine ⟨new, _, hu, hp, by simp only [updatedStressBatchedDP, hu], ?_⟩
  have hR : HasFDerivAt (fun i => hooke6 (lame m.E m.v) (shear m.E m.v) (trial3D old.toVMState i))
      ((hookeL (lame m.E m.v) (shear m.E m.v)).comp (incrementL p)) inc :=
    (hookeL (lame m.E m.v) (shear m.E m.v)).hasFDerivAt.comp inc
      (hasFDerivAt_trial old.toVMState inc)
  obtain ⟨L, hL, hd⟩ := isTangent_of_3D (M := kel66 (isoTensor (lame m.E m.v) (shear m.E m.v))) hR
    (fun d k => by rw [mv6_iso]; rfl)
  refine ⟨L, hL, hd.congr_of_eventuallyEq ?_⟩
  filter_upwards [(continuous_trialYield m old (law old.acc).1).continuousAt.eventually_lt_const h]
    with i hi
  obtain ⟨s, hs, -, hst⟩ := hstep i (le_of_lt hi)
  simp only [updatedStressBatchedDP, hs, hst]

/-- C94b: with linear cohesion hardening the tangent returned by a batched return to the apex is the
derivative of the updated stress with respect to the strain increment. -/
theorem C94_dp_apex {p : PType} {m : DPParams} (hm : Frictional m) {c0 a : ℝ} (ha : 0 ≤ a)
    {inc : T2 p.dim} {old : DPState p} (hacc : 0 ≤ old.acc) (hc : 1e-8 ≤ |c0 + a * old.acc|)
    (hne : ¬ DPTrialElastic m (linearHardening c0 a) old inc)
    (hrest : coneRest m c0 a old inc < 0) :
    ∃ new T, dpVmapUpdate p m (linearHardening c0 a) inc old = (.good new, some T) ∧
      new.isApex = true ∧ updatedStressBatchedDP p m (linearHardening c0 a) old inc = new.stress ∧
      IsTangent p (updatedStressBatchedDP p m (linearHardening c0 a) old) T inc := by
  obtain ⟨new, T, hu, hap, hs, L, hL, hd⟩ := C85_apex hm ha hacc hne hrest
  obtain ⟨new', T1, T', h1, h2, h3⟩ := C87_linear_standard (c0 := c0) hm ha hacc hc
    (Or.inr (Or.inl hrest))
  rw [hu] at h1
  simp only [Prod.mk.injEq, DPVars.good.injEq, Option.some.injEq] at h1
  obtain ⟨rfl, rfl⟩ := h1
  rw [h3 (Or.inr hap)] at h2
  refine ⟨new, T, h2, hap, by rw [batched_stress_eq hm ha hacc hc (Or.inr (Or.inl hrest)), hs],
    L, hL, hd.congr_of_eventuallyEq ?_⟩
  filter_upwards [(continuous_coneRest m c0 a old).continuousAt.eventually_lt_const hrest] with i hi
  exact batched_stress_eq hm ha hacc hc (Or.inr (Or.inl hi))

/-- C94c: with linear cohesion hardening and frictional parameters, in a batched return to the cone
from a trial `√J2` above `1e-4` and a deviatoric trial strain of norm at least `6e-8` the tangent is
the derivative of the updated stress up to an error of
`(22 G + 3 K (η + η̄)) 6e-8 / ‖dev ε‖`, also with volumetric strain. -/
theorem C94_dp_cone {p : PType} {m : DPParams} (hm : Frictional m) {c0 a : ℝ} (ha : 0 ≤ a)
    {inc : T2 p.dim} {old : DPState p} (hacc : 0 ≤ old.acc) (hc : 1e-8 ≤ |c0 + a * old.acc|)
    (hne : ¬ DPTrialElastic m (linearHardening c0 a) old inc)
    (hrest : 0 < coneRest m c0 a old inc)
    (hJ : 1e-4 < sqrtJ2 (hooke6 (lame m.E m.v) (shear m.E m.v) (trial3D old.toVMState inc)))
    (hM : 6e-8 ≤ norm6 (dev6 (trial3D old.toVMState inc))) :
    ∃ new T, dpVmapUpdate p m (linearHardening c0 a) inc old = (.good new, some T) ∧
      new.isPlast = true ∧ new.isApex = false ∧
      updatedStressBatchedDP p m (linearHardening c0 a) old inc = new.stress ∧
      IsTangentWithin p (updatedStressBatchedDP p m (linearHardening c0 a) old) T inc
        ((22 * shear m.E m.v + 3 * bulk m.E m.v * (m.etay + m.etaf)) *
          (6e-8 / norm6 (dev6 (trial3D old.toVMState inc)))) := by
  have hK := hm.elastic.bulk_pos; have hG := hm.elastic.shear_pos
  have h1 := hm.xi; have h2 := hm.etay; have h3 := hm.etaf
  obtain ⟨new, hu, hpl, hap⟩ := dpVmap_of_cone hm ha hacc hc hne hrest.le
  refine ⟨new, _, hu, hpl, hap, by simp only [updatedStressBatchedDP, hu], ?_⟩
  have hJ8 : 1e-8 < sqrtJ2 (hooke6 (lame m.E m.v) (shear m.E m.v) (trial3D old.toVMState inc)) :=
    lt_trans (by norm_num) hJ
  obtain ⟨L, hL, hLd, hM0⟩ := cone_derivative (c0 := c0) hm ha (lt_trans (by norm_num) hJ8)
  obtain ⟨κ, hκ, hκ1⟩ := dpVmapNormDiv_scale hM
  set x := coneMultiplier m a (dpYield m (hooke6 (lame m.E m.v) (shear m.E m.v)
        (trial3D old.toVMState inc)) (c0 + a * old.acc)) with hx
  set e := trial3D old.toVMState inc with he
  set M := norm6 (dev6 e) with hMd
  set D := shear m.E m.v + bulk m.E m.v * m.etay * m.etaf + a * m.xi ^ 2 with hD
  have hD0 : 0 < D := by positivity
  have hx0 : 0 ≤ x := by
    have hlaw := linear_nonneg (c0 := c0) (a := a) hacc
    have hyl : 0 ≤ dpYield m (hooke6 (lame m.E m.v) (shear m.E m.v) e) (c0 + a * old.acc) := by
      have h6 := not_le.mp hne
      have := cohesionTol_pos (linearHardening c0 a old.acc).1
      rw [hlaw] at h6 this
      simp only at h6 this
      linarith
    exact div_nonneg hyl (by positivity)
  have hr := sqrt2_mul
  have hr0 : 0 < √(2 : ℝ) := by positivity
  have hr32 : √(2 : ℝ) ≤ 3 / 2 := by
    rw [Real.sqrt_le_left (by norm_num)]; norm_num
  have hJv : sqrtJ2 (hooke6 (lame m.E m.v) (shear m.E m.v) e) = √2 * shear m.E m.v * M := by
    rw [sqrtJ2, dev6_hooke6, norm6_smul, abs_of_pos (by linarith), div_eq_iff hr0.ne']
    linear_combination (-(shear m.E m.v * M)) * hr
  have hy1 : x / (√2 * M) ≤ 1 := by
    have h5 : 0 < sqrtJ2 (hooke6 (lame m.E m.v) (shear m.E m.v) e) - shear m.E m.v * x := hrest
    rw [hJv] at h5
    rw [div_le_one (by positivity)]
    have : shear m.E m.v * x < shear m.E m.v * (√2 * M) := by linarith
    exact (lt_of_mul_lt_mul_left this hG.le).le
  have hg1 : shear m.E m.v * (1 / D) ≤ 1 := by
    rw [mul_one_div, div_le_one hD0, hD]
    have : 0 ≤ bulk m.E m.v * m.etay * m.etaf := by positivity
    have : 0 ≤ a * m.xi ^ 2 := by positivity
    linarith
  obtain ⟨L', hd', hL'⟩ := isTangentWithin_of_3D (M := kel66 (dpVmapConeTangent m
      (trial3D old.toVMState inc) (coneMultiplier m a (dpYield m (hooke6 (lame m.E m.v) (shear m.E m.v)
        (trial3D old.toVMState inc)) (c0 + a * old.acc))) a))
      (C := (22 * shear m.E m.v + 3 * bulk m.E m.v * (m.etay + m.etaf)) *
          (6e-8 / norm6 (dev6 (trial3D old.toVMState inc)))) hLd
    (fun d k => by
      rw [hL, mv6_vmapConeTangent, hκ]
      have hb := cone_slope_bound (n := dev6 e k / M)
        (P := (∑ j, dev6 e j * increment3D p d j) / M) (dv := dev6 (increment3D p d) k)
        (t := tr6 (increment3D p d)) (o := one6 k) (D := norm6 (increment3D p d)) hG.le hK.le h2.le
        h3.le hκ1 (by rw [div_le_one hM0]; exact hM) hr0.le hr32 (by positivity) hy1
        (by positivity) hg1 (norm6_nonneg _)
        (by rw [abs_div, abs_of_pos hM0, div_le_one hM0]; exact abs_le_norm6 _ k)
        (by rw [abs_div, abs_of_pos hM0, div_le_iff₀ hM0, mul_comm]; exact abs_dot_le _ _)
        ((abs_le_norm6 _ k).trans (norm6_dev_le _)) (abs_tr6_le _) (abs_one6_le k)
      refine le_of_eq_of_le (congrArg _ ?_) hb
      have hi : x / √2 = M * (x / (√2 * M)) := by field_simp
      rw [hi]
      generalize x / (√2 * M) = y at *
      generalize (1 / D) = s2 at *
      generalize ∑ j, dev6 e j * increment3D p d j = Q
      field_simp
      ring)
  refine ⟨L', hd'.congr_of_eventuallyEq ?_, hL'⟩
  filter_upwards [cone_near hm ha hacc hne hrest hJ8,
    (continuous_sqrtJ2.comp (continuous_hookeTrial m.E m.v
      old.toVMState)).continuousAt.eventually_const_lt hJ] with i hi hi2
  rw [← hi, batched_stress_eq hm ha hacc hc (Or.inr (Or.inr (le_of_lt hi2)))]

/-! ### von Mises -/

variable {F : Type*} [NormedAddCommGroup F] [NormedSpace ℝ F]

theorem hasFDerivAt_corrected_shift (lam G δ : ℝ) {x : F → ℝ} {x' : F →L[ℝ] ℝ} {t f : F → V6}
    {t' f' : F →L[ℝ] V6} {u : F} (h : norm6 (fun k => f u k + δ) ≠ 0) (ht : HasFDerivAt t t' u)
    (hf : HasFDerivAt f f' u) (hx : HasFDerivAt x x' u) :
    ∃ L : F →L[ℝ] V6,
      (∀ d k, L d k = hooke6 lam G (t' d) k -
        2 * G * √(3 / 2) * (x' d / norm6 (fun k => f u k + δ) * f u k +
          x u / norm6 (fun k => f u k + δ) * f' d k -
          x u * (∑ j, (f u j + δ) * f' d j) / norm6 (fun k => f u k + δ) ^ 3 * f u k)) ∧
      HasFDerivAt (fun u k => hooke6 lam G (t u) k - 2 * G * x u *
        (√(3 / 2) / norm6 (fun k => f u k + δ)) * f u k) L u := by
  have hg : HasFDerivAt (fun u => (fun k => f u k + δ : V6)) f' u := by
    have := hf.add_const (fun _ : Fin 6 => δ)
    exact this
  have hn := hasFDerivAt_norm6_comp hg h
  have hinv := (hasDerivAt_inv h).comp_hasFDerivAt u hn
  have hk : ∀ k, HasFDerivAt (fun u => hooke6 lam G (t u) k - 2 * G * x u *
        (√(3 / 2) / norm6 (fun k => f u k + δ)) * f u k) _ u := fun k =>
    HasFDerivAt.fun_sub (((pr6 k).comp (hookeL lam G)).hasFDerivAt.comp u ht)
      (HasFDerivAt.fun_mul (HasFDerivAt.fun_mul (hx.const_mul (2 * G)) (hinv.const_mul √(3 / 2)))
        ((pr6 k).hasFDerivAt.comp u hf))
  refine ⟨_, ?_, hasFDerivAt_pi.mpr hk⟩
  intro d k
  simp
  field_simp
  ring

theorem vmapReturn_tangent {E v : ℝ} {law : HardLaw} {eT : V6} {acc : ℝ} {r : VMReturn}
    (h : vmapReturn E v law eT acc = some r) (hp : r.isPlast = true) (d : V6) (k : Fin 6) :
    mv6 r.tangent d k = hooke6 (lame E v) (shear E v) d k -
      (r.acc - acc) * 6 * shear E v ^ 2 / vm6 (hooke6 (lame E v) (shear E v) eT) * dev6 d k +
      6 * shear E v ^ 2 * ((r.acc - acc) / vm6 (hooke6 (lame E v) (shear E v) eT) -
        1 / (3 * shear E v + (law r.acc).2)) *
        ((2 / 3) * (∑ j, vmapFlow suSmall (dev6 (hooke6 (lame E v) (shear E v) eT)) j * d j) *
          vmapFlow suSmall (dev6 (hooke6 (lame E v) (shear E v) eT)) k) := by
  have hl : lamOf E v = lame E v := rfl
  have hm : miuOf E v = shear E v := rfl
  have hG : E / (2 * (1 + v)) = shear E v := rfl
  unfold vmapReturn at h
  simp only [mv6_iso, mv6_devprojsym, hl, hm, hG, ← vm6_eq] at h
  split at h
  · cases h
  · rename_i o ho
    obtain rfl := Option.some.inj h
    simp only at hp
    have hadd : o.acc - acc = o.incPMult := by
      split at ho
      · obtain rfl := Option.some.inj ho
        simp [vmapElasticStep] at hp
      · unfold vmapPlasticStep at ho
        dsimp only at ho
        split at ho
        · cases ho
        · obtain rfl := Option.some.inj ho
          simp
    simp only [hadd, hp, if_true]
    have h23 : √(2 / 3 : ℝ) ^ 2 = 2 / 3 := Real.sq_sqrt (by norm_num)
    refine (mv6_kel66_lin _ _ _ _ _ _ _).trans ?_
    rw [mv6_iso, mv6_devprojsym, mv6_dyad, h23]

theorem vmapFlow_scale {δ : ℝ} {f : V6} (h : norm6 f > δ) (k : Fin 6) :
    vmapFlow δ f k = √(3 / 2) / norm6 (fun k => f k + δ) * f k := by
  unfold vmapFlow
  simp only [if_pos h]
  ring

/-- Effect of the shifted norm in the von Mises tangent. -/
theorem shift_slope_bound {G κ ε y g n P dv w D : ℝ} (hG : 0 ≤ G) (hε : |κ - 1| ≤ ε) (hε1 : ε ≤ 1)
    (hy0 : 0 ≤ y) (hy1 : y ≤ 1) (hg0 : 0 ≤ g) (hg1 : g ≤ 1) (hn : |n| ≤ 1)
    (hP : |P| ≤ D) (hdv : |dv| ≤ D) (hw : |w| ≤ ε * D) :
    |2 * G * ((κ - 1) * y) * dv - 2 * G * ((κ - 1) * (κ * (y * κ + g))) * (n * P) -
      2 * G * (y * κ ^ 3) * (n * w)| ≤ 30 * G * ε * D := by
  have hε0 : 0 ≤ ε := (abs_nonneg _).trans hε
  obtain ⟨k1, k2⟩ := abs_le.mp hε
  have hκ0 : 0 ≤ κ := by linarith
  have hκ2 : κ ≤ 2 := by linarith
  have a1 : |2 * G * ((κ - 1) * y) * dv| ≤ 2 * G * ε * D := by
    rw [abs_mul _ dv, abs_mul (2 * G), abs_mul (κ - 1), abs_of_nonneg (show 0 ≤ 2 * G by linarith),
      abs_of_nonneg hy0]
    have : |κ - 1| * y ≤ ε * 1 := mul_le_mul hε hy1 hy0 hε0
    have h3 : 2 * G * (|κ - 1| * y) ≤ 2 * G * ε := by nlinarith
    exact mul_le_mul h3 hdv (abs_nonneg _) (by positivity)
  have a2 : |2 * G * ((κ - 1) * (κ * (y * κ + g))) * (n * P)| ≤ 12 * G * ε * D := by
    rw [abs_mul _ (n * P), abs_mul (2 * G), abs_of_nonneg (show 0 ≤ 2 * G by linarith), abs_mul n,
      abs_mul (κ - 1), abs_of_nonneg (show 0 ≤ κ * (y * κ + g) by positivity)]
    have b1 : κ * (y * κ + g) ≤ 6 := by
      have : y * κ + g ≤ 3 := by nlinarith
      nlinarith [show 0 ≤ y * κ + g by positivity]
    have c1 := mul_le_mul hε b1 (by positivity) hε0
    have e2 : |n| * |P| ≤ D := by
      have := mul_le_mul hn hP (abs_nonneg _) zero_le_one
      linarith
    have e3 : 2 * G * (|κ - 1| * (κ * (y * κ + g))) ≤ 12 * G * ε := by nlinarith
    exact mul_le_mul e3 e2 (by positivity) (by positivity)
  have a3 : |2 * G * (y * κ ^ 3) * (n * w)| ≤ 16 * G * ε * D := by
    rw [abs_mul _ (n * w), abs_of_nonneg (show 0 ≤ 2 * G * (y * κ ^ 3) by positivity), abs_mul n]
    have b1 : y * κ ^ 3 ≤ 8 := by
      have : κ ^ 3 ≤ 2 ^ 3 := pow_le_pow_left₀ hκ0 hκ2 3
      nlinarith [show 0 ≤ κ ^ 3 by positivity]
    have e2 : |n| * |w| ≤ ε * D := by
      have := mul_le_mul hn hw (abs_nonneg _) zero_le_one
      linarith
    have e3 : 2 * G * (y * κ ^ 3) ≤ 16 * G := by nlinarith
    have := mul_le_mul e3 e2 (by positivity) (by positivity)
    linarith
  refine (abs_sub _ _).trans ?_
  have := abs_sub (2 * G * ((κ - 1) * y) * dv) (2 * G * ((κ - 1) * (κ * (y * κ + g))) * (n * P))
  linarith

/-- Norm of the shifted deviator. -/
theorem shift_scale {f : V6} (ht : tr6 f = 0) (hM : 5e-8 ≤ norm6 f) :
    0 < norm6 (fun k => f k + suSmall) ∧
      |norm6 f / norm6 (fun k => f k + suSmall) - 1| ≤ 5e-8 / norm6 f := by
  have hs : suSmall = 1e-8 := rfl
  have h6 : √(6 : ℝ) ≤ 2.5 := by
    rw [Real.sqrt_le_left (by norm_num)]; norm_num
  have h60 : (0 : ℝ) ≤ √6 := Real.sqrt_nonneg _
  have hb := norm6_add_small_bound ht (small := suSmall) (by rw [hs]; norm_num)
    (by rw [hs]; linarith)
  have hb2 : |norm6 (fun k => f k + suSmall) - norm6 f| ≤ 2.5e-8 := by
    refine hb.trans ?_
    rw [hs]; linarith
  obtain ⟨b1, b2⟩ := abs_le.mp hb2
  have hM0 : 0 < norm6 f := lt_of_lt_of_le (by norm_num) hM
  have hS0 : 0 < norm6 (fun k => f k + suSmall) := by linarith
  refine ⟨hS0, ?_⟩
  rw [div_sub_one hS0.ne', abs_div, abs_of_pos hS0, div_le_div_iff₀ hS0 hM0, abs_sub_comm]
  nlinarith [abs_nonneg (norm6 (fun k => f k + suSmall) - norm6 f)]

theorem abs_sum_dev_le (d : V6) : |∑ j, dev6 d j| ≤ 3 * norm6 d := by
  have h := abs_dot_le (fun _ => 1) (dev6 d)
  simp only [one_mul] at h
  have h1 : norm6 (fun _ => (1 : ℝ)) ≤ 3 := by
    unfold norm6
    rw [Real.sqrt_le_left (by norm_num)]
    simp
    norm_num
  have h2 := norm6_dev_le d
  have h3 := norm6_nonneg (dev6 d)
  nlinarith

theorem shift_identity {G c M N D X s d h Q W δ : ℝ} (hc : c * c = 3 / 2) (hc0 : c ≠ 0)
    (hM : M ≠ 0) (hN : N ≠ 0) (hD : D ≠ 0) :
    h - X * 6 * G ^ 2 / (c * M) * d +
        6 * G ^ 2 * (X / (c * M) - 1 / D) * (2 / 3 * (c / N * Q) * (c / N * s)) -
      (h - 2 * G * c * (c * (2 * G * Q) / M / D / N * s + X / N * (2 * G * d) -
        X * (2 * G * (Q + δ * W)) / N ^ 3 * s)) =
    2 * G * ((M / N - 1) * (3 * G * X / (c * M))) * d -
      2 * G * ((M / N - 1) * (M / N * (3 * G * X / (c * M) * (M / N) + 3 * G / D))) *
        (s / M * (Q / M)) -
      2 * G * (3 * G * X / (c * M) * (M / N) ^ 3) * (s / M * (δ * W / M)) := by
  obtain ⟨Y, rfl⟩ : ∃ Y, X = c * Y := ⟨X / c, by field_simp⟩
  have h1 : ∀ u, u * (c * Y) / (c * M) = u * Y / M := fun u => by field_simp
  have h2 : c * Y / (c * M) = Y / M := by field_simp
  have h3 : c * Y * 6 * G ^ 2 / (c * M) = 6 * G ^ 2 * Y / M := by field_simp
  rw [h1, h2, h3]
  have h4 : 2 / 3 * (c / N * Q) * (c / N * s) = Q * s / N ^ 2 := by
    field_simp; rw [pow_two, hc]; ring
  have h5 : 2 * G * c * (c * (2 * G * Q) / M / D / N * s + c * Y / N * (2 * G * d) -
      c * Y * (2 * G * (Q + δ * W)) / N ^ 3 * s) =
      3 * G * ((2 * G * Q) / M / D / N * s + Y / N * (2 * G * d) -
        Y * (2 * G * (Q + δ * W)) / N ^ 3 * s) := by
    linear_combination 2 * G * ((2 * G * Q) / M / D / N * s + Y / N * (2 * G * d) -
        Y * (2 * G * (Q + δ * W)) / N ^ 3 * s) * hc
  rw [h4, h5]
  field_simp
  ring

/-- Outcome of a batched plastic step with linear hardening. -/
theorem vmap_linear_step {p : PType} {E v s0 a : ℝ} (hA : Admissible E v) (ha : 0 ≤ a)
    (hs : 2e-8 ≤ s0) {inc : T2 p.dim} {old : VMState p} (hacc : 0 ≤ old.acc)
    (hne : ¬ TrialElastic E v (linearHardening s0 a) old inc) :
    ∃ r new, vmapReturn E v (linearHardening s0 a) (trial3D old inc) old.acc = some r ∧
      r.isPlast = true ∧
      r.acc = old.acc + (vm6 (hooke6 (lame E v) (shear E v) (trial3D old inc)) -
        (s0 + a * old.acc)) / (3 * shear E v + a) ∧
      vmapUpdate p E v (linearHardening s0 a) inc old = (.good new, some (to2DM p r.tangent)) ∧
      new.isPlast = true ∧
      new.stress = to2D p (fun k => hooke6 (lame E v) (shear E v) (trial3D old inc) k -
        2 * shear E v * ((vm6 (hooke6 (lame E v) (shear E v) (trial3D old inc)) -
          (s0 + a * old.acc)) / (3 * shear E v + a)) *
        (√(3 / 2) / norm6 (fun k => dev6 (hooke6 (lame E v) (shear E v) (trial3D old inc)) k +
          suSmall)) * dev6 (hooke6 (lame E v) (shear E v) (trial3D old inc)) k) := by
  obtain ⟨new, T, hu, hp, ha'⟩ := C33_linear hA ha hs hacc hne
  obtain ⟨r, hr, h1, h2, h3, h4, -, -, hT⟩ := vmapUpdate_good hu
  have hlaw : (linearHardening s0 a old.acc).1 = s0 + a * old.acc := by
    simp [linearHardening, relu, max_eq_left hacc]
  have hsy : 2e-8 ≤ (linearHardening s0 a old.acc).1 := by
    rw [hlaw]; have := mul_nonneg ha hacc; linarith
  obtain ⟨hbig, -⟩ := trial_dev_large hsy hne
  obtain ⟨hst, hc⟩ := vmapReturn_cases hr
  rw [← h4, hp] at hc
  rcases hc with ⟨hf, -⟩ | ⟨-, -, x, hx1, hxa, he⟩
  · cases hf
  have hxx : x = (vm6 (hooke6 (lame E v) (shear E v) (trial3D old inc)) - (s0 + a * old.acc)) /
      (3 * shear E v + a) := by
    rw [h3, hxa] at ha'; linarith
  refine ⟨r, new, hr, h4.symm.trans hp, h3.symm.trans ha', by rw [hu, hT], hp, ?_⟩
  have hss : new.stress = to2D p (stress3D new) := by rw [stress3D, to2D_to3D]
  rw [hss, h2, hst, he, ← hxx]
  congr 1
  funext k
  have htr : tr6 (vmapFlow suSmall (dev6 (hooke6 (lame E v) (shear E v) (trial3D old inc)))) = 0 := by
    have := tr6_dev6 (hooke6 (lame E v) (shear E v) (trial3D old inc))
    simp only [tr6] at this ⊢
    rw [vmapFlow_scale hbig, vmapFlow_scale hbig, vmapFlow_scale hbig, ← mul_add, ← mul_add, this,
      mul_zero]
  rw [hooke6_sub_smul, hooke6_dev htr]
  simp only [vmapFlow_scale hbig]
  ring

/-- C94d: for every hardening law, if the trial stress is strictly below the yield tolerance the
tangent returned by the batched von Mises update is the derivative of its updated stress with
respect to the strain increment. -/
theorem C94_vm_elastic {p : PType} {E v : ℝ} {law : HardLaw} {inc : T2 p.dim} {old : VMState p}
    (h : StrictlyElastic E v law old inc) :
    ∃ new T, vmapUpdate p E v law inc old = (.good new, some T) ∧ new.isPlast = false ∧
      updatedStressBatched p E v law old inc = new.stress ∧
      IsTangent p (updatedStressBatched p E v law old) T inc := by
  have hstep : ∀ i, TrialElastic E v law old i → ∃ new T,
      vmapUpdate p E v law i old = (.good new, T) ∧ new.isPlast = false ∧
      vmUpdate p E v law i old = (.good new, T) := by
    intro i hi
    cases hu : vmapUpdate p E v law i old with
    | mk st T =>
      cases st with
      | nan s => exact absurd hi (C33_batched_failure_iff.mp ⟨s, T, hu⟩).1
      | good new =>
        obtain ⟨new', T', h1, -, -, h4, h5⟩ := C33_batched_refines_standard hu
        obtain ⟨s, hs, -⟩ := C29_elastic_step hi
        obtain ⟨r, hr, -, -, -, hp, -⟩ := vmapUpdate_good hu
        have hpl : new.isPlast = false := by
          rcases (vmapReturn_cases hr).2 with ⟨h7, -⟩ | ⟨-, h8, -⟩
          · exact hp.trans h7
          · exact absurd hi h8
        obtain ⟨rfl, rfl⟩ := h5 hpl
        exact ⟨new', T', rfl, hpl, h1⟩
  obtain ⟨new, T, hu, hs, L, hL, hd⟩ := C83_elastic h
  have hel : TrialElastic E v law old inc := ⟨h.1, h.2.le⟩
  obtain ⟨new', T', h1, h2, h3⟩ := hstep inc hel
  rw [hu] at h3
  simp only [Prod.mk.injEq, VMVars.good.injEq] at h3
  obtain ⟨rfl, rfl⟩ := h3
  refine ⟨new, T, h1, h2, by simp only [updatedStressBatched, h1], L, hL,
    hd.congr_of_eventuallyEq ?_⟩
  have hc := ((continuousAt_vm E v old inc).sub (continuousAt_const (y := (law old.acc).1))).div_const
    (law old.acc).1
  filter_upwards [hc.eventually_lt_const h.2] with i hi
  obtain ⟨n, T, h1, -, h3⟩ := hstep i ⟨h.1, le_of_lt hi⟩
  simp only [updatedStressBatched, updatedStress, h1, h3]

/-- C94e: with linear hardening (initial yield stress at least `1e-7`, nonnegative slope) the tangent
returned by a batched plastic von Mises step is the derivative of the updated stress up to an error
of `30 G 5e-8 / ‖s‖`, `s` being the deviator of the trial stress. -/
theorem C94_vm_plastic {p : PType} {E v s0 a : ℝ} (hA : Admissible E v) (ha : 0 ≤ a)
    (hs : 1e-7 ≤ s0) {inc : T2 p.dim} {old : VMState p} (hacc : 0 ≤ old.acc)
    (hne : ¬ TrialElastic E v (linearHardening s0 a) old inc) :
    ∃ new T, vmapUpdate p E v (linearHardening s0 a) inc old = (.good new, some T) ∧
      new.isPlast = true ∧
      updatedStressBatched p E v (linearHardening s0 a) old inc = new.stress ∧
      IsTangentWithin p (updatedStressBatched p E v (linearHardening s0 a) old) T inc
        (30 * shear E v *
          (5e-8 / norm6 (dev6 (hooke6 (lame E v) (shear E v) (trial3D old inc))))) := by
  have hG := hA.shear_pos
  have hs2 : 2e-8 ≤ s0 := le_trans (by norm_num) hs
  have hlaw : (linearHardening s0 a old.acc).1 = s0 + a * old.acc := by
    simp [linearHardening, relu, max_eq_left hacc]
  have hsy : 1e-7 ≤ s0 + a * old.acc := by have := mul_nonneg ha hacc; linarith
  obtain ⟨r, new, hr, hrp, hra, hu, hp, hst⟩ := vmap_linear_step hA ha hs2 hacc hne
  refine ⟨new, _, hu, hp, by simp only [updatedStressBatched, hu], ?_⟩
  have hpos : 0 < (linearHardening s0 a old.acc).1 := by
    rw [hlaw]; linarith [show (0:ℝ) < 1e-7 by norm_num]
  have hlt : 1e-6 < (vm6 (hooke6 (lame E v) (shear E v) (trial3D old inc)) -
      (linearHardening s0 a old.acc).1) / (linearHardening s0 a old.acc).1 := by
    by_contra hcon
    exact hne ⟨hpos.ne', not_lt.mp hcon⟩
  have hq : s0 + a * old.acc < vm6 (hooke6 (lame E v) (shear E v) (trial3D old inc)) := by
    rw [lt_div_iff₀ hpos, hlaw] at hlt
    nlinarith
  set s : T2 p.dim → V6 := fun i => hooke6 (lame E v) (shear E v) (trial3D old i) with hsd
  set M := norm6 (dev6 (s inc)) with hMd
  have hc0 := sqrt32_pos
  have hc2 := sqrt32_mul
  have hqM : vm6 (s inc) = √(3 / 2) * M := vm6_eq _
  have hM : 5e-8 ≤ M := by
    have h1 : √(3 / 2 : ℝ) ≤ 2 := by
      rw [Real.sqrt_le_left (by norm_num)]; norm_num
    have h2 : s0 + a * old.acc < √(3 / 2) * M := by rw [← hqM]; exact hq
    nlinarith [norm6_nonneg (dev6 (s inc))]
  have hM0 : 0 < M := lt_of_lt_of_le (by norm_num) hM
  obtain ⟨hN0, hκ⟩ := shift_scale (tr6_dev6 (s inc)) hM
  set N := norm6 (fun k => dev6 (s inc) k + suSmall) with hNd
  set D := 3 * shear E v + a with hD
  have hD0 : 0 < D := by positivity
  set x : T2 p.dim → ℝ := fun i => (vm6 (s i) - (s0 + a * old.acc)) / D with hxd
  have ht := hasFDerivAt_trial old inc
  have hf : HasFDerivAt (fun i => dev6 (s i))
      ((devHookeL (lame E v) (shear E v)).comp (incrementL p)) inc :=
    (devHookeL (lame E v) (shear E v)).hasFDerivAt.comp inc ht
  have hQ : ∀ d, ∑ j, dev6 (s inc) j * dev6 (hooke6 (lame E v) (shear E v) (increment3D p d)) j =
      2 * shear E v * ∑ j, dev6 (s inc) j * increment3D p d j := fun d =>
    dot_dev_hooke (lame E v) (shear E v) (dev6 (s inc)) (increment3D p d) (tr6_dev6 _)
  obtain ⟨x', hx, hx'⟩ : ∃ x' : T2 p.dim →L[ℝ] ℝ, HasFDerivAt x x' inc ∧
      ∀ d, x' d = √(3 / 2) * (2 * shear E v * ∑ j, dev6 (s inc) j * increment3D p d j) / M / D := by
    refine ⟨_, HasFDerivAt.mul_const (((hasFDerivAt_norm6_comp hf hM0.ne').const_mul
      √(3 / 2)).sub_const (s0 + a * old.acc)) D⁻¹, fun d => ?_⟩
    rw [← hQ]
    have hap : ∀ (c c' c'' : ℝ), (c • c' • c'' • ∑ k, dev6 (s inc) k • (pr6 k).comp
        ((devHookeL (lame E v) (shear E v)).comp (incrementL p))) d =
        c * (c' * (c'' * ∑ j, dev6 (s inc) j *
          dev6 (hooke6 (lame E v) (shear E v) (increment3D p d)) j)) := by
      intro c c' c''
      simp only [smul_apply, sum_apply, smul_eq_mul]
      rfl
    rw [hap, ← hMd]
    ring
  obtain ⟨L, hL, hLd⟩ := hasFDerivAt_corrected_shift (lame E v) (shear E v) suSmall
    (f := fun i => dev6 (s i)) hN0.ne' ht hf hx
  obtain ⟨L', hd', hL'⟩ := isTangentWithin_of_3D (M := r.tangent)
    (C := 30 * shear E v * (5e-8 / M)) hLd (fun d k => by
      have hx0 : x inc * D = √(3 / 2) * M - (s0 + a * old.acc) := by
        simp only [hxd]; rw [div_mul_cancel₀ _ hD0.ne', hqM]
      have hxpos : 0 ≤ x inc := div_nonneg (by linarith) hD0.le
      have hacc' : r.acc - old.acc = x inc := by rw [hra]; ring
      have hflow := vmapFlow_scale (δ := suSmall) (f := dev6 (s inc))
        (lt_of_lt_of_le (by unfold suSmall; norm_num) hM)
      have hsl : (linearHardening s0 a r.acc).2 = a := rfl
      rw [vmapReturn_tangent hr hrp, hL, hacc', hx', hsl]
      have hf' : ∀ j, ((devHookeL (lame E v) (shear E v)).comp (incrementL p)) d j =
          2 * shear E v * dev6 (increment3D p d) j := fun j =>
        congrFun (dev6_hooke6 (lame E v) (shear E v) (increment3D p d)) j
      have hsum : ∑ j, (dev6 (s inc) j + suSmall) *
          ((devHookeL (lame E v) (shear E v)).comp (incrementL p)) d j =
          2 * shear E v * (∑ j, dev6 (s inc) j * increment3D p d j +
            suSmall * ∑ j, dev6 (increment3D p d) j) := by
        rw [mul_add, ← hQ, dev6_hooke6 _ _ (increment3D p d), Finset.mul_sum, Finset.mul_sum, ← Finset.sum_add_distrib]
        refine Finset.sum_congr rfl fun j _ => ?_
        rw [hf']; ring
      rw [hsum, hf']
      have hfs : ∑ j, vmapFlow suSmall (dev6 (s inc)) j * increment3D p d j =
          √(3 / 2) / N * ∑ j, dev6 (s inc) j * increment3D p d j := by
        rw [Finset.mul_sum]
        refine Finset.sum_congr rfl fun j _ => ?_
        rw [hflow]; ring
      rw [hfs, hflow, hqM]
      set Q := ∑ j, dev6 (s inc) j * increment3D p d j with hQd
      set W := ∑ j, dev6 (increment3D p d) j with hWd
      have hb := shift_slope_bound (G := shear E v) (κ := M / N) (ε := 5e-8 / M)
        (y := 3 * shear E v * x inc / (√(3 / 2) * M)) (g := 3 * shear E v / D)
        (n := dev6 (s inc) k / M) (P := Q / M) (dv := dev6 (increment3D p d) k)
        (w := suSmall * W / M) (D := norm6 (increment3D p d)) hG.le hκ
        (by rw [div_le_one hM0]; exact hM) (by positivity)
        (by
          rw [div_le_one (by positivity)]
          have : 0 ≤ a * x inc := mul_nonneg ha hxpos
          have h5 : x inc * D = 3 * shear E v * x inc + a * x inc := by rw [hD]; ring
          linarith [show (0:ℝ) < 1e-7 by norm_num])
        (by positivity)
        (by rw [div_le_one hD0]; linarith)
        (by
          rw [abs_div, abs_of_pos hM0, div_le_one hM0]
          exact abs_le_norm6 _ k)
        (by
          rw [abs_div, abs_of_pos hM0, div_le_iff₀ hM0, mul_comm]
          exact abs_dot_le _ _)
        ((abs_le_norm6 _ k).trans (norm6_dev_le _))
        (by
          rw [abs_div, abs_of_pos hM0, abs_mul, abs_of_pos (show 0 < suSmall by
            unfold suSmall; norm_num), div_mul_eq_mul_div]
          refine div_le_div_of_nonneg_right ?_ hM0.le
          have := abs_sum_dev_le (increment3D p d)
          have h7 := norm6_nonneg (increment3D p d)
          have h8 : suSmall = 1e-8 := rfl
          rw [h8]
          linarith)
      refine le_trans (le_of_eq ?_) hb
      congr 1
      exact shift_identity hc2 hc0.ne' hM0.ne' hN0.ne' hD0.ne')
  refine ⟨L', hd'.congr_of_eventuallyEq ?_, hL'⟩
  have hcont := ((continuousAt_vm E v old inc).sub
    (continuousAt_const (y := (linearHardening s0 a old.acc).1))).div_const
      (linearHardening s0 a old.acc).1
  filter_upwards [hcont.eventually_const_lt hlt] with i hi
  obtain ⟨r', new', -, -, -, hu', -, hst'⟩ := vmap_linear_step hA ha hs2 hacc
    (show ¬ TrialElastic E v (linearHardening s0 a) old i from
      fun hel => absurd hel.2 (not_le.mpr hi))
  simp only [updatedStressBatched, hu', hst', hxd, hD, hsd]

/-! ### The hypotheses are met -/

theorem norm6_dev_mixed_trial {d : ℝ} (hd : 0 ≤ d) (t : ℝ) :
    norm6 (dev6 (trial3D (dpInit .solid).toVMState (mixedInc d t))) = √2 * d := by
  have h : dev6 (trial3D (dpInit .solid).toVMState (mixedInc d t)) =
      dev6 (hooke6 (lame 1 0) (shear 1 0) (trial3D (dpInit .solid).toVMState (mixedInc d t))) := by
    rw [dev6_hooke6]
    funext k
    simp [shear]
  rw [h, mixed_trial]
  have h2 := sqrtJ2_mixed hd t
  rw [sqrtJ2] at h2
  have h0 : √(2 : ℝ) ≠ 0 := by positivity
  field_simp at h2
  linarith

/-- a batched return to the cone with volumetric strain; the tangent of the standard model is wrong
here -/
example : ∃ new T, dpVmapUpdate .solid dpOne (linearHardening 1 1) (mixedInc 3 1) (dpInit .solid) =
    (.good new, some T) ∧ new.isApex = false ∧
    IsTangentWithin .solid (updatedStressBatchedDP .solid dpOne (linearHardening 1 1)
      (dpInit .solid)) T (mixedInc 3 1)
      ((22 * shear 1 0 + 3 * bulk 1 0 * (1 + 1)) * (6e-8 / (√2 * 3))) := by
  have hE : dpOne.E = 1 := rfl
  have hv : dpOne.v = 0 := rfl
  have hacc : (dpInit .solid).acc = 0 := rfl
  have h2 : (1 : ℝ) ≤ √2 := by rw [Real.one_le_sqrt]; norm_num
  obtain ⟨new, T, h1, -, h2, -, h3⟩ := C94_dp_cone frictional_one (c0 := 1) zero_le_one
    (old := dpInit .solid) le_rfl (by rw [hacc]; norm_num)
    (mixed_plastic (d := 3) (t := 1) (by norm_num) (by norm_num))
    (by rw [mixed_rest (by norm_num)]; norm_num)
    (by rw [hE, hv, mixed_trial, sqrtJ2_mixed (by norm_num)]; norm_num)
    (by rw [norm6_dev_mixed_trial (by norm_num)]; nlinarith)
  rw [norm6_dev_mixed_trial (by norm_num)] at h3
  exact ⟨new, T, h1, h2, h3⟩

/-- a batched return to the apex -/
example : ∃ new T, dpVmapUpdate .solid dpOne (linearHardening 1 1) (mixedInc 0 3) (dpInit .solid) =
    (.good new, some T) ∧ new.isApex = true ∧
    IsTangent .solid (updatedStressBatchedDP .solid dpOne (linearHardening 1 1) (dpInit .solid)) T
      (mixedInc 0 3) := by
  have hacc : (dpInit .solid).acc = 0 := rfl
  obtain ⟨new, T, h1, h2, -, h3⟩ := C94_dp_apex frictional_one (c0 := 1) zero_le_one
    (old := dpInit .solid) le_rfl (by rw [hacc]; norm_num)
    (mixed_plastic (d := 0) (t := 3) le_rfl (by norm_num))
    (by rw [mixed_rest le_rfl]; norm_num)
  exact ⟨new, T, h1, h2, h3⟩

/-- a batched plastic von Mises step: the error is below `1e-6` -/
example : ∃ new T, vmapUpdate .solid 1 0 (linearHardening 1 1) (uniInc 3) (vmInit .solid) =
      (.good new, some T) ∧ new.isPlast = true ∧
    IsTangentWithin .solid (updatedStressBatched .solid 1 0 (linearHardening 1 1) (vmInit .solid)) T
      (uniInc 3) 1e-6 := by
  obtain ⟨new, T, h, hp, -, L, h', hb⟩ := C94_vm_plastic admissible_one zero_le_one
    (by norm_num : (1e-7 : ℝ) ≤ 1) (le_refl (vmInit .solid).acc) uni_plastic
  refine ⟨new, T, h, hp, L, h', fun d i => (hb d i).trans ?_⟩
  have hq := vm6_uni 3
  rw [vm6_eq, abs_of_pos (by norm_num)] at hq
  have hlt := sqrt32_lt
  have hn := norm6_nonneg (dev6 (hooke6 (lame 1 0) (shear 1 0) (trial3D (vmInit .solid) (uniInc 3))))
  have hM : 1 ≤ norm6 (dev6 (hooke6 (lame 1 0) (shear 1 0)
      (trial3D (vmInit .solid) (uniInc 3)))) := by nlinarith
  refine mul_le_mul_of_nonneg_right ?_ (norm6_nonneg _)
  have h5 : 5e-8 / norm6 (dev6 (hooke6 (lame 1 0) (shear 1 0)
      (trial3D (vmInit .solid) (uniInc 3)))) ≤ 5e-8 :=
    div_le_self (by norm_num) hM
  have hs : shear 1 0 = 1 / 2 := by norm_num [shear]
  rw [hs] at h5 ⊢
  linarith

end Hooke
