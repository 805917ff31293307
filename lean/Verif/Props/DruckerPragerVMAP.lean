import Verif.Spec.DruckerPragerVMAP
import Verif.Props.ConsistentTangentDP

/-! # C87: the batched Drucker-Prager model -/

noncomputable section

namespace Hooke

open Spec

/-- The masked loop after `m` iterations. -/
def dpMaskRun (f : ℝ → NewtonEval) (tol : ℝ) (m : ℕ) : Option ℝ × Bool :=
  (List.range m).foldl (fun s nrIter => dpMaskStep f tol false s.1 nrIter) (some 0, false)

theorem dpMaskRun_succ (f : ℝ → NewtonEval) (tol : ℝ) (m : ℕ) :
    dpMaskRun f tol (m + 1) = dpMaskStep f tol false (dpMaskRun f tol m).1 m := by
  simp [dpMaskRun, List.range_succ]

theorem dpMaskRun_inv (f : ℝ → NewtonEval) (tol : ℝ) (m : ℕ) :
    (∃ k y, 1 ≤ k ∧ k < m ∧ newtonIterate f k = some y ∧ (f y).dpNorm < tol ∧
      (∀ j, 1 ≤ j → j < k → ∀ z, newtonIterate f j = some z → ¬ (f z).dpNorm < tol) ∧
      dpMaskRun f tol m = (some y, true)) ∨
    ((∀ k, 1 ≤ k → k < m → ∀ z, newtonIterate f k = some z → ¬ (f z).dpNorm < tol) ∧
      dpMaskRun f tol m = (newtonIterate f m, false)) := by
  induction m with
  | zero => right; exact ⟨fun k h1 h2 => by omega, rfl⟩
  | succ m ih =>
    rw [dpMaskRun_succ]
    rcases ih with ⟨k, y, h1, h2, h3, h4, h5, h6⟩ | ⟨h1, h2⟩
    · left
      refine ⟨k, y, h1, by omega, h3, h4, h5, ?_⟩
      rw [h6]
      have hm : m > 0 := by omega
      simp [dpMaskStep, h4, hm]
    · rw [h2]
      cases hx : newtonIterate f m with
      | none =>
        right
        refine ⟨?_, ?_⟩
        · intro k hk1 hk2 z hz
          by_cases hkm : k = m
          · subst hkm; rw [hx] at hz; cases hz
          · exact h1 k hk1 (by omega) z hz
        · simp [dpMaskStep, newtonIterate, hx]
      | some x =>
        by_cases hc : (f x).dpNorm < tol ∧ m > 0
        · left
          refine ⟨m, x, hc.2, by omega, hx, hc.1, fun j hj1 hj2 => h1 j hj1 hj2, ?_⟩
          simp [dpMaskStep, hc.1, hc.2]
        · right
          refine ⟨?_, ?_⟩
          · intro k hk1 hk2 z hz
            by_cases hkm : k = m
            · subst hkm; rw [hx] at hz; cases hz
              exact fun h => hc ⟨h, hk1⟩
            · exact h1 k hk1 (by omega) z hz
          · have hs : (decide ((f x).dpNorm < tol) && decide (m > 0)) = false := by
              rw [Bool.and_eq_false_iff]
              by_contra hcon
              push Not at hcon
              simp only [ne_eq, Bool.not_eq_false, decide_eq_true_eq] at hcon
              exact hc hcon
            simp only [dpMaskStep, hs, newtonIterate, hx]
            by_cases hj : (f x).jacobian = 0
            · simp [hj]
            · simp only [Bool.false_eq_true, if_false, if_neg hj]
              congr 2
              ring

/-- What the masked loop of a sample which is not elastic delivers. -/
def dpMaskResult (f : ℝ → NewtonEval) : Option ℝ :=
  if (dpMaskedLoop f suTol false dpVmapMaxIter).2 then
    (dpMaskedLoop f suTol false dpVmapMaxIter).1 else none

theorem dpMaskResult_some {f : ℝ → NewtonEval} {x : ℝ} :
    dpMaskResult f = some x ↔ FirstConverged10 f x := by
  have h : dpMaskedLoop f suTol false dpVmapMaxIter = dpMaskRun f suTol 11 := rfl
  unfold dpMaskResult
  rw [h]
  rcases dpMaskRun_inv f suTol 11 with ⟨k, y, h1, h2, h3, h4, h5, h6⟩ | ⟨h1, h2⟩
  · rw [h6]
    simp only [if_true, Option.some.injEq]
    simp only [dpNorm_lt_iff] at h4 h5
    constructor
    · rintro rfl
      exact ⟨k, h1, by omega, h3, h4, h5⟩
    · rintro ⟨k', g1, g2, g3, g4, g5⟩
      rcases lt_trichotomy k k' with hlt | rfl | hlt
      · exact absurd h4 (g5 k h1 hlt y h3)
      · exact Option.some.inj (h3.symm.trans g3)
      · exact absurd g4 (h5 k' g1 hlt x g3)
  · rw [h2]
    simp only [dpNorm_lt_iff] at h1
    simp only [Bool.false_eq_true, if_false, reduceCtorEq, false_iff]
    rintro ⟨k', g1, g2, g3, g4, -⟩
    exact h1 k' g1 (by omega) x g3 g4

theorem dpMaskResult_none {f : ℝ → NewtonEval} :
    dpMaskResult f = none ↔ NeverConverges10 f := by
  have h : dpMaskedLoop f suTol false dpVmapMaxIter = dpMaskRun f suTol 11 := rfl
  unfold dpMaskResult
  rw [h]
  rcases dpMaskRun_inv f suTol 11 with ⟨k, y, h1, h2, h3, h4, h5, h6⟩ | ⟨h1, h2⟩
  · rw [h6]
    simp only [dpNorm_lt_iff] at h4
    simp only [if_true, reduceCtorEq, false_iff]
    intro hn
    exact hn k h1 (by omega) y h3 h4
  · rw [h2]
    simp only [dpNorm_lt_iff] at h1
    simp only [Bool.false_eq_true, if_false, true_iff]
    exact fun k g1 g2 z g3 => h1 k g1 (by omega) z g3

theorem firstConverged10_unique {f : ℝ → NewtonEval} {x y : ℝ} (hx : FirstConverged10 f x)
    (hy : FirstConverged10 f y) : x = y := by
  rw [← dpMaskResult_some] at hx hy
  exact Option.some.inj (hx.symm.trans hy)

theorem not_never10 {f : ℝ → NewtonEval} {x : ℝ} (hx : FirstConverged10 f x) :
    ¬ NeverConverges10 f := by
  rw [← dpMaskResult_some] at hx
  rw [← dpMaskResult_none, hx]; simp

theorem firstConverged10_affine {f : ℝ → NewtonEval} {x : ℝ}
    (hJ : (f 0).jacobian ≠ 0) (hx : x = -(f 0).residual / (f 0).jacobian)
    (hr : (f x).residual = 0) : FirstConverged10 f x := by
  have h1 : newtonIterate f 1 = some x := by
    rw [newtonIterate_succ (k := 0) (x := 0) rfl hJ, zero_add, hx]
  refine ⟨1, le_rfl, by norm_num, h1, ?_, fun j hj1 hj2 => by omega⟩
  rw [hr, abs_zero]
  exact cohesionTol_pos _

theorem batched_consistency_iff {c y : ℝ} :
    (if c = 0 then y < 0 else y / |c| ≤ suTol) ↔
      ((c = 0 ∧ y < 0) ∨ (c ≠ 0 ∧ y ≤ 1e-6 * |c|)) := by
  by_cases h : c = 0
  · simp [h]
  · have hp : 0 < |c| := abs_pos.mpr h
    rw [if_neg h, div_le_iff₀ hp]
    simp [h, suTol]

/-- Elastic trial state of the batched model. -/
def bElastic (m : DPParams) (law : HardLaw) (s : V6) (acc : ℝ) : Prop :=
  ((law acc).1 = 0 ∧ dpYield m s (law acc).1 < 0) ∨
    ((law acc).1 ≠ 0 ∧ dpYield m s (law acc).1 ≤ 1e-6 * |(law acc).1|)

/-- Factor of the deviator in the batched cone return. -/
def bFactor (m : DPParams) (s : V6) (x : ℝ) : ℝ :=
  1 - shear m.E m.v * x / √(max (1 / 2 * norm6 (dev6 s) ^ 2) suSmall)

theorem dpVmapReturn_eq {m : DPParams} {law : HardLaw} {eT : V6} {acc : ℝ} :
    let s := hooke6 (lame m.E m.v) (shear m.E m.v) eT
    (bElastic m law s acc → dpVmapReturn m law eT acc = some
      { eStrain := eT, stress := s, acc := acc, isPlast := false, isApex := false
        tangent := kel66 (isoTensor (lame m.E m.v) (shear m.E m.v)) }) ∧
    (¬ bElastic m law s acc →
      (dpMaskResult (coneEq m law s acc) = none → dpVmapReturn m law eT acc = none) ∧
      ∀ x, dpMaskResult (coneEq m law s acc) = some x →
        (0 ≤ sqrtJ2 s - shear m.E m.v * x → dpVmapReturn m law eT acc = some
          { eStrain := dpElastic m (pressure6 s - bulk m.E m.v * m.etaf * x)
              (fun k => bFactor m s x * dev6 s k)
            stress := fun k => (pressure6 s - bulk m.E m.v * m.etaf * x) * one6 k +
              bFactor m s x * dev6 s k
            acc := acc + m.xi * x, isPlast := true, isApex := false
            tangent := kel66 (dpVmapConeTangent m eT x (law (acc + m.xi * x)).2) }) ∧
        (sqrtJ2 s - shear m.E m.v * x < 0 →
          (m.etaf = 0 ∨ m.etay = 0 → dpVmapReturn m law eT acc = none) ∧
          (¬ (m.etaf = 0 ∨ m.etay = 0) →
            (dpMaskResult (dpApexEval m law (pressure6 s) acc) = none →
              dpVmapReturn m law eT acc = none) ∧
            ∀ y, dpMaskResult (dpApexEval m law (pressure6 s) acc) = some y →
              dpVmapReturn m law eT acc = some
                { eStrain := dpElastic m (pressure6 s - bulk m.E m.v * y) 0
                  stress := fun k => (pressure6 s - bulk m.E m.v * y) * one6 k
                  acc := acc + m.xi / m.etaf * y, isPlast := true, isApex := true
                  tangent := kel66 (dpApexTangent m (law (acc + m.xi / m.etaf * y)).2) }))) := by
  have hl : lamOf m.E m.v = lame m.E m.v := rfl
  have hm : miuOf m.E m.v = shear m.E m.v := rfl
  have hK : m.K = bulk m.E m.v := rfl
  have hG : m.G = shear m.E m.v := rfl
  have hp : ∀ s : V6, 1 / 3 * tr6 s = pressure6 s := fun s => by unfold pressure6; ring
  intro s
  have hy : sqrtJ2 s + m.etay * pressure6 s - m.xi * (law acc).1 = dpYield m s (law acc).1 := rfl
  have hcone : dpConeEval m law (sqrtJ2 s) (pressure6 s) acc = coneEq m law s acc := rfl
  have hsd : hooke6 (lame m.E m.v) (shear m.E m.v) eT = s := rfl
  unfold dpVmapReturn
  simp only [mv6_iso, mv6_devprojsym, hl, hm, sum_unkel6, sqrt_j2, hp, hsd, hy, hcone,
    dpVmapPlasticStep]
  constructor
  · intro he
    rw [decide_eq_true (batched_consistency_iff.mpr he)]
    simp [dpVmapElasticStep]
  · intro he
    have hr : ∀ f, (if (dpMaskedLoop f suTol false dpVmapMaxIter).2 = true then
      (dpMaskedLoop f suTol false dpVmapMaxIter).1 else none) = dpMaskResult f := fun _ => rfl
    rw [decide_eq_false (fun h => he (batched_consistency_iff.mp h))]
    simp only [Bool.false_eq_true, if_false, hr]
    refine ⟨fun hn => by rw [hn], fun x hx => ⟨fun hge => ?_, fun hlt => ⟨fun h0 => ?_, fun h0 =>
      ⟨fun hn => ?_, fun y hy => ?_⟩⟩⟩⟩
    · rw [hx]
      simp only [hG, if_neg (not_lt.mpr hge)]
      simp only [hK, if_true, Bool.false_eq_true, if_false, soid6_eq]
      rfl
    · rw [hx]
      simp only [hG, if_pos hlt, dpVmapApexStep, if_pos h0]
    · rw [hx]
      simp only [hG, if_pos hlt, dpVmapApexStep, if_neg h0, Bool.or_false, hr, hn]
    · rw [hx]
      simp only [hG, if_pos hlt, dpVmapApexStep, if_neg h0, Bool.or_false, hr, hy]
      simp only [hK, if_true, soid6_eq]

theorem bFactor_eq (m : DPParams) (s : V6) (x : ℝ) :
    bFactor m s x = 1 - shear m.E m.v * x / max (sqrtJ2 s) 1e-4 := by
  have h1 : √(1e-8 : ℝ) = 1e-4 := by
    rw [show (1e-8 : ℝ) = 1e-4 ^ 2 by norm_num, Real.sqrt_sq (by norm_num)]
  have hm : Monotone Real.sqrt := fun _ _ h => Real.sqrt_le_sqrt h
  unfold bFactor
  rw [hm.map_max, sqrt_j2, show suSmall = 1e-8 from rfl, h1]

/-- Outcome of the batched 3D return mapping. -/
theorem dpVmapReturn_cases {m : DPParams} {law : HardLaw} {eT : V6} {acc : ℝ} {r : DPReturn}
    (h : dpVmapReturn m law eT acc = some r) :
    let s := hooke6 (lame m.E m.v) (shear m.E m.v) eT
    (r.isPlast = false ∧ r.isApex = false ∧ bElastic m law s acc ∧
      r.eStrain = eT ∧ r.stress = s ∧ r.acc = acc ∧
      r.tangent = kel66 (isoTensor (lame m.E m.v) (shear m.E m.v))) ∨
    (r.isPlast = true ∧ r.isApex = false ∧ ¬ bElastic m law s acc ∧
      ∃ x, FirstConverged10 (coneEq m law s acc) x ∧ 0 ≤ sqrtJ2 s - shear m.E m.v * x ∧
        r.acc = acc + m.xi * x ∧
        r.eStrain = dpElastic m (pressure6 s - bulk m.E m.v * m.etaf * x)
          (fun k => bFactor m s x * dev6 s k) ∧
        (r.stress = fun k => (pressure6 s - bulk m.E m.v * m.etaf * x) * one6 k +
          bFactor m s x * dev6 s k)) ∨
    (r.isPlast = true ∧ r.isApex = true ∧ ¬ bElastic m law s acc ∧
      m.etaf ≠ 0 ∧ m.etay ≠ 0 ∧
      (∃ x, FirstConverged10 (coneEq m law s acc) x ∧ sqrtJ2 s - shear m.E m.v * x < 0) ∧
      ∃ x, FirstConverged10 (dpApexEval m law (pressure6 s) acc) x ∧
        r.acc = acc + m.xi / m.etaf * x ∧
        r.eStrain = dpElastic m (pressure6 s - bulk m.E m.v * x) 0 ∧
        (r.stress = fun k => (pressure6 s - bulk m.E m.v * x) * one6 k) ∧
        r.tangent = kel66 (dpApexTangent m (law r.acc).2)) := by
  intro s
  obtain ⟨e1, e2⟩ := dpVmapReturn_eq (m := m) (law := law) (eT := eT) (acc := acc)
  by_cases hel : bElastic m law s acc
  · obtain rfl := Option.some.inj ((e1 hel).symm.trans h)
    exact Or.inl ⟨rfl, rfl, hel, rfl, rfl, rfl, rfl⟩
  · obtain ⟨e3, e4⟩ := e2 hel
    cases hx : dpMaskResult (coneEq m law s acc) with
    | none => rw [e3 hx] at h; cases h
    | some x =>
      obtain ⟨e5, e6⟩ := e4 x hx
      by_cases hge : 0 ≤ sqrtJ2 s - shear m.E m.v * x
      · obtain rfl := Option.some.inj ((e5 hge).symm.trans h)
        exact Or.inr (Or.inl ⟨rfl, rfl, hel, x, dpMaskResult_some.mp hx, hge, rfl, rfl, rfl⟩)
      · obtain ⟨e7, e8⟩ := e6 (not_le.mp hge)
        by_cases h0 : m.etaf = 0 ∨ m.etay = 0
        · rw [e7 h0] at h; cases h
        · obtain ⟨e9, e10⟩ := e8 h0
          push Not at h0
          cases hy : dpMaskResult (dpApexEval m law (pressure6 s) acc) with
          | none => rw [e9 hy] at h; cases h
          | some y =>
            obtain rfl := Option.some.inj ((e10 y hy).symm.trans h)
            exact Or.inr (Or.inr ⟨rfl, rfl, hel, h0.1, h0.2,
              ⟨x, dpMaskResult_some.mp hx, not_le.mp hge⟩, y, dpMaskResult_some.mp hy, rfl, rfl,
              rfl, rfl⟩)

theorem dpVmapReturn_none {m : DPParams} {law : HardLaw} {eT : V6} {acc : ℝ} :
    let s := hooke6 (lame m.E m.v) (shear m.E m.v) eT
    dpVmapReturn m law eT acc = none ↔
      ¬ bElastic m law s acc ∧
      (NeverConverges10 (coneEq m law s acc) ∨
        ∃ x, FirstConverged10 (coneEq m law s acc) x ∧ sqrtJ2 s - shear m.E m.v * x < 0 ∧
          (m.etaf = 0 ∨ m.etay = 0 ∨ NeverConverges10 (dpApexEval m law (pressure6 s) acc))) := by
  intro s
  obtain ⟨e1, e2⟩ := dpVmapReturn_eq (m := m) (law := law) (eT := eT) (acc := acc)
  by_cases hel : bElastic m law s acc
  · rw [e1 hel]
    simp only [reduceCtorEq, false_iff]
    exact fun h => h.1 hel
  · obtain ⟨e3, e4⟩ := e2 hel
    simp only [hel, not_false_eq_true, true_and]
    cases hx : dpMaskResult (coneEq m law s acc) with
    | none =>
      rw [e3 hx]
      exact ⟨fun _ => Or.inl (dpMaskResult_none.mp hx), fun _ => rfl⟩
    | some x =>
      obtain ⟨e5, e6⟩ := e4 x hx
      have hfc := dpMaskResult_some.mp hx
      have hnn := not_never10 hfc
      simp only [hnn, false_or]
      by_cases hge : 0 ≤ sqrtJ2 s - shear m.E m.v * x
      · rw [e5 hge]
        simp only [reduceCtorEq, false_iff]
        rintro ⟨y, hy, hlt, -⟩
        rw [firstConverged10_unique hy hfc] at hlt
        linarith
      · obtain ⟨e7, e8⟩ := e6 (not_le.mp hge)
        by_cases h0 : m.etaf = 0 ∨ m.etay = 0
        · rw [e7 h0]
          exact ⟨fun _ => ⟨x, hfc, not_le.mp hge, h0.elim Or.inl fun h => Or.inr (Or.inl h)⟩, fun _ => rfl⟩
        · obtain ⟨e9, e10⟩ := e8 h0
          cases hy : dpMaskResult (dpApexEval m law (pressure6 s) acc) with
          | none =>
            rw [e9 hy]
            exact ⟨fun _ => ⟨x, hfc, not_le.mp hge, Or.inr (Or.inr (dpMaskResult_none.mp hy))⟩,
              fun _ => rfl⟩
          | some y =>
            rw [e10 y hy]
            simp only [reduceCtorEq, false_iff]
            rintro ⟨z, -, -, hz⟩
            rcases hz with hz | hz | hz
            · exact h0 (Or.inl hz)
            · exact h0 (Or.inr hz)
            · exact not_never10 (dpMaskResult_some.mp hy) hz

/-- Relation between the batched update of a state and the 3D return mapping. -/
theorem dpVmapUpdate_good {p : PType} {m : DPParams} {law : HardLaw} {inc : T2 p.dim}
    {old new : DPState p} {T : Option (Fin p.len → Fin p.len → ℝ)}
    (h : dpVmapUpdate p m law inc old = (.good new, T)) :
    ∃ r, dpVmapReturn m law (trial3D old.toVMState inc) old.acc = some r ∧
      elastic3D new.toVMState = r.eStrain ∧ stress3D new.toVMState = r.stress ∧
      new.acc = r.acc ∧ new.isPlast = r.isPlast ∧ new.isApex = r.isApex ∧ new.isSuFail = false ∧
      new.strain = old.strain + mf p inc ∧ T = some (to2DM p r.tangent) := by
  unfold dpVmapUpdate at h
  have htr : to3D p old.eStrain old.e33 + to3D p (mf p inc) 0 = trial3D old.toVMState inc := rfl
  simp only [htr] at h
  cases hr : dpVmapReturn m law (trial3D old.toVMState inc) old.acc with
  | none => rw [hr] at h; simp at h
  | some r =>
    rw [hr] at h
    simp only [Prod.mk.injEq, DPVars.good.injEq] at h
    obtain ⟨rfl, rfl⟩ := h
    have hs : Planar p (hooke6 (lame m.E m.v) (shear m.E m.v) (trial3D old.toVMState inc)) :=
      planar_hooke6 _ _ (planar_trial _ inc)
    have hz : Planar p (0 : V6) := fun _ => ⟨rfl, rfl⟩
    have hpl : Planar p r.eStrain ∧ Planar p r.stress := by
      rcases dpVmapReturn_cases hr with ⟨-, -, -, he, hst, -⟩ | ⟨-, -, -, x, -, -, -, he, hst⟩ |
        ⟨-, -, -, -, -, -, x, -, -, he, hst, -⟩
      · rw [he, hst]; exact ⟨planar_trial _ inc, hs⟩
      · rw [he, hst]
        exact ⟨planar_dpElastic (planar_smul (planar_dev6 hs)),
          planar_iso (planar_smul (planar_dev6 hs))⟩
      · rw [he, hst]
        refine ⟨planar_dpElastic hz, ?_⟩
        have := planar_iso (c := pressure6 (hooke6 (lame m.E m.v) (shear m.E m.v)
          (trial3D old.toVMState inc)) - bulk m.E m.v * x) hz
        simpa using this
    refine ⟨r, rfl, to3D_to2D hpl.1, to3D_to2D hpl.2, rfl, rfl, rfl, rfl, ?_, rfl⟩
    show to2D p (trial3D old.toVMState inc) + (old.strain - old.eStrain) = _
    rw [← htr, to2D_add, to2D_to3D, to2D_to3D]
    abel

/-! ### C87 -/

/-- C87a: a batched state update fails exactly when the trial state is not elastic and either no
Newton iterate of the cone equation (number 1 to 10) meets the tolerance, or the cone return
overshoots the apex and the apex return is undefined or does not meet the tolerance. -/
theorem C87_failure_iff {p : PType} {m : DPParams} {law : HardLaw} {inc : T2 p.dim}
    {old : DPState p} :
    (∃ s T, dpVmapUpdate p m law inc old = (.nan s, T)) ↔
      ¬ DPBatchedTrialElastic m law old inc ∧
      (NeverConverges10 (coneEquation m law old inc) ∨
        ∃ x, FirstConverged10 (coneEquation m law old inc) x ∧
          sqrtJ2 (hooke6 (lame m.E m.v) (shear m.E m.v) (trial3D old.toVMState inc)) -
            shear m.E m.v * x < 0 ∧
          (m.etaf = 0 ∨ m.etay = 0 ∨ NeverConverges10 (apexEquation m law old inc))) := by
  have : (∃ s T, dpVmapUpdate p m law inc old = (.nan s, T)) ↔
      dpVmapReturn m law (trial3D old.toVMState inc) old.acc = none := by
    unfold dpVmapUpdate
    have htr : to3D p old.eStrain old.e33 + to3D p (mf p inc) 0 = trial3D old.toVMState inc := rfl
    simp only [htr]
    cases hr : dpVmapReturn m law (trial3D old.toVMState inc) old.acc <;> simp
  rw [this]
  exact dpVmapReturn_none

/-- C87b: a step is flagged elastic exactly if the trial state is, and then it is accepted as it
is. -/
theorem C87_elastic_step {p : PType} {m : DPParams} {law : HardLaw} {inc : T2 p.dim}
    {old new : DPState p} {T : Option (Fin p.len → Fin p.len → ℝ)}
    (h : dpVmapUpdate p m law inc old = (.good new, T)) :
    (new.isPlast = false ↔ DPBatchedTrialElastic m law old inc) ∧
    (new.isPlast = false →
      elastic3D new.toVMState = trial3D old.toVMState inc ∧ new.acc = old.acc ∧
      plastic3D new.toVMState = plastic3D old.toVMState ∧
      stress3D new.toVMState = hooke6 (lame m.E m.v) (shear m.E m.v) (elastic3D new.toVMState)) := by
  obtain ⟨r, hr, h1, h2, h3, h4, h5, h6, h7, -⟩ := dpVmapUpdate_good h
  rcases dpVmapReturn_cases hr with ⟨hp, ha, hc, he, hst, hac, -⟩ | ⟨hp, ha, hc, -⟩ |
    ⟨hp, ha, hc, -⟩
  · refine ⟨by simp only [h4, hp, true_iff]; exact hc, fun _ => ?_⟩
    refine ⟨h1.trans he, h3.trans hac, ?_, by rw [h2, h1, hst, he]⟩
    funext k
    simp only [plastic3D, strain3D_step h7, h1, he]
    simp only [trial3D]
    ring
  · refine ⟨by simp only [h4, hp, Bool.true_eq_false, false_iff]; exact hc, fun hf => ?_⟩
    rw [h4, hp] at hf; cases hf
  · refine ⟨by simp only [h4, hp, Bool.true_eq_false, false_iff]; exact hc, fun hf => ?_⟩
    rw [h4, hp] at hf; cases hf

theorem cone_excess {J g : ℝ} (hge : 0 ≤ J - g) :
    |1 - g / max J 1e-4| * J = J - g + g * (1 - J / max J 1e-4) ∧
      g * (1 - J / max J 1e-4) ≤ 2.5e-5 ∧ (1e-4 ≤ J → g * (1 - J / max J 1e-4) = 0) := by
  have hM : (0 : ℝ) < max J 1e-4 := lt_of_lt_of_le (by norm_num) (le_max_right _ _)
  have hle : J ≤ max J 1e-4 := le_max_left _ _
  refine ⟨?_, ?_, fun h => ?_⟩
  · have h1 : g / max J 1e-4 ≤ 1 := (div_le_one hM).mpr (by linarith)
    rw [abs_of_nonneg (by linarith)]
    field_simp
    ring
  · rcases le_total J 1e-4 with h | h
    · rw [max_eq_right h]
      have h2 : 0 ≤ 1 - J / 1e-4 := by
        rw [sub_nonneg]; exact (div_le_one (by norm_num)).mpr h
      have h3 : g * (1 - J / 1e-4) ≤ J * (1 - J / 1e-4) :=
        mul_le_mul_of_nonneg_right (by linarith) h2
      refine h3.trans ?_
      have : J * (1 - J / 1e-4) = 2.5e-5 - (J - 5e-5) ^ 2 / 1e-4 := by ring
      rw [this]
      have : 0 ≤ (J - 5e-5) ^ 2 / 1e-4 := by positivity
      linarith
    · rw [max_eq_left h, div_self (by linarith [show (0:ℝ) < 1e-4 by norm_num]), sub_self, mul_zero]
      norm_num
  · rw [max_eq_left h, div_self (by linarith [show (0:ℝ) < 1e-4 by norm_num]), sub_self, mul_zero]

/-- C87c: after a batched return to the cone with multiplier `Δγ` (the first Newton iterate meeting
the tolerance) the yield function at the updated stress and cohesion is the residual at `Δγ` plus
`G Δγ (1 - √J2 / max(√J2, 1e-4))`.  Hence it is within the tolerance of zero if the trial `√J2` is
at least `1e-4`, and never above the tolerance plus `2.5e-5`.  The stress is Hooke's law of the
elastic strain. -/
theorem C87_cone {p : PType} {m : DPParams} (hA : Admissible m.E m.v) {law : HardLaw}
    {inc : T2 p.dim} {old new : DPState p} {T : Option (Fin p.len → Fin p.len → ℝ)}
    (h : dpVmapUpdate p m law inc old = (.good new, T)) (hp : new.isPlast = true)
    (ha : new.isApex = false) :
    let trial := hooke6 (lame m.E m.v) (shear m.E m.v) (trial3D old.toVMState inc)
    (∃ x, FirstConverged10 (coneEquation m law old inc) x ∧ new.acc = old.acc + m.xi * x ∧
      pressure6 (stress3D new.toVMState) = pressure6 trial - bulk m.E m.v * m.etaf * x ∧
      dpYield m (stress3D new.toVMState) (law new.acc).1 = (coneEquation m law old inc x).residual +
        shear m.E m.v * x * (1 - sqrtJ2 trial / max (sqrtJ2 trial) 1e-4)) ∧
    (1e-4 ≤ sqrtJ2 trial →
      |dpYield m (stress3D new.toVMState) (law new.acc).1| < cohesionTol (law new.acc).1) ∧
    dpYield m (stress3D new.toVMState) (law new.acc).1 < cohesionTol (law new.acc).1 + 2.5e-5 ∧
    stress3D new.toVMState = hooke6 (lame m.E m.v) (shear m.E m.v) (elastic3D new.toVMState) := by
  obtain ⟨r, hr, h1, h2, h3, h4, h5, h6, h7, -⟩ := dpVmapUpdate_good h
  rcases dpVmapReturn_cases hr with ⟨hp', -⟩ | ⟨hp', ha', hc, x, hx, hge, hac, he, hst⟩ |
    ⟨hp', ha', -⟩
  · rw [h4, hp'] at hp; cases hp
  · intro trial
    have hx' : FirstConverged10 (coneEquation m law old inc) x := hx
    obtain ⟨k, -, -, -, hres, -⟩ := hx'
    set f : ℝ := bFactor m trial x with hf
    have ht := tr6_smul_dev trial f
    have hsn : stress3D new.toVMState = fun k =>
        (pressure6 trial - bulk m.E m.v * m.etaf * x) * one6 k + f * dev6 trial k := by
      rw [h2, hst]
    have hpr : pressure6 (stress3D new.toVMState) = pressure6 trial - bulk m.E m.v * m.etaf * x := by
      rw [hsn, pressure6_iso ht]
    obtain ⟨x1, x2, x3⟩ := cone_excess hge
    have hj : sqrtJ2 (stress3D new.toVMState) = sqrtJ2 trial - shear m.E m.v * x +
        shear m.E m.v * x * (1 - sqrtJ2 trial / max (sqrtJ2 trial) 1e-4) := by
      rw [hsn, sqrtJ2_smul, hf, bFactor_eq, x1]
    have hacc : new.acc = old.acc + m.xi * x := h3.trans hac
    have hsc : (coneEquation m law old inc x).scale = (law new.acc).1 := by rw [hacc]; rfl
    rw [hsc] at hres
    have hy : dpYield m (stress3D new.toVMState) (law new.acc).1 =
        (coneEquation m law old inc x).residual +
        shear m.E m.v * x * (1 - sqrtJ2 trial / max (sqrtJ2 trial) 1e-4) := by
      unfold dpYield
      rw [hj, hpr, hacc]
      simp only [coneEquation]
      ring
    refine ⟨⟨x, hx, hacc, hpr, hy⟩, fun hb => ?_, ?_, ?_⟩
    · rw [hy, x3 hb, add_zero]; exact hres
    · rw [hy]
      have := (abs_lt.mp hres).2
      linarith
    · rw [hsn, h1, he, hooke6_dpElastic hA ht]
  · rw [h5, ha'] at ha; cases ha

/-- C87d: after a batched return to the apex the deviator is zero, the pressure is within the
tolerance of `ξ/η` times the cohesion, hence the yield function within `|η|` times the tolerance of
zero, and the stress is Hooke's law of the elastic strain. -/
theorem C87_apex {p : PType} {m : DPParams} (hA : Admissible m.E m.v) {law : HardLaw}
    {inc : T2 p.dim} {old new : DPState p} {T : Option (Fin p.len → Fin p.len → ℝ)}
    (h : dpVmapUpdate p m law inc old = (.good new, T)) (ha : new.isApex = true) :
    let trial := hooke6 (lame m.E m.v) (shear m.E m.v) (trial3D old.toVMState inc)
    new.isPlast = true ∧ dev6 (stress3D new.toVMState) = 0 ∧
    |pressure6 (stress3D new.toVMState) - m.xi / m.etay * (law new.acc).1| <
      cohesionTol (law new.acc).1 ∧
    |dpYield m (stress3D new.toVMState) (law new.acc).1| ≤
      |m.etay| * cohesionTol (law new.acc).1 ∧
    stress3D new.toVMState = hooke6 (lame m.E m.v) (shear m.E m.v) (elastic3D new.toVMState) ∧
    (∃ x, FirstConverged10 (coneEquation m law old inc) x ∧
      sqrtJ2 trial - shear m.E m.v * x < 0) ∧
    ∃ x, FirstConverged10 (apexEquation m law old inc) x ∧
      new.acc = old.acc + m.xi / m.etaf * x := by
  intro trial
  obtain ⟨r, hr, h1, h2, h3, h4, h5, h6, h7, -⟩ := dpVmapUpdate_good h
  rcases dpVmapReturn_cases hr with ⟨-, ha', -⟩ | ⟨-, ha', -⟩ |
    ⟨hp', ha', hc, hef, hey, hcone, x, hx, hac, he, hst, -⟩
  · rw [h5, ha'] at ha; cases ha
  · rw [h5, ha'] at ha; cases ha
  have h0 : tr6 (0 : V6) = 0 := by simp [tr6]
  have hsn : stress3D new.toVMState = fun k =>
      (pressure6 trial - bulk m.E m.v * x) * one6 k + (0 : V6) k := by
    rw [h2, hst]; funext k; simp [trial]
  have hacc : new.acc = old.acc + m.xi / m.etaf * x := h3.trans hac
  have hdev : dev6 (stress3D new.toVMState) = 0 := by rw [hsn, dev6_iso h0]
  have hpr : pressure6 (stress3D new.toVMState) = pressure6 trial - bulk m.E m.v * x := by
    rw [hsn, pressure6_iso h0]
  have hx' : FirstConverged10 (apexEquation m law old inc) x := hx
  obtain ⟨k, -, -, -, hres, -⟩ := hx
  have hres' : |(law new.acc).1 * (m.xi / m.etay) - (pressure6 trial - bulk m.E m.v * x)| <
      cohesionTol (law new.acc).1 := by rw [hacc]; exact hres
  have hpc : |pressure6 (stress3D new.toVMState) - m.xi / m.etay * (law new.acc).1| <
      cohesionTol (law new.acc).1 := by
    rw [hpr, abs_sub_comm, mul_comm]; exact hres'
  refine ⟨h4.trans hp', hdev, hpc, ?_, ?_, hcone, x, hx', hacc⟩
  · have hj : sqrtJ2 (stress3D new.toVMState) = 0 := by
      unfold sqrtJ2; rw [hdev]; simp [norm6]
    have : dpYield m (stress3D new.toVMState) (law new.acc).1 =
        m.etay * (pressure6 (stress3D new.toVMState) - m.xi / m.etay * (law new.acc).1) := by
      unfold dpYield
      rw [hj]; field_simp; ring
    rw [this, abs_mul]
    exact mul_le_mul_of_nonneg_left hpc.le (abs_nonneg _)
  · rw [hsn, h1, he, hooke6_dpElastic hA h0]

/-- C87e: from the initial state (not beyond yield), after any history of the batched model without
failure the total strain is the sum of the increments, the stress is Hooke's law of the elastic
strain, and the stress is within the tolerance plus `2.5e-5` of the current yield surface. -/
theorem C87_history {p : PType} {m : DPParams} (hA : Admissible m.E m.v) {law : HardLaw}
    (h0 : 0 ≤ m.xi * (law 0).1) (incs : List (T2 p.dim)) {s : DPState p}
    (h : dpVmapRun p m law incs = .good s) : DPBatchedInvariant m law incs.sum s := by
  suffices H : ∀ (incs : List (T2 p.dim)) (s0 : DPState p) (total : T2 p.dim),
      DPBatchedInvariant m law total s0 →
      incs.foldl (dpVmapStep p m law) (.good s0) = .good s →
      DPBatchedInvariant m law (total + incs.sum) s by
    obtain ⟨i1, i2, i3, i4⟩ := C36_history hA h0 [] (s := dpInit p) rfl
    have := H incs (dpInit p) 0 ⟨i1, i2, by linarith, i4⟩ h
    rwa [zero_add] at this
  intro incs
  induction incs with
  | nil =>
    intro s0 total h0 hs
    simp only [List.foldl_nil, DPVars.good.injEq] at hs
    subst hs
    simpa using h0
  | cons inc incs ih =>
    intro s0 total hi hs
    simp only [List.foldl_cons, dpVmapStep] at hs
    cases hu : dpVmapUpdate p m law inc s0 with
    | mk st T =>
      rw [hu] at hs
      cases st with
      | nan sn =>
        exfalso
        have : ∀ (l : List (T2 p.dim)) sn, l.foldl (dpVmapStep p m law) (.nan sn) ≠ .good s := by
          intro l
          induction l with
          | nil => intro sn h; cases h
          | cons i l ih => intro sn; exact ih none
        exact this incs sn hs
      | good s1 =>
        rw [List.sum_cons, ← add_assoc]
        refine ih s1 (total + inc) ?_ hs
        obtain ⟨r, -, -, -, -, -, -, h6, h7, -⟩ := dpVmapUpdate_good hu
        have hstr : s1.strain = mf p (total + inc) := by rw [h7, hi.strain, mf_add]
        have htol := cohesionTol_nonneg (law s1.acc).1
        have hmul : ∀ {y : ℝ}, y ≤ cohesionTol (law s1.acc).1 + 2.5e-5 →
            y ≤ max 1 |m.etay| * cohesionTol (law s1.acc).1 + 2.5e-5 := by
          intro y hy
          have : 1 * cohesionTol (law s1.acc).1 ≤ max 1 |m.etay| * cohesionTol (law s1.acc).1 :=
            mul_le_mul_of_nonneg_right (le_max_left _ _) htol
          linarith
        cases hap : s1.isApex with
        | true =>
          obtain ⟨-, -, -, hy, hst, -⟩ := C87_apex hA hu hap
          refine ⟨hstr, hst, ?_, h6⟩
          have h8 := (le_abs_self _).trans (hy.trans
            (mul_le_mul_of_nonneg_right (le_max_right 1 _) htol))
          linarith
        | false =>
          cases hpl : s1.isPlast with
          | true =>
            obtain ⟨-, -, hy, hst⟩ := C87_cone hA hu hpl hap
            exact ⟨hstr, hst, hmul hy.le, h6⟩
          | false =>
            have hel := C87_elastic_step hu
            obtain ⟨he, hac, -, hst⟩ := hel.2 hpl
            refine ⟨hstr, hst, hmul ?_, h6⟩
            have hy := hel.1.mp hpl
            rw [hst, he, hac]
            have htol0 := cohesionTol_nonneg (law s0.acc).1
            rcases hy with ⟨-, hy⟩ | ⟨hc0, hy⟩
            · linarith
            · have : 1e-6 * |(law s0.acc).1| ≤ cohesionTol (law s0.acc).1 := by
                unfold cohesionTol
                split
                · rename_i hlt; linarith
                · exact le_rfl
              linarith

/-! ### Linear cohesion hardening -/

theorem cone_linear10 {m : DPParams} (hm : Frictional m) {c0 a : ℝ} (ha : 0 ≤ a) {s : V6} {acc : ℝ}
    (hacc : 0 ≤ acc) (hy : 0 ≤ dpYield m s (c0 + a * acc)) :
    FirstConverged10 (coneEq m (linearHardening c0 a) s acc)
      (coneMultiplier m a (dpYield m s (c0 + a * acc))) := by
  have hK := hm.elastic.bulk_pos; have hG := hm.elastic.shear_pos
  have h1 := hm.xi; have h2 := hm.etay; have h3 := hm.etaf
  have hKd : m.K = bulk m.E m.v := rfl
  have hGd : m.G = shear m.E m.v := rfl
  have hD : 0 < shear m.E m.v + bulk m.E m.v * m.etaf * m.etay + m.xi ^ 2 * a := by positivity
  have hx : 0 ≤ coneMultiplier m a (dpYield m s (c0 + a * acc)) := div_nonneg hy hD.le
  set x := coneMultiplier m a (dpYield m s (c0 + a * acc)) with hxd
  have hJ : ∀ y, 0 ≤ y → (coneEq m (linearHardening c0 a) s acc y).jacobian =
      -(shear m.E m.v + bulk m.E m.v * m.etaf * m.etay + m.xi ^ 2 * a) := by
    intro y hy
    simp only [coneEq, dpConeEval, linear_nonneg (show 0 ≤ acc + m.xi * y by positivity), hKd, hGd]
    ring
  have hR : ∀ y, 0 ≤ y → (coneEq m (linearHardening c0 a) s acc y).residual =
      dpYield m s (c0 + a * acc) -
        (shear m.E m.v + bulk m.E m.v * m.etaf * m.etay + m.xi ^ 2 * a) * y := by
    intro y hy
    simp only [coneEq, dpConeEval, linear_nonneg (show 0 ≤ acc + m.xi * y by positivity), hKd, hGd,
      dpYield]
    ring
  refine firstConverged10_affine ?_ ?_ ?_
  · rw [hJ 0 le_rfl]; exact neg_ne_zero.mpr hD.ne'
  · rw [hJ 0 le_rfl, hR 0 le_rfl, mul_zero, sub_zero, neg_div_neg_eq]; rfl
  · rw [hR x hx, hxd, coneMultiplier]; field_simp; ring

theorem apex_linear10 {m : DPParams} (hm : Frictional m) {c0 a : ℝ} (ha : 0 ≤ a) {p acc : ℝ}
    (hacc : 0 ≤ acc) (hp : 0 ≤ p - m.xi / m.etay * (c0 + a * acc)) :
    FirstConverged10 (dpApexEval m (linearHardening c0 a) p acc)
      ((p - m.xi / m.etay * (c0 + a * acc)) /
        (bulk m.E m.v + m.xi / m.etaf * (m.xi / m.etay) * a)) := by
  have hK := hm.elastic.bulk_pos
  have h1 := hm.xi; have h2 := hm.etay; have h3 := hm.etaf
  have hKd : m.K = bulk m.E m.v := rfl
  have hal : 0 ≤ m.xi / m.etaf := by positivity
  have hbe : 0 ≤ m.xi / m.etay := by positivity
  have hD : 0 < bulk m.E m.v + m.xi / m.etaf * (m.xi / m.etay) * a := by positivity
  set x := (p - m.xi / m.etay * (c0 + a * acc)) /
    (bulk m.E m.v + m.xi / m.etaf * (m.xi / m.etay) * a) with hxd
  have hx : 0 ≤ x := div_nonneg hp hD.le
  have hJ : ∀ y, 0 ≤ y → (dpApexEval m (linearHardening c0 a) p acc y).jacobian =
      bulk m.E m.v + m.xi / m.etaf * (m.xi / m.etay) * a := by
    intro y hy
    simp only [dpApexEval,
      linear_nonneg (show 0 ≤ acc + m.xi / m.etaf * y from add_nonneg hacc (mul_nonneg hal hy)), hKd]
    ring
  have hR : ∀ y, 0 ≤ y → (dpApexEval m (linearHardening c0 a) p acc y).residual =
      -(p - m.xi / m.etay * (c0 + a * acc)) +
        (bulk m.E m.v + m.xi / m.etaf * (m.xi / m.etay) * a) * y := by
    intro y hy
    simp only [dpApexEval,
      linear_nonneg (show 0 ≤ acc + m.xi / m.etaf * y from add_nonneg hacc (mul_nonneg hal hy)), hKd]
    ring
  refine firstConverged10_affine ?_ ?_ ?_
  · rw [hJ 0 le_rfl]; exact hD.ne'
  · rw [hJ 0 le_rfl, hR 0 le_rfl, mul_zero, add_zero, neg_neg]
  · rw [hR x hx, hxd, mul_div_cancel₀ _ hD.ne']; ring

theorem batched_yield_nonneg {m : DPParams} {c0 a : ℝ} {s : V6} {acc : ℝ} (hacc : 0 ≤ acc)
    (h : ¬ bElastic m (linearHardening c0 a) s acc) : 0 ≤ dpYield m s (c0 + a * acc) := by
  unfold bElastic at h
  rw [linear_nonneg hacc] at h
  simp only at h
  by_contra hlt
  apply h
  by_cases h0 : c0 + a * acc = 0
  · exact Or.inl ⟨h0, not_le.mp hlt⟩
  · refine Or.inr ⟨h0, ?_⟩
    have : 0 ≤ 1e-6 * |c0 + a * acc| := by positivity
    linarith [not_le.mp hlt]

/-- With linear cohesion hardening the batched return mapping succeeds. -/
theorem dpVmapReturn_linear {m : DPParams} (hm : Frictional m) {c0 a : ℝ} (ha : 0 ≤ a) {eT : V6}
    {acc : ℝ} (hacc : 0 ≤ acc) :
    ∃ r, dpVmapReturn m (linearHardening c0 a) eT acc = some r ∧ 0 ≤ r.acc := by
  have hK := hm.elastic.bulk_pos; have hG := hm.elastic.shear_pos
  have h1 := hm.xi; have h2 := hm.etay; have h3 := hm.etaf
  have hD : 0 < shear m.E m.v + bulk m.E m.v * m.etaf * m.etay + m.xi ^ 2 * a := by positivity
  set s := hooke6 (lame m.E m.v) (shear m.E m.v) eT with hs
  cases hr : dpVmapReturn m (linearHardening c0 a) eT acc with
  | none =>
    exfalso
    obtain ⟨hne, hn⟩ := dpVmapReturn_none.mp hr
    have hfc := cone_linear10 hm ha hacc (batched_yield_nonneg hacc hne)
    rcases hn with hn | ⟨x, hx, hlt, hn⟩
    · exact not_never10 hfc hn
    · obtain rfl := firstConverged10_unique hx hfc
      rcases hn with h | h | h
      · exact h3.ne' h
      · exact h2.ne' h
      · exact not_never10 (apex_linear10 hm ha hacc (apex_pressure hm ha hlt).le) h
  | some r =>
    refine ⟨r, rfl, ?_⟩
    rcases dpVmapReturn_cases hr with ⟨-, -, -, -, -, hac, -⟩ | ⟨-, -, hc, x, hx, -, hac, -⟩ |
      ⟨-, -, hc, -, -, ⟨y, hy, hlt⟩, x, hx, hac, -⟩
    · rw [hac]; exact hacc
    · have hyl := batched_yield_nonneg hacc hc
      obtain rfl := firstConverged10_unique hx (cone_linear10 hm ha hacc hyl)
      rw [hac]
      exact add_nonneg hacc (mul_nonneg h1 (div_nonneg hyl hD.le))
    · have hyl := batched_yield_nonneg hacc hc
      obtain rfl := firstConverged10_unique hy (cone_linear10 hm ha hacc hyl)
      have hpr := apex_pressure hm ha hlt
      obtain rfl := firstConverged10_unique hx (apex_linear10 hm ha hacc hpr.le)
      rw [hac]
      have hD2 : 0 < bulk m.E m.v + m.xi / m.etaf * (m.xi / m.etay) * a := by positivity
      exact add_nonneg hacc (mul_nonneg (by positivity) (div_nonneg hpr.le hD2.le))

/-- C87f: with linear cohesion hardening (nonnegative slope) and frictional parameters no history
of the batched model ever fails. -/
theorem C87_linear_never_fails {p : PType} {m : DPParams} (hm : Frictional m) {c0 a : ℝ}
    (ha : 0 ≤ a) (incs : List (T2 p.dim)) :
    ∃ s, dpVmapRun p m (linearHardening c0 a) incs = .good s := by
  suffices H : ∀ (incs : List (T2 p.dim)) (st : DPState p), 0 ≤ st.acc →
      ∃ s, incs.foldl (dpVmapStep p m (linearHardening c0 a)) (.good st) = .good s by
    exact H incs (dpInit p) le_rfl
  intro incs
  induction incs with
  | nil => intro st _; exact ⟨st, rfl⟩
  | cons inc incs ih =>
    intro st hst
    simp only [List.foldl_cons, dpVmapStep]
    obtain ⟨r, hr, hacc⟩ := dpVmapReturn_linear hm (c0 := c0) ha
      (eT := trial3D st.toVMState inc) hst
    have htr : to3D p st.eStrain st.e33 + to3D p (mf p inc) 0 = trial3D st.toVMState inc := rfl
    simp only [dpVmapUpdate, htr, hr]
    exact ih _ hacc

theorem bElastic_iff {m : DPParams} {law : HardLaw} {s : V6} {acc : ℝ}
    (hc : 1e-8 ≤ |(law acc).1|) :
    bElastic m law s acc ↔ dpYield m s (law acc).1 ≤ cohesionTol (law acc).1 := by
  have h0 : (law acc).1 ≠ 0 := by
    intro h; rw [h, abs_zero] at hc; norm_num at hc
  unfold bElastic cohesionTol
  rw [if_neg (not_lt.mpr hc)]
  simp [h0]

/-- C87g: with linear cohesion hardening, frictional parameters and a cohesion of at least `1e-8`,
the batched update gives the same state as the standard update, unless the step returns to the cone
from a trial `√J2` below `1e-4`; the tangents are equal in elastic and apex steps. -/
theorem C87_linear_standard {p : PType} {m : DPParams} (hm : Frictional m) {c0 a : ℝ} (ha : 0 ≤ a)
    {inc : T2 p.dim} {old : DPState p} (hacc : 0 ≤ old.acc) (hc : 1e-8 ≤ |c0 + a * old.acc|)
    (hJ : DPTrialElastic m (linearHardening c0 a) old inc ∨ coneRest m c0 a old inc < 0 ∨
      1e-4 ≤ sqrtJ2 (hooke6 (lame m.E m.v) (shear m.E m.v) (trial3D old.toVMState inc))) :
    ∃ new T T', dpUpdate p m (linearHardening c0 a) inc old = (.good new, some T) ∧
      dpVmapUpdate p m (linearHardening c0 a) inc old = (.good new, some T') ∧
      (new.isPlast = false ∨ new.isApex = true → T' = T) := by
  obtain ⟨new, T, hu, -, -⟩ := C36_linear hm (c0 := c0) ha (inc := inc) hacc
  obtain ⟨r, hr, -, -, g1, g2, g3, -, -, hT⟩ := dpUpdate_good hu
  obtain ⟨r', hr', -⟩ := dpVmapReturn_linear hm (c0 := c0) ha (eT := trial3D old.toVMState inc) hacc
  have hlaw := linear_nonneg (c0 := c0) (a := a) hacc
  have hiff := bElastic_iff (m := m) (law := linearHardening c0 a) (acc := old.acc)
    (s := hooke6 (lame m.E m.v) (shear m.E m.v) (trial3D old.toVMState inc)) (by rw [hlaw]; exact hc)
  have hyl : ∀ {s : V6}, ¬ dpYield m s (linearHardening c0 a old.acc).1 ≤
      cohesionTol (linearHardening c0 a old.acc).1 → 0 ≤ dpYield m s (c0 + a * old.acc) := by
    intro s h
    have h6 := not_le.mp h
    have := cohesionTol_pos (linearHardening c0 a old.acc).1
    rw [hlaw] at h6 this
    simp only at h6 this
    linarith
  have key : r'.eStrain = r.eStrain ∧ r'.stress = r.stress ∧ r'.acc = r.acc ∧
      r'.isPlast = r.isPlast ∧ r'.isApex = r.isApex ∧
      (r.isPlast = false ∨ r.isApex = true → r'.tangent = r.tangent) := by
    rcases dpReturn_cases hr with ⟨p1, p2, p3, p4, p5, p6, p7⟩ |
      ⟨p1, p2, p3, x, hx, hge, p4, p5, p6, p7⟩ |
      ⟨p1, p2, p3, p4, p5, ⟨x, hx, hlt⟩, y, hy, p6, p7, p8, p9⟩ <;>
    rcases dpVmapReturn_cases hr' with ⟨q1, q2, q3, q4, q5, q6, q7⟩ |
      ⟨q1, q2, q3, x', hx', hge', q4, q5, q6⟩ |
      ⟨q1, q2, q3, q4, q5, ⟨x', hx', hlt'⟩, y', hy', q6, q7, q8, q9⟩
    · exact ⟨q4.trans p4.symm, q5.trans p5.symm, q6.trans p6.symm, q1.trans p1.symm,
        q2.trans p2.symm, fun _ => q7.trans p7.symm⟩
    · exact absurd (hiff.mpr p3) q3
    · exact absurd (hiff.mpr p3) q3
    · exact absurd (hiff.mp q3) p3
    · obtain rfl := firstConverged_unique hx (cone_linear hm ha hacc (hyl p3))
      obtain rfl := firstConverged10_unique hx' (cone_linear10 hm ha hacc (hyl p3))
      have hJ4 : 1e-4 ≤ sqrtJ2 (hooke6 (lame m.E m.v) (shear m.E m.v)
          (trial3D old.toVMState inc)) := by
        rcases hJ with h | h | h
        · exact absurd h p3
        · exact absurd hge (not_le.mpr h)
        · exact h
      have hbig : sqrtJ2 (hooke6 (lame m.E m.v) (shear m.E m.v)
          (trial3D old.toVMState inc)) > suSmall := by
        refine lt_of_lt_of_le ?_ hJ4
        unfold suSmall; norm_num
      rw [bFactor_eq, max_eq_left hJ4] at q5 q6
      rw [if_pos hbig] at p5 p6
      refine ⟨q5.trans p5.symm, q6.trans p6.symm, q4.trans p4.symm, q1.trans p1.symm,
        q2.trans p2.symm, fun h => ?_⟩
      rw [p1, p2] at h
      rcases h with h | h <;> cases h
    · obtain rfl := firstConverged_unique hx (cone_linear hm ha hacc (hyl p3))
      obtain rfl := firstConverged10_unique hx' (cone_linear10 hm ha hacc (hyl p3))
      exact absurd hge (not_le.mpr hlt')
    · exact absurd (hiff.mp q3) p3
    · obtain rfl := firstConverged_unique hx (cone_linear hm ha hacc (hyl p3))
      obtain rfl := firstConverged10_unique hx' (cone_linear10 hm ha hacc (hyl p3))
      exact absurd hge' (not_le.mpr hlt)
    · obtain rfl := firstConverged_unique hx (cone_linear hm ha hacc (hyl p3))
      have hpr := (apex_pressure hm ha hlt).le
      obtain rfl := firstConverged_unique hy (apex_linear hm ha hacc hpr)
      obtain rfl := firstConverged10_unique hy' (apex_linear10 hm ha hacc hpr)
      refine ⟨q7.trans p7.symm, q8.trans p8.symm, q6.trans p6.symm, q1.trans p1.symm,
        q2.trans p2.symm, fun _ => ?_⟩
      rw [q9, p9, q6, p6]
  obtain ⟨k1, k2, k3, k4, k5, k6⟩ := key
  refine ⟨new, to2DM p r.tangent, to2DM p r'.tangent, by rw [hu, hT], ?_, fun h => ?_⟩
  · have htr : to3D p old.eStrain old.e33 + to3D p (mf p inc) 0 = trial3D old.toVMState inc := rfl
    unfold dpUpdate at hu
    simp only [htr, hr, Prod.mk.injEq, DPVars.good.injEq] at hu
    simp only [dpVmapUpdate, htr, hr', k1, k2, k3, k4, k5, hu.1]
  · rw [k6 (by rwa [g2, g3] at h)]

/-! ### Violations and non-vacuity: `E = 1`, `ν = 0`, `ξ = η = η̄ = 1` -/

theorem dpYield_shear {d : ℝ} (hd : 0 ≤ d) (c : ℝ) :
    dpYield dpOne ![0, 0, 0, √2 * d, 0, 0] c = d - c := by
  rw [dpYield, sqrtJ2_shear hd]
  simp [dpOne, pressure6, tr6]

/-- Batched plastic step in pure shear with cohesion `c + a acc`. -/
theorem dpVmap_shear {d c a : ℝ} (ha : 0 ≤ a) (hc : 0 ≤ c) (hd : (1 + 1e-6) * c < d) (h0 : 0 < d) :
    ∃ new T, dpVmapUpdate .solid dpOne (linearHardening c a) (shearInc d) (dpInit .solid) =
      (.good new, T) ∧ new.isPlast = true ∧ new.isApex = false := by
  have hE : dpOne.E = 1 := rfl
  have hv : dpOne.v = 0 := rfl
  have hxi : dpOne.xi = 1 := rfl
  have hey : dpOne.etay = 1 := rfl
  have hef : dpOne.etaf = 1 := rfl
  have hacc : (dpInit .solid).acc = 0 := rfl
  have hG : shear 1 0 = 1 / 2 := by norm_num [shear]
  have hK : bulk 1 0 = 1 / 3 := by norm_num [bulk]
  obtain ⟨r, hr, -⟩ := dpVmapReturn_linear frictional_one (c0 := c) ha
    (eT := trial3D (dpInit .solid).toVMState (shearInc d)) (acc := 0) le_rfl
  cases hu : dpVmapUpdate .solid dpOne (linearHardening c a) (shearInc d) (dpInit .solid) with
  | mk st T =>
    have hst : ∃ new, st = .good new := by
      unfold dpVmapUpdate at hu
      have htr : to3D .solid (dpInit .solid).eStrain (dpInit .solid).e33 +
        to3D .solid (mf .solid (shearInc d)) 0 = trial3D (dpInit .solid).toVMState (shearInc d) := rfl
      simp only [htr, hacc, hr, Prod.mk.injEq] at hu
      exact ⟨_, hu.1.symm⟩
    obtain ⟨new, rfl⟩ := hst
    refine ⟨new, T, rfl, ?_⟩
    obtain ⟨r', hr', -, -, -, h4, h5, -⟩ := dpVmapUpdate_good hu
    have hel : ¬ bElastic dpOne (linearHardening c a) ![0, 0, 0, √2 * d, 0, 0] 0 := by
      unfold bElastic
      rw [linear_nonneg le_rfl]
      simp only [mul_zero, add_zero, dpYield_shear h0.le, abs_of_nonneg hc]
      rintro (⟨h1, h2⟩ | ⟨h1, h2⟩) <;> linarith
    rcases dpVmapReturn_cases hr' with ⟨-, -, hc', -⟩ | ⟨h1, h2, -⟩ |
      ⟨-, -, -, -, -, ⟨x, hx, hlt⟩, -⟩
    · rw [hE, hv, shear_trial, hacc] at hc'
      exact absurd hc' hel
    · exact ⟨h4.trans h1, h5.trans h2⟩
    · exfalso
      rw [hE, hv, shear_trial, hacc] at hx
      rw [hE, hv, shear_trial, sqrtJ2_shear h0.le, hG] at hlt
      have hy0 : 0 ≤ dpYield dpOne ![0, 0, 0, √2 * d, 0, 0] (c + a * 0) := by
        rw [dpYield_shear h0.le]; linarith
      obtain rfl := firstConverged10_unique hx (cone_linear10 frictional_one ha le_rfl hy0)
      rw [coneMultiplier, dpYield_shear h0.le, hE, hv, hG, hK, hxi, hey, hef] at hlt
      have hD : (0 : ℝ) < 1 / 2 + 1 / 3 * 1 * 1 + 1 ^ 2 * a := by positivity
      have h6 : 1 / 2 * ((d - (c + a * 0)) / (1 / 2 + 1 / 3 * 1 * 1 + 1 ^ 2 * a)) ≤ d := by
        rw [mul_div_assoc', div_le_iff₀ hD]
        nlinarith [mul_nonneg h0.le ha]
      linarith

/-- C87h: the yield condition is not met by the batched return to the cone when the trial stress is
small: with cohesion `5e-5` and a trial `√J2` of `9e-5` the yield function ends at `2.4e-6`, almost
5 % of the cohesion, because `√J2` is replaced by `1e-4` in the factor of the deviator.  The
standard model ends within a millionth of the cohesion. -/
theorem C87_small_stress_violated :
    ∃ new T, dpVmapUpdate .solid dpOne (linearHardening 5e-5 0) (shearInc 9e-5) (dpInit .solid) =
      (.good new, T) ∧ new.isPlast = true ∧ new.isApex = false ∧
      (linearHardening 5e-5 0 new.acc).1 = 5e-5 ∧
      dpYield dpOne (stress3D new.toVMState) 5e-5 = 2.4e-6 ∧
      ∃ new' T', dpUpdate .solid dpOne (linearHardening 5e-5 0) (shearInc 9e-5) (dpInit .solid) =
        (.good new', T') ∧ |dpYield dpOne (stress3D new'.toVMState) 5e-5| < 5e-11 := by
  obtain ⟨new, T, hu, hp, ha⟩ := dpVmap_shear (d := 9e-5) (c := 5e-5) (a := 0) le_rfl (by norm_num)
    (by norm_num) (by norm_num)
  have hE : dpOne.E = 1 := rfl
  have hv : dpOne.v = 0 := rfl
  have hxi : dpOne.xi = 1 := rfl
  have hey : dpOne.etay = 1 := rfl
  have hef : dpOne.etaf = 1 := rfl
  have hacc : (dpInit .solid).acc = 0 := rfl
  have hG : shear 1 0 = 1 / 2 := by norm_num [shear]
  have hK : bulk 1 0 = 1 / 3 := by norm_num [bulk]
  have hlaw : ∀ x, (linearHardening 5e-5 0 x).1 = 5e-5 := fun x => by simp [linearHardening]
  have htr := shear_trial 9e-5
  have hJ := sqrtJ2_shear (d := 9e-5) (by norm_num)
  have hy0 : 0 ≤ dpYield dpOne ![0, 0, 0, √2 * 9e-5, 0, 0] (5e-5 + 0 * 0) := by
    rw [dpYield_shear (by norm_num)]; norm_num
  have hpr : pressure6 ![0, 0, 0, √2 * 9e-5, 0, 0] = 0 := by simp [pressure6, tr6]
  refine ⟨new, T, hu, hp, ha, hlaw _, ?_, ?_⟩
  · obtain ⟨⟨x, hx, -, -, hy⟩, -⟩ := C87_cone admissible_one hu hp ha
    have hx' : FirstConverged10 (coneEq dpOne (linearHardening 5e-5 0)
        ![0, 0, 0, √2 * 9e-5, 0, 0] 0) x := by rw [← htr]; exact hx
    obtain rfl := firstConverged10_unique hx' (cone_linear10 frictional_one le_rfl le_rfl hy0)
    rw [hlaw] at hy
    rw [hy, coneMultiplier, dpYield_shear (by norm_num)]
    simp only [coneEquation, hE, hv, hxi, hey, hef]
    rw [htr]
    simp only [hJ, hpr, hacc, hG, hK, linearHardening, relu]
    norm_num
  · obtain ⟨new', T', hu', -, hl⟩ := C36_linear frictional_one (c0 := 5e-5) le_rfl
      (inc := shearInc 9e-5) (old := dpInit .solid) le_rfl
    have hne : ¬ DPTrialElastic dpOne (linearHardening 5e-5 0) (dpInit .solid) (shearInc 9e-5) := by
      unfold DPTrialElastic
      rw [hE, hv, htr, hlaw, dpYield_shear (by norm_num), cohesionTol,
        if_neg (by norm_num [abs_of_pos]), abs_of_pos (by norm_num)]
      norm_num
    have h2 := (hl hne).1
    unfold coneRest at h2
    rw [hE, hv, htr, hJ, hacc, dpYield_shear (by norm_num), hG, hK, hxi, hey, hef] at h2
    have h3 := h2 (by norm_num)
    have hp' : new'.isPlast = true := by
      cases hpp : new'.isPlast with
      | true => rfl
      | false => exact absurd ((C36_elastic_step hu').1.mp hpp) hne
    obtain ⟨-, hy, -⟩ := C36_cone admissible_one hu' hp' h3.1
    rw [hlaw] at hy
    refine ⟨new', T', hu', (hy ?_).trans_le ?_⟩
    · rw [hE, hv, htr, hJ]; norm_num
    · rw [cohesionTol, if_neg (by norm_num [abs_of_pos]), abs_of_pos (by norm_num)]
      norm_num

/-- C87i: a material without cohesion is reported plastic by the batched model although the strain
increment is zero and the stress is zero; the standard model reports an elastic step. -/
theorem C87_cohesionless_violated :
    (∃ new T, dpVmapUpdate .solid dpOne (linearHardening 0 0) (shearInc 0) (dpInit .solid) =
      (.good new, T) ∧ new.isPlast = true ∧ stress3D new.toVMState = 0) ∧
    ∃ new T, dpUpdate .solid dpOne (linearHardening 0 0) (shearInc 0) (dpInit .solid) =
      (.good new, T) ∧ new.isPlast = false := by
  have hE : dpOne.E = 1 := rfl
  have hv : dpOne.v = 0 := rfl
  have hacc : (dpInit .solid).acc = 0 := rfl
  have hlaw : ∀ x, (linearHardening 0 0 x).1 = 0 := fun x => by simp [linearHardening]
  have hz : (![0, 0, 0, √2 * 0, 0, 0] : V6) = 0 := by
    funext k; fin_cases k <;> simp
  have htr := shear_trial 0
  have hy := dpYield_shear (le_refl (0 : ℝ)) 0
  constructor
  · obtain ⟨r, hr, -⟩ := dpVmapReturn_linear frictional_one (c0 := 0) le_rfl
      (eT := trial3D (dpInit .solid).toVMState (shearInc 0)) (acc := 0) le_rfl
    cases hu : dpVmapUpdate .solid dpOne (linearHardening 0 0) (shearInc 0) (dpInit .solid) with
    | mk st T =>
      have hst : ∃ new, st = .good new := by
        unfold dpVmapUpdate at hu
        have htr : to3D .solid (dpInit .solid).eStrain (dpInit .solid).e33 +
          to3D .solid (mf .solid (shearInc 0)) 0 =
            trial3D (dpInit .solid).toVMState (shearInc 0) := rfl
        simp only [htr, hacc, hr, Prod.mk.injEq] at hu
        exact ⟨_, hu.1.symm⟩
      obtain ⟨new, rfl⟩ := hst
      have hel : ¬ bElastic dpOne (linearHardening 0 0) ![0, 0, 0, √2 * 0, 0, 0] 0 := by
        unfold bElastic
        rw [hlaw, hy]
        simp
      have hpl : new.isPlast = true := by
        cases hp : new.isPlast with
        | true => rfl
        | false =>
          have := (C87_elastic_step hu).1.mp hp
          refine absurd ?_ hel
          rw [← htr]
          exact this
      refine ⟨new, T, rfl, hpl, ?_⟩
      obtain ⟨r', hr', -, h2, -⟩ := dpVmapUpdate_good hu
      have hd0 : ∀ k, dev6 (![0, 0, 0, √2 * 0, 0, 0] : V6) k = 0 := by
        intro k; rw [hz]; simp [dev6, tr6]
      have hp0 : pressure6 ![0, 0, 0, √2 * 0, 0, 0] = 0 := by simp [pressure6, tr6]
      have hcm : coneMultiplier dpOne 0 (dpYield dpOne ![0, 0, 0, √2 * 0, 0, 0] (0 + 0 * 0)) = 0 := by
        rw [show (0 : ℝ) + 0 * 0 = 0 by norm_num, hy, sub_zero, coneMultiplier, zero_div]
      have hfc := cone_linear10 frictional_one (c0 := 0) (a := 0) le_rfl
        (s := ![0, 0, 0, √2 * 0, 0, 0]) (acc := 0) le_rfl
        (by rw [show (0 : ℝ) + 0 * 0 = 0 by norm_num, hy]; norm_num)
      rw [hcm] at hfc
      rcases dpVmapReturn_cases hr' with ⟨-, -, hc, -⟩ | ⟨-, -, -, x, hx, -, -, -, hs⟩ |
        ⟨-, -, -, -, -, ⟨x, hx, hlt⟩, -⟩
      · rw [hE, hv, htr, hacc] at hc
        exact absurd hc hel
      · rw [hE, hv, htr, hacc] at hx
        obtain rfl := firstConverged10_unique hx hfc
        rw [hE, hv, htr] at hs
        rw [h2, hs]
        funext k
        rw [hd0, hp0]
        simp
      · rw [hE, hv, htr, hacc] at hx
        obtain rfl := firstConverged10_unique hx hfc
        rw [hE, hv, htr, sqrtJ2_shear le_rfl] at hlt
        norm_num at hlt
  · obtain ⟨new, T, hu, -⟩ := C36_linear frictional_one (c0 := 0) le_rfl (inc := shearInc 0)
      (old := dpInit .solid) le_rfl
    refine ⟨new, T, hu, (C36_elastic_step hu).1.mpr ?_⟩
    unfold DPTrialElastic
    rw [hE, hv, htr, hlaw, hy]
    norm_num [cohesionTol]

/-- hypotheses of C87c are met, with a trial `√J2` above `1e-4` -/
example : ∃ new T, dpVmapUpdate .solid dpOne (linearHardening 1 1) (shearInc 3) (dpInit .solid) =
    (.good new, T) ∧ new.isPlast = true ∧ new.isApex = false ∧
    1e-4 ≤ sqrtJ2 (hooke6 (lame 1 0) (shear 1 0)
      (trial3D (dpInit .solid).toVMState (shearInc 3))) := by
  obtain ⟨new, T, hu, hp, ha⟩ := dpVmap_shear (d := 3) (c := 1) (a := 1) zero_le_one (by norm_num)
    (by norm_num) (by norm_num)
  exact ⟨new, T, hu, hp, ha, by rw [shear_trial, sqrtJ2_shear (by norm_num)]; norm_num⟩

theorem dpInit_acc (p : PType) : (dpInit p).acc = 0 := rfl

theorem dpInit_acc_nonneg (p : PType) : 0 ≤ (dpInit p).acc := le_rfl

theorem dpYield_hydro3 : dpYield dpOne ![3, 3, 3, 0, 0, 0] 1 = 2 := by
  have hp : pressure6 ![3, 3, 3, 0, 0, 0] = 3 := by simp [pressure6, tr6]; norm_num
  rw [dpYield, sqrtJ2_hydro, hp]
  norm_num [dpOne]

theorem coneRest_hydro3 : coneRest dpOne 1 1 (dpInit .solid) (hydroInc 3) < 0 := by
  have hE : dpOne.E = 1 := rfl
  have hv : dpOne.v = 0 := rfl
  have hacc : (dpInit .solid).acc = 0 := rfl
  unfold coneRest
  rw [hE, hv, hydro_trial, hacc, mul_zero, add_zero, dpYield_hydro3, sqrtJ2_hydro]
  norm_num [shear, bulk, dpOne]

theorem not_elastic_hydro3 :
    ¬ DPTrialElastic dpOne (linearHardening 1 1) (dpInit .solid) (hydroInc 3) := by
  have hE : dpOne.E = 1 := rfl
  have hv : dpOne.v = 0 := rfl
  have hacc : (dpInit .solid).acc = 0 := rfl
  unfold DPTrialElastic
  rw [hacc, linear_nonneg le_rfl, hE, hv, hydro_trial]
  simp only [mul_zero, add_zero, dpYield_hydro3, cohesionTol]
  norm_num

/-- A plastic step whose cone return would leave the cone ends at the apex. -/
theorem dpVmap_apex_exists {p : PType} {m : DPParams} (hm : Frictional m) {c0 a : ℝ} (ha : 0 ≤ a)
    {inc : T2 p.dim} {old : DPState p} (hacc : 0 ≤ old.acc) (hc : 1e-8 ≤ |c0 + a * old.acc|)
    (hp : ¬ DPTrialElastic m (linearHardening c0 a) old inc) (hr : coneRest m c0 a old inc < 0) :
    ∃ new T, dpVmapUpdate p m (linearHardening c0 a) inc old = (.good new, T) ∧
      new.isApex = true := by
  obtain ⟨new, T, T', hu, hu', -⟩ := C87_linear_standard hm ha (inc := inc) hacc hc (Or.inr (Or.inl hr))
  obtain ⟨new2, T2, hu2, -, h⟩ := C36_linear hm (c0 := c0) ha (inc := inc) hacc
  rw [hu] at hu2
  have he : new = new2 := DPVars.good.inj (congrArg Prod.fst hu2)
  exact ⟨new, some T', hu', he ▸ ((h hp).2 hr).1⟩

/-- hypotheses of C87d and C87g are met: the step of C36e has an equal batched step -/
theorem dpVmap_hydro3 :
    ∃ new T, dpVmapUpdate .solid dpOne (linearHardening 1 1) (hydroInc 3) (dpInit .solid) =
    (.good new, T) ∧ new.isApex = true :=
  dpVmap_apex_exists frictional_one zero_le_one (dpInit_acc_nonneg .solid)
    (by rw [dpInit_acc]; norm_num) not_elastic_hydro3 coneRest_hydro3

end Hooke
