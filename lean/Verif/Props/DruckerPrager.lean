import Verif.Lemmas.DruckerPrager
import Verif.Props.VonMisesMixed

/-! # C36, C37: Drucker-Prager model -/

noncomputable section

namespace Hooke

open Spec

theorem Spec.Admissible.bulk_pos {E v : ℝ} (h : Admissible E v) : 0 < bulk E v := by
  have h1 := h.young; have h2 := h.upper
  unfold bulk
  have : 0 < 1 - 2 * v := by linarith
  positivity

theorem Spec.Admissible.lame_bulk {E v : ℝ} (h : Admissible E v) :
    3 * lame E v + 2 * shear E v = 3 * bulk E v := by
  have h1 := h.lower; have h2 := h.upper
  have h3 : 1 + v ≠ 0 := by linarith
  have h4 : 1 - 2 * v ≠ 0 := by linarith
  unfold lame shear bulk
  generalize hq : 1 - 2 * v = q at h4 ⊢
  field_simp
  rw [← hq]; ring

/-- The elastic strain of a returned stress reproduces it. -/
theorem hooke6_dpElastic {m : DPParams} (hA : Admissible m.E m.v) {p : ℝ} {dev : V6}
    (ht : tr6 dev = 0) :
    hooke6 (lame m.E m.v) (shear m.E m.v) (dpElastic m p dev) =
      fun k => p * one6 k + dev k := by
  have hK := hA.bulk_pos; have hG := hA.shear_pos; have hl := hA.lame_bulk
  have hKd : m.K = bulk m.E m.v := rfl
  have hGd : m.G = shear m.E m.v := rfl
  have htr : tr6 (dpElastic m p dev) = p / bulk m.E m.v := by
    simp only [tr6] at ht
    simp only [tr6, dpElastic, soid6_eq, one6, hKd, hGd]
    simp
    field_simp
    linear_combination 3 * bulk m.E m.v * ht
  funext k
  simp only [hooke6, htr]
  simp only [dpElastic, soid6_eq, hKd, hGd]
  have h2 : lame m.E m.v = bulk m.E m.v - 2 / 3 * shear m.E m.v := by linarith
  rw [h2]
  field_simp
  ring

theorem pressure6_iso {p : ℝ} {dev : V6} (ht : tr6 dev = 0) :
    pressure6 (fun k => p * one6 k + dev k) = p := by
  simp only [tr6] at ht
  simp only [pressure6, tr6, one6]
  simp
  linarith

theorem dev6_iso {p : ℝ} {dev : V6} (ht : tr6 dev = 0) :
    dev6 (fun k => p * one6 k + dev k) = dev := by
  have := pressure6_iso (p := p) ht
  unfold pressure6 at this
  funext k
  simp only [dev6, this]
  ring

theorem consistency_iff {c y : ℝ} :
    (if |c| < suSmall then y else y / |c|) ≤ suTol ↔ y ≤ cohesionTol c := by
  unfold cohesionTol suTol suSmall
  by_cases h : |c| < 1e-8
  · simp only [if_pos h]
  · simp only [if_neg h]
    have hp : 0 < |c| := by
      have : (0 : ℝ) < 1e-8 := by norm_num
      linarith [not_lt.mp h]
    rw [div_le_iff₀ hp]

theorem cohesionTol_nonneg (c : ℝ) : 0 ≤ cohesionTol c := by
  unfold cohesionTol
  split
  · norm_num
  · positivity

/-- The cone equation in terms of a trial stress. -/
def coneEq (m : DPParams) (law : HardLaw) (s : V6) (acc x : ℝ) : NewtonEval :=
  dpConeEval m law (sqrtJ2 s) (pressure6 s) acc x

/-- Outcome of the 3D return mapping. -/
theorem dpReturn_cases {m : DPParams} {law : HardLaw} {eT : V6} {acc : ℝ} {r : DPReturn}
    (h : dpReturn m law eT acc = some r) :
    let s := hooke6 (lame m.E m.v) (shear m.E m.v) eT
    (r.isPlast = false ∧ r.isApex = false ∧ dpYield m s (law acc).1 ≤ cohesionTol (law acc).1 ∧
      r.eStrain = eT ∧ r.stress = s ∧ r.acc = acc ∧
      r.tangent = kel66 (isoTensor (lame m.E m.v) (shear m.E m.v))) ∨
    (r.isPlast = true ∧ r.isApex = false ∧ ¬ dpYield m s (law acc).1 ≤ cohesionTol (law acc).1 ∧
      ∃ x, FirstConverged (coneEq m law s acc) x ∧ 0 ≤ sqrtJ2 s - shear m.E m.v * x ∧
        r.acc = acc + m.xi * x ∧
        r.eStrain = dpElastic m (pressure6 s - bulk m.E m.v * m.etaf * x)
          (fun k => (if sqrtJ2 s > suSmall then 1 - shear m.E m.v * x / sqrtJ2 s else 0) *
            dev6 s k) ∧
        (r.stress = fun k => (pressure6 s - bulk m.E m.v * m.etaf * x) * one6 k +
          (if sqrtJ2 s > suSmall then 1 - shear m.E m.v * x / sqrtJ2 s else 0) * dev6 s k) ∧
        r.tangent = kel66 (dpConeTangent m eT x (law r.acc).2)) ∨
    (r.isPlast = true ∧ r.isApex = true ∧ ¬ dpYield m s (law acc).1 ≤ cohesionTol (law acc).1 ∧
      m.etaf ≠ 0 ∧ m.etay ≠ 0 ∧
      (∃ x, FirstConverged (coneEq m law s acc) x ∧ sqrtJ2 s - shear m.E m.v * x < 0) ∧
      ∃ x, FirstConverged (dpApexEval m law (pressure6 s) acc) x ∧
        r.acc = acc + m.xi / m.etaf * x ∧
        r.eStrain = dpElastic m (pressure6 s - bulk m.E m.v * x) 0 ∧
        (r.stress = fun k => (pressure6 s - bulk m.E m.v * x) * one6 k) ∧
        r.tangent = kel66 (dpApexTangent m (law r.acc).2)) := by
  have hl : lamOf m.E m.v = lame m.E m.v := rfl
  have hm : miuOf m.E m.v = shear m.E m.v := rfl
  have hK : m.K = bulk m.E m.v := rfl
  have hG : m.G = shear m.E m.v := rfl
  have hp : ∀ s : V6, 1 / 3 * tr6 s = pressure6 s := fun s => by unfold pressure6; ring
  unfold dpReturn at h
  simp only [mv6_iso, mv6_devprojsym, hl, hm, sum_unkel6, sqrt_j2, hp, consistency_iff] at h
  split at h
  · rename_i hc
    obtain rfl := Option.some.inj h
    exact Or.inl ⟨rfl, rfl, hc, rfl, rfl, rfl, rfl⟩
  · rename_i hc
    split at h
    · cases h
    · rename_i x hx
      rw [dpLoop_some_iff] at hx
      unfold dpPlastic at h
      split at h
      · rename_i hcone
        obtain rfl := Option.some.inj h
        refine Or.inr (Or.inl ⟨rfl, rfl, hc, x, hx, hcone, rfl, rfl, ?_, rfl⟩)
        rw [soid6_eq]; rfl
      · rename_i hcone
        split at h
        · cases h
        · rename_i heta
          push Not at heta
          split at h
          · cases h
          · rename_i y hy
            rw [dpLoop_some_iff] at hy
            obtain rfl := Option.some.inj h
            refine Or.inr (Or.inr ⟨rfl, rfl, hc, heta.1, heta.2, ⟨x, hx, not_le.mp hcone⟩, y, hy,
              rfl, rfl, ?_, rfl⟩)
            rw [soid6_eq]; rfl

theorem dpReturn_none {m : DPParams} {law : HardLaw} {eT : V6} {acc : ℝ} :
    let s := hooke6 (lame m.E m.v) (shear m.E m.v) eT
    dpReturn m law eT acc = none ↔
      ¬ dpYield m s (law acc).1 ≤ cohesionTol (law acc).1 ∧
      (NeverConverges (coneEq m law s acc) ∨
        ∃ x, FirstConverged (coneEq m law s acc) x ∧ sqrtJ2 s - shear m.E m.v * x < 0 ∧
          (m.etaf = 0 ∨ m.etay = 0 ∨ NeverConverges (dpApexEval m law (pressure6 s) acc))) := by
  have hl : lamOf m.E m.v = lame m.E m.v := rfl
  have hm : miuOf m.E m.v = shear m.E m.v := rfl
  have hG : m.G = shear m.E m.v := rfl
  have hp : ∀ s : V6, 1 / 3 * tr6 s = pressure6 s := fun s => by unfold pressure6; ring
  intro s
  unfold dpReturn
  simp only [mv6_iso, mv6_devprojsym, hl, hm, sum_unkel6, sqrt_j2, hp, consistency_iff]
  have hy : ∀ c, dpYield m s c = sqrtJ2 s + m.etay * pressure6 s - m.xi * c := fun _ => rfl
  rw [← hy]
  have hcone : dpConeEval m law (sqrtJ2 s) (pressure6 s) acc = coneEq m law s acc := rfl
  have hsd : hooke6 (lame m.E m.v) (shear m.E m.v) eT = s := rfl
  rw [hsd, hcone]
  by_cases hc : dpYield m s (law acc).1 ≤ cohesionTol (law acc).1
  · rw [if_pos hc]; simp [hc]
  · rw [if_neg hc]
    simp only [hc, not_false_eq_true, true_and]
    cases hx : dpLoop (coneEq m law s acc) suTol suMaxIter 0 0 with
    | none =>
      simp only [true_iff]
      exact Or.inl (dpLoop_none_iff.mp hx)
    | some x =>
      have hnc : ¬ NeverConverges (coneEq m law s acc) := by
        rw [← dpLoop_none_iff, hx]; simp
      have hx' := dpLoop_some_iff.mp hx
      have huniq : ∀ y, FirstConverged (coneEq m law s acc) y → y = x := by
        intro y hy
        rw [← dpLoop_some_iff, hx] at hy
        exact (Option.some.inj hy).symm
      simp only [hnc, false_or]
      unfold dpPlastic
      rw [hG]
      by_cases hge : sqrtJ2 s - shear m.E m.v * x ≥ 0
      · rw [if_pos hge]
        constructor
        · intro h; cases h
        · rintro ⟨y, hy, hlt, -⟩
          rw [huniq y hy] at hlt
          linarith
      · rw [if_neg hge]
        constructor
        · intro h
          refine ⟨x, hx', not_le.mp hge, ?_⟩
          by_cases he : m.etaf = 0 ∨ m.etay = 0
          · tauto
          · rw [if_neg he] at h
            right; right
            rw [← dpLoop_none_iff]
            cases hy : dpLoop (dpApexEval m law (pressure6 s) acc) suTol suMaxIter 0 0 with
            | none => rfl
            | some y => rw [hy] at h; cases h
        · rintro ⟨y, hy, -, h1⟩
          by_cases he : m.etaf = 0 ∨ m.etay = 0
          · rw [if_pos he]
          · rw [if_neg he]
            have : NeverConverges (dpApexEval m law (pressure6 s) acc) := by tauto
            rw [dpLoop_none_iff.mpr this]

theorem planar_dpElastic {p : PType} {m : DPParams} {a : ℝ} {dev : V6} (h : Planar p dev) :
    Planar p (dpElastic m a dev) := by
  intro hp
  obtain ⟨h4, h5⟩ := h hp
  simp [dpElastic, soid6_eq, one6, h4, h5]

theorem planar_smul {p : PType} {c : ℝ} {w : V6} (h : Planar p w) : Planar p (fun k => c * w k) := by
  intro hp
  obtain ⟨h4, h5⟩ := h hp
  simp [h4, h5]

theorem planar_iso {p : PType} {c : ℝ} {w : V6} (h : Planar p w) :
    Planar p (fun k => c * one6 k + w k) := by
  intro hp
  obtain ⟨h4, h5⟩ := h hp
  simp [h4, h5, one6]

/-- Relation between the update of a state and the 3D return mapping. -/
theorem dpUpdate_good {p : PType} {m : DPParams} {law : HardLaw} {inc : T2 p.dim}
    {old new : DPState p} {T : Option (Fin p.len → Fin p.len → ℝ)}
    (h : dpUpdate p m law inc old = (.good new, T)) :
    ∃ r, dpReturn m law (trial3D old.toVMState inc) old.acc = some r ∧
      elastic3D new.toVMState = r.eStrain ∧ stress3D new.toVMState = r.stress ∧
      new.acc = r.acc ∧ new.isPlast = r.isPlast ∧ new.isApex = r.isApex ∧ new.isSuFail = false ∧
      new.strain = old.strain + mf p inc ∧ T = some (to2DM p r.tangent) := by
  unfold dpUpdate at h
  have htr : to3D p old.eStrain old.e33 + to3D p (mf p inc) 0 = trial3D old.toVMState inc := rfl
  simp only [htr] at h
  cases hr : dpReturn m law (trial3D old.toVMState inc) old.acc with
  | none => rw [hr] at h; simp at h
  | some r =>
    rw [hr] at h
    simp only [Prod.mk.injEq, DPVars.good.injEq] at h
    obtain ⟨rfl, rfl⟩ := h
    have hs : Planar p (hooke6 (lame m.E m.v) (shear m.E m.v) (trial3D old.toVMState inc)) :=
      planar_hooke6 _ _ (planar_trial _ inc)
    have hz : Planar p (0 : V6) := fun _ => ⟨rfl, rfl⟩
    have hpl : Planar p r.eStrain ∧ Planar p r.stress := by
      rcases dpReturn_cases hr with ⟨-, -, -, he, hst, -⟩ | ⟨-, -, -, x, -, -, -, he, hst, -⟩ |
        ⟨-, -, -, -, -, -, x, -, -, he, hst, -⟩
      · rw [he, hst]; exact ⟨planar_trial _ inc, hs⟩
      · rw [he, hst]
        exact ⟨planar_dpElastic (planar_smul (planar_dev6 hs)),
          planar_iso (planar_smul (planar_dev6 hs))⟩
      · rw [he, hst]
        refine ⟨planar_dpElastic hz, ?_⟩
        have := planar_iso (c := pressure6 (hooke6 (lame m.E m.v) (shear m.E m.v)
          (trial3D old.toVMState inc)) - bulk m.E m.v * x) hz
        simpa using this
    refine ⟨r, rfl, to3D_to2D hpl.1, to3D_to2D hpl.2, rfl, rfl, rfl, rfl, ?_, rfl⟩
    show to2D p (trial3D old.toVMState inc) + (old.strain - old.eStrain) = _
    rw [← htr, to2D_add, to2D_to3D, to2D_to3D]
    abel

/-! ### C36 -/

/-- C36a: a state update fails exactly when the trial state is not elastic and either no Newton
iterate of the cone equation (number 2 to 21) meets the tolerance, or the cone return overshoots
the apex and the apex return is undefined or does not meet the tolerance. -/
theorem C36_failure_iff {p : PType} {m : DPParams} {law : HardLaw} {inc : T2 p.dim}
    {old : DPState p} :
    (∃ s T, dpUpdate p m law inc old = (.nan s, T)) ↔
      ¬ DPTrialElastic m law old inc ∧
      (NeverConverges (coneEquation m law old inc) ∨
        ∃ x, FirstConverged (coneEquation m law old inc) x ∧
          sqrtJ2 (hooke6 (lame m.E m.v) (shear m.E m.v) (trial3D old.toVMState inc)) -
            shear m.E m.v * x < 0 ∧
          (m.etaf = 0 ∨ m.etay = 0 ∨ NeverConverges (apexEquation m law old inc))) := by
  have : (∃ s T, dpUpdate p m law inc old = (.nan s, T)) ↔
      dpReturn m law (trial3D old.toVMState inc) old.acc = none := by
    unfold dpUpdate
    have htr : to3D p old.eStrain old.e33 + to3D p (mf p inc) 0 = trial3D old.toVMState inc := rfl
    simp only [htr]
    cases hr : dpReturn m law (trial3D old.toVMState inc) old.acc <;> simp
  rw [this]
  exact dpReturn_none

/-- C36b: an elastic trial state is accepted as it is, and only then is the step flagged elastic. -/
theorem C36_elastic_step {p : PType} {m : DPParams} {law : HardLaw} {inc : T2 p.dim}
    {old new : DPState p} {T : Option (Fin p.len → Fin p.len → ℝ)}
    (h : dpUpdate p m law inc old = (.good new, T)) :
    (new.isPlast = false ↔ DPTrialElastic m law old inc) ∧
    (new.isPlast = false →
      elastic3D new.toVMState = trial3D old.toVMState inc ∧ new.acc = old.acc ∧
      plastic3D new.toVMState = plastic3D old.toVMState ∧
      stress3D new.toVMState = hooke6 (lame m.E m.v) (shear m.E m.v) (elastic3D new.toVMState)) := by
  obtain ⟨r, hr, h1, h2, h3, h4, h5, h6, h7, -⟩ := dpUpdate_good h
  rcases dpReturn_cases hr with ⟨hp, ha, hc, he, hst, hac, -⟩ | ⟨hp, ha, hc, -⟩ | ⟨hp, ha, hc, -⟩
  · refine ⟨by simp only [h4, hp, true_iff]; exact hc, fun _ => ?_⟩
    refine ⟨h1.trans he, h3.trans hac, ?_, by rw [h2, h1, hst, he]⟩
    funext k
    simp only [plastic3D, strain3D_step h7, h1, he]
    simp only [trial3D]
    ring
  · refine ⟨by simp only [h4, hp, Bool.true_eq_false, false_iff]; exact hc, fun hf => ?_⟩
    rw [h4, hp] at hf; cases hf
  · refine ⟨by simp only [h4, hp, Bool.true_eq_false, false_iff]; exact hc, fun hf => ?_⟩
    rw [h4, hp] at hf; cases hf

theorem sqrtJ2_smul {s : V6} {c p : ℝ} :
    sqrtJ2 (fun k => p * one6 k + c * dev6 s k) = |c| * sqrtJ2 s := by
  have ht : tr6 (fun k => c * dev6 s k) = 0 := by
    have := tr6_dev6 s
    simp only [tr6] at this ⊢
    rw [← mul_add, ← mul_add, this, mul_zero]
  unfold sqrtJ2
  rw [dev6_iso ht, norm6_smul]; ring

theorem tr6_smul_dev (s : V6) (c : ℝ) : tr6 (fun k => c * dev6 s k) = 0 := by
  have := tr6_dev6 s
  simp only [tr6] at this ⊢
  rw [← mul_add, ← mul_add, this, mul_zero]

/-- C36c: after a return to the cone the yield function at the updated stress and cohesion is at
most the tolerance, and within the tolerance of zero if the trial deviator is not negligible; the
stress is Hooke's law of the elastic strain; the accumulated plastic strain advances by `ξ Δγ` and
the pressure drops by `K η̄ Δγ`, where `Δγ` is the first Newton iterate meeting the tolerance. -/
theorem C36_cone {p : PType} {m : DPParams} (hA : Admissible m.E m.v) {law : HardLaw}
    {inc : T2 p.dim} {old new : DPState p} {T : Option (Fin p.len → Fin p.len → ℝ)}
    (h : dpUpdate p m law inc old = (.good new, T)) (hp : new.isPlast = true)
    (ha : new.isApex = false) :
    let trial := hooke6 (lame m.E m.v) (shear m.E m.v) (trial3D old.toVMState inc)
    dpYield m (stress3D new.toVMState) (law new.acc).1 ≤ cohesionTol (law new.acc).1 ∧
    (1e-8 < sqrtJ2 trial →
      |dpYield m (stress3D new.toVMState) (law new.acc).1| < cohesionTol (law new.acc).1) ∧
    stress3D new.toVMState = hooke6 (lame m.E m.v) (shear m.E m.v) (elastic3D new.toVMState) ∧
    ∃ x, FirstConverged (coneEquation m law old inc) x ∧ new.acc = old.acc + m.xi * x ∧
      pressure6 (stress3D new.toVMState) = pressure6 trial - bulk m.E m.v * m.etaf * x := by
  obtain ⟨r, hr, h1, h2, h3, h4, h5, h6, h7, -⟩ := dpUpdate_good h
  rcases dpReturn_cases hr with ⟨hp', -⟩ | ⟨hp', ha', hc, x, hx, hge, hac, he, hst, -⟩ |
    ⟨hp', ha', -⟩
  · rw [h4, hp'] at hp; cases hp
  · intro trial
    have hx' : FirstConverged (coneEquation m law old inc) x := hx
    obtain ⟨k, -, -, -, hres, -⟩ := hx
    set f : ℝ := if sqrtJ2 trial > suSmall then 1 - shear m.E m.v * x / sqrtJ2 trial else 0 with hf
    have ht := tr6_smul_dev trial f
    have hsn : stress3D new.toVMState = fun k =>
        (pressure6 trial - bulk m.E m.v * m.etaf * x) * one6 k + f * dev6 trial k := by
      rw [h2, hst]
    have hpr : pressure6 (stress3D new.toVMState) = pressure6 trial - bulk m.E m.v * m.etaf * x := by
      rw [hsn, pressure6_iso ht]
    have hj : sqrtJ2 (stress3D new.toVMState) = |f| * sqrtJ2 trial := by
      rw [hsn, sqrtJ2_smul]
    have hacc : new.acc = old.acc + m.xi * x := h3.trans hac
    have hres' : |sqrtJ2 trial - shear m.E m.v * x + m.etay * (pressure6 trial -
        bulk m.E m.v * m.etaf * x) - m.xi * (law new.acc).1| < cohesionTol (law new.acc).1 := by
      rw [hacc]; exact hres
    have hf1 : suSmall < sqrtJ2 trial → |f| * sqrtJ2 trial = sqrtJ2 trial - shear m.E m.v * x := by
      intro hlt
      have hpos : 0 < sqrtJ2 trial := lt_trans (by unfold suSmall; norm_num) hlt
      have : f = (sqrtJ2 trial - shear m.E m.v * x) / sqrtJ2 trial := by
        rw [hf, if_pos hlt]; field_simp
      rw [this, abs_of_nonneg (div_nonneg hge hpos.le), div_mul_cancel₀ _ hpos.ne']
    have hle : |f| * sqrtJ2 trial ≤ sqrtJ2 trial - shear m.E m.v * x := by
      by_cases hlt : suSmall < sqrtJ2 trial
      · exact (hf1 hlt).le
      · have : f = 0 := by rw [hf, if_neg hlt]
        rw [this, abs_zero, zero_mul]; exact hge
    refine ⟨?_, ?_, ?_, x, hx', hacc, hpr⟩
    · unfold dpYield
      rw [hj, hpr]
      have := (abs_lt.mp hres').2
      linarith
    · intro hlt
      unfold dpYield
      rw [hj, hpr, hf1 hlt]
      exact hres'
    · rw [hsn, h1, he, hooke6_dpElastic hA ht]
  · rw [h5, ha'] at ha; cases ha

/-- C36d: flow rule of the cone: when the trial deviator is not negligible the plastic strain
increment is `Δγ (η̄/3 I + dev / (2 √J2))`, so its trace is `η̄ Δγ`. -/
theorem C36_cone_flow {p : PType} {m : DPParams} (hA : Admissible m.E m.v) {law : HardLaw}
    {inc : T2 p.dim} {old new : DPState p} {T : Option (Fin p.len → Fin p.len → ℝ)}
    (h : dpUpdate p m law inc old = (.good new, T)) (hp : new.isPlast = true)
    (ha : new.isApex = false) :
    let trial := hooke6 (lame m.E m.v) (shear m.E m.v) (trial3D old.toVMState inc)
    1e-8 < sqrtJ2 trial →
    ∃ x, new.acc = old.acc + m.xi * x ∧
      (∀ k, plastic3D new.toVMState k - plastic3D old.toVMState k =
        x * (m.etaf / 3 * one6 k + dev6 trial k / (2 * sqrtJ2 trial))) ∧
      tr6 (fun k => plastic3D new.toVMState k - plastic3D old.toVMState k) = m.etaf * x := by
  intro trial hlt
  obtain ⟨r, hr, h1, h2, h3, h4, h5, h6, h7, -⟩ := dpUpdate_good h
  rcases dpReturn_cases hr with ⟨hp', -⟩ | ⟨hp', ha', hc, x, hx, hge, hac, he, hst, -⟩ |
    ⟨hp', ha', -⟩
  · rw [h4, hp'] at hp; cases hp
  · have hK := hA.bulk_pos; have hG := hA.shear_pos; have hl := hA.lame_bulk
    have hpos : 0 < sqrtJ2 trial := lt_trans (by norm_num) hlt
    have hfl : ∀ k, plastic3D new.toVMState k - plastic3D old.toVMState k =
        x * (m.etaf / 3 * one6 k + dev6 trial k / (2 * sqrtJ2 trial)) := by
      intro k
      have hlt' : sqrtJ2 (hooke6 (lame m.E m.v) (shear m.E m.v) (trial3D old.toVMState inc)) >
        suSmall := hlt
      have hd : dev6 trial k = 2 * shear m.E m.v * dev6 (trial3D old.toVMState inc) k :=
        congrFun (dev6_hooke6 _ _ _) k
      have hpt : pressure6 trial = bulk m.E m.v * tr6 (trial3D old.toVMState inc) := by
        unfold pressure6
        rw [tr6_hooke6, hl]; ring
      have hdt : trial3D old.toVMState inc k = dev6 (trial3D old.toVMState inc) k +
          tr6 (trial3D old.toVMState inc) / 3 * one6 k := by simp only [dev6]; ring
      simp only [plastic3D, strain3D_step h7, h1, he, if_pos hlt', dpElastic, soid6_eq]
      have hKd : m.K = bulk m.E m.v := rfl
      have hGd : m.G = shear m.E m.v := rfl
      rw [hKd, hGd]
      show _ - (1 / (3 * bulk m.E m.v) * (pressure6 trial - bulk m.E m.v * m.etaf * x) * one6 k +
        1 / (2 * shear m.E m.v) * ((1 - shear m.E m.v * x / sqrtJ2 trial) * dev6 trial k)) - _ = _
      have hsum : strain3D old.toVMState k + increment3D p inc k -
          (strain3D old.toVMState k - elastic3D old.toVMState k) = trial3D old.toVMState inc k := by
        simp only [trial3D]; ring
      rw [sub_right_comm, hsum, hdt, hpt, hd]
      field_simp
      ring
    refine ⟨x, h3.trans hac, hfl, ?_⟩
    have := tr6_dev6 trial
    simp only [tr6] at this ⊢
    simp only [hfl, one6]
    simp
    linear_combination (x / (2 * sqrtJ2 trial)) * this
  · rw [h5, ha'] at ha; cases ha

/-- C36e: after a return to the apex the deviator is zero, the pressure is within the tolerance of
`ξ/η` times the cohesion, hence the yield function within `|η|` times the tolerance of zero, and the
stress is Hooke's law of the elastic strain. -/
theorem C36_apex {p : PType} {m : DPParams} (hA : Admissible m.E m.v) {law : HardLaw}
    {inc : T2 p.dim} {old new : DPState p} {T : Option (Fin p.len → Fin p.len → ℝ)}
    (h : dpUpdate p m law inc old = (.good new, T)) (ha : new.isApex = true) :
    let trial := hooke6 (lame m.E m.v) (shear m.E m.v) (trial3D old.toVMState inc)
    new.isPlast = true ∧ dev6 (stress3D new.toVMState) = 0 ∧
    |pressure6 (stress3D new.toVMState) - m.xi / m.etay * (law new.acc).1| <
      cohesionTol (law new.acc).1 ∧
    |dpYield m (stress3D new.toVMState) (law new.acc).1| ≤
      |m.etay| * cohesionTol (law new.acc).1 ∧
    stress3D new.toVMState = hooke6 (lame m.E m.v) (shear m.E m.v) (elastic3D new.toVMState) ∧
    (∃ x, FirstConverged (coneEquation m law old inc) x ∧ sqrtJ2 trial - shear m.E m.v * x < 0) ∧
    ∃ x, FirstConverged (apexEquation m law old inc) x ∧ new.acc = old.acc + m.xi / m.etaf * x ∧
      tr6 (fun k => plastic3D new.toVMState k - plastic3D old.toVMState k) = x := by
  intro trial
  obtain ⟨r, hr, h1, h2, h3, h4, h5, h6, h7, -⟩ := dpUpdate_good h
  rcases dpReturn_cases hr with ⟨-, ha', -⟩ | ⟨-, ha', -⟩ |
    ⟨hp', ha', hc, hef, hey, hcone, x, hx, hac, he, hst, -⟩
  · rw [h5, ha'] at ha; cases ha
  · rw [h5, ha'] at ha; cases ha
  have h0 : tr6 (0 : V6) = 0 := by simp [tr6]
  have hsn : stress3D new.toVMState = fun k =>
      (pressure6 trial - bulk m.E m.v * x) * one6 k + (0 : V6) k := by
    rw [h2, hst]; funext k; simp [trial]
  have hacc : new.acc = old.acc + m.xi / m.etaf * x := h3.trans hac
  have hdev : dev6 (stress3D new.toVMState) = 0 := by rw [hsn, dev6_iso h0]
  have hpr : pressure6 (stress3D new.toVMState) = pressure6 trial - bulk m.E m.v * x := by
    rw [hsn, pressure6_iso h0]
  have hx' : FirstConverged (apexEquation m law old inc) x := hx
  obtain ⟨k, -, -, -, hres, -⟩ := hx
  have hres' : |(law new.acc).1 * (m.xi / m.etay) - (pressure6 trial - bulk m.E m.v * x)| <
      cohesionTol (law new.acc).1 := by rw [hacc]; exact hres
  have hpc : |pressure6 (stress3D new.toVMState) - m.xi / m.etay * (law new.acc).1| <
      cohesionTol (law new.acc).1 := by
    rw [hpr, abs_sub_comm, mul_comm]; exact hres'
  refine ⟨h4.trans hp', hdev, hpc, ?_, ?_, hcone, x, hx', hacc, ?_⟩
  · have hj : sqrtJ2 (stress3D new.toVMState) = 0 := by
      unfold sqrtJ2; rw [hdev]; simp [norm6]
    have : dpYield m (stress3D new.toVMState) (law new.acc).1 =
        m.etay * (pressure6 (stress3D new.toVMState) - m.xi / m.etay * (law new.acc).1) := by
      unfold dpYield
      rw [hj]; field_simp; ring
    rw [this, abs_mul]
    exact mul_le_mul_of_nonneg_left hpc.le (abs_nonneg _)
  · rw [hsn, h1, he, hooke6_dpElastic hA h0]
  · have hK := hA.bulk_pos
    have hpt : pressure6 trial = bulk m.E m.v * tr6 (trial3D old.toVMState inc) := by
      unfold pressure6
      rw [tr6_hooke6, hA.lame_bulk]; ring
    have hKd : m.K = bulk m.E m.v := rfl
    have hte : tr6 (elastic3D new.toVMState) = tr6 (trial3D old.toVMState inc) - x := by
      rw [h1, he]
      show tr6 (dpElastic m (pressure6 trial - bulk m.E m.v * x) 0) = _
      simp only [tr6, dpElastic, soid6_eq, one6, hKd, hpt]
      simp
      field_simp
      ring
    simp only [tr6, plastic3D, strain3D_step h7] at hte ⊢
    simp only [trial3D] at hte
    linarith

/-- C36f: from the initial state (not beyond yield), after any history without failure the total
strain is the sum of the increments, the stress is Hooke's law of the elastic strain, and the
stress is within the tolerance of the current yield surface. -/
theorem C36_history {p : PType} {m : DPParams} (hA : Admissible m.E m.v) {law : HardLaw}
    (h0 : 0 ≤ m.xi * (law 0).1) (incs : List (T2 p.dim)) {s : DPState p}
    (h : dpRun p m law incs = .good s) : DPInvariant m law incs.sum s := by
  suffices H : ∀ (incs : List (T2 p.dim)) (s0 : DPState p) (total : T2 p.dim),
      DPInvariant m law total s0 →
      incs.foldl (dpStep p m law) (.good s0) = .good s →
      DPInvariant m law (total + incs.sum) s by
    have hz : ∀ p : PType, to3D p (0 : Vmf p) 0 = 0 := by
      intro p; cases p
      · funext k; fin_cases k <;> simp [to3D]
      · rfl
    have hi : DPInvariant m law 0 (dpInit p) := by
      have hs : stress3D (dpInit p).toVMState = 0 := hz p
      have he : elastic3D (dpInit p).toVMState = 0 := hz p
      refine ⟨(mf_zero p).symm, ?_, ?_, rfl⟩
      · rw [hs, he]; funext k; simp [hooke6, tr6]
      · have hd : dev6 (0 : V6) = 0 := by funext k; simp [dev6, tr6]
        have ha : (dpInit p).acc = 0 := rfl
        rw [hs, ha]
        have : dpYield m 0 (law 0).1 = -(m.xi * (law 0).1) := by
          simp [dpYield, sqrtJ2, hd, norm6, pressure6, tr6]
        rw [this]
        have h1 : 0 ≤ max 1 |m.etay| := le_trans zero_le_one (le_max_left _ _)
        have := mul_nonneg h1 (cohesionTol_nonneg (law 0).1)
        linarith
    have := H incs (dpInit p) 0 hi h
    rwa [zero_add] at this
  intro incs
  induction incs with
  | nil =>
    intro s0 total h0 hs
    simp only [List.foldl_nil, DPVars.good.injEq] at hs
    subst hs
    simpa using h0
  | cons inc incs ih =>
    intro s0 total hi hs
    simp only [List.foldl_cons, dpStep] at hs
    cases hu : dpUpdate p m law inc s0 with
    | mk st T =>
      rw [hu] at hs
      cases st with
      | nan sn =>
        exfalso
        have : ∀ (l : List (T2 p.dim)) sn, l.foldl (dpStep p m law) (.nan sn) ≠ .good s := by
          intro l
          induction l with
          | nil => intro sn h; cases h
          | cons i l ih => intro sn; exact ih none
        exact this incs sn hs
      | good s1 =>
        rw [List.sum_cons, ← add_assoc]
        refine ih s1 (total + inc) ?_ hs
        obtain ⟨r, -, -, -, -, -, -, h6, h7, -⟩ := dpUpdate_good hu
        have hstr : s1.strain = mf p (total + inc) := by rw [h7, hi.strain, mf_add]
        have htol := cohesionTol_nonneg (law s1.acc).1
        have hmul : ∀ {y : ℝ}, y ≤ cohesionTol (law s1.acc).1 →
            y ≤ max 1 |m.etay| * cohesionTol (law s1.acc).1 := by
          intro y hy
          have : 1 * cohesionTol (law s1.acc).1 ≤ max 1 |m.etay| * cohesionTol (law s1.acc).1 :=
            mul_le_mul_of_nonneg_right (le_max_left _ _) htol
          linarith
        cases hap : s1.isApex with
        | true =>
          obtain ⟨-, -, -, hy, hst, -⟩ := C36_apex hA hu hap
          refine ⟨hstr, hst, ?_, h6⟩
          refine (le_abs_self _).trans (hy.trans ?_)
          exact mul_le_mul_of_nonneg_right (le_max_right _ _) htol
        | false =>
          cases hpl : s1.isPlast with
          | true =>
            obtain ⟨hy, -, hst, -⟩ := C36_cone hA hu hpl hap
            exact ⟨hstr, hst, hmul hy, h6⟩
          | false =>
            have hel := C36_elastic_step hu
            obtain ⟨he, hac, -, hst⟩ := hel.2 hpl
            refine ⟨hstr, hst, hmul ?_, h6⟩
            have hy := hel.1.mp hpl
            unfold DPTrialElastic at hy
            rw [hst, he, hac]
            exact hy

/-! ### Linear cohesion hardening -/

/-- A residual which is affine along the first Newton step is solved by that step. -/
theorem firstConverged_affine {f : ℝ → NewtonEval} {x : ℝ}
    (hJ : (f 0).jacobian ≠ 0) (hx : x = -(f 0).residual / (f 0).jacobian)
    (hr : (f x).residual = 0) (hJx : (f x).jacobian ≠ 0) (hs : 0 < cohesionTol (f x).scale) :
    FirstConverged f x := by
  have h1 : newtonIterate f 1 = some x := by
    rw [newtonIterate_succ (k := 0) (x := 0) rfl hJ, zero_add, hx]
  have h2 : newtonIterate f 2 = some x := by
    rw [newtonIterate_succ h1 hJx, hr]; simp
  refine ⟨2, le_rfl, by norm_num, h2, ?_, fun j hj1 hj2 => by omega⟩
  rw [hr, abs_zero]
  exact hs

theorem cohesionTol_pos (c : ℝ) : 0 < cohesionTol c := by
  unfold cohesionTol
  split
  · norm_num
  · rename_i h
    have : (0 : ℝ) < 1e-8 := by norm_num
    have : 0 < |c| := by linarith [not_lt.mp h]
    positivity

/-- Parameters of a frictional material. -/
structure Frictional (m : DPParams) : Prop where
  elastic : Admissible m.E m.v
  xi : 0 ≤ m.xi
  etay : 0 < m.etay
  etaf : 0 < m.etaf

theorem linear_nonneg {c0 a x : ℝ} (hx : 0 ≤ x) : linearHardening c0 a x = (c0 + a * x, a) := by
  simp [linearHardening, relu, max_eq_left hx]

/-- Closed-form plastic multiplier of the cone. -/
def coneMultiplier (m : DPParams) (a y : ℝ) : ℝ :=
  y / (shear m.E m.v + bulk m.E m.v * m.etaf * m.etay + m.xi ^ 2 * a)

theorem cone_linear {m : DPParams} (hm : Frictional m) {c0 a : ℝ} (ha : 0 ≤ a) {s : V6} {acc : ℝ}
    (hacc : 0 ≤ acc) (hy : 0 ≤ dpYield m s (c0 + a * acc)) :
    FirstConverged (coneEq m (linearHardening c0 a) s acc)
      (coneMultiplier m a (dpYield m s (c0 + a * acc))) := by
  have hK := hm.elastic.bulk_pos; have hG := hm.elastic.shear_pos
  have h1 := hm.xi; have h2 := hm.etay; have h3 := hm.etaf
  have hKd : m.K = bulk m.E m.v := rfl
  have hGd : m.G = shear m.E m.v := rfl
  have hD : 0 < shear m.E m.v + bulk m.E m.v * m.etaf * m.etay + m.xi ^ 2 * a := by positivity
  have hx : 0 ≤ coneMultiplier m a (dpYield m s (c0 + a * acc)) := div_nonneg hy hD.le
  set x := coneMultiplier m a (dpYield m s (c0 + a * acc)) with hxd
  have hJ : ∀ y, 0 ≤ y → (coneEq m (linearHardening c0 a) s acc y).jacobian =
      -(shear m.E m.v + bulk m.E m.v * m.etaf * m.etay + m.xi ^ 2 * a) := by
    intro y hy
    simp only [coneEq, dpConeEval, linear_nonneg (show 0 ≤ acc + m.xi * y by positivity), hKd, hGd]
    ring
  have hR : ∀ y, 0 ≤ y → (coneEq m (linearHardening c0 a) s acc y).residual =
      dpYield m s (c0 + a * acc) -
        (shear m.E m.v + bulk m.E m.v * m.etaf * m.etay + m.xi ^ 2 * a) * y := by
    intro y hy
    simp only [coneEq, dpConeEval, linear_nonneg (show 0 ≤ acc + m.xi * y by positivity), hKd, hGd,
      dpYield]
    ring
  refine firstConverged_affine ?_ ?_ ?_ ?_ (cohesionTol_pos _)
  · rw [hJ 0 le_rfl]; exact neg_ne_zero.mpr hD.ne'
  · rw [hJ 0 le_rfl, hR 0 le_rfl, mul_zero, sub_zero, neg_div_neg_eq]; rfl
  · rw [hR x hx, hxd, coneMultiplier]; field_simp; ring
  · rw [hJ x hx]; exact neg_ne_zero.mpr hD.ne'

theorem apex_linear {m : DPParams} (hm : Frictional m) {c0 a : ℝ} (ha : 0 ≤ a) {p acc : ℝ}
    (hacc : 0 ≤ acc) (hp : 0 ≤ p - m.xi / m.etay * (c0 + a * acc)) :
    FirstConverged (dpApexEval m (linearHardening c0 a) p acc)
      ((p - m.xi / m.etay * (c0 + a * acc)) /
        (bulk m.E m.v + m.xi / m.etaf * (m.xi / m.etay) * a)) := by
  have hK := hm.elastic.bulk_pos
  have h1 := hm.xi; have h2 := hm.etay; have h3 := hm.etaf
  have hKd : m.K = bulk m.E m.v := rfl
  have hal : 0 ≤ m.xi / m.etaf := by positivity
  have hbe : 0 ≤ m.xi / m.etay := by positivity
  have hD : 0 < bulk m.E m.v + m.xi / m.etaf * (m.xi / m.etay) * a := by positivity
  set x := (p - m.xi / m.etay * (c0 + a * acc)) /
    (bulk m.E m.v + m.xi / m.etaf * (m.xi / m.etay) * a) with hxd
  have hx : 0 ≤ x := div_nonneg hp hD.le
  have hJ : ∀ y, 0 ≤ y → (dpApexEval m (linearHardening c0 a) p acc y).jacobian =
      bulk m.E m.v + m.xi / m.etaf * (m.xi / m.etay) * a := by
    intro y hy
    simp only [dpApexEval,
      linear_nonneg (show 0 ≤ acc + m.xi / m.etaf * y from add_nonneg hacc (mul_nonneg hal hy)), hKd]
    ring
  have hR : ∀ y, 0 ≤ y → (dpApexEval m (linearHardening c0 a) p acc y).residual =
      -(p - m.xi / m.etay * (c0 + a * acc)) +
        (bulk m.E m.v + m.xi / m.etaf * (m.xi / m.etay) * a) * y := by
    intro y hy
    simp only [dpApexEval,
      linear_nonneg (show 0 ≤ acc + m.xi / m.etaf * y from add_nonneg hacc (mul_nonneg hal hy)), hKd]
    ring
  refine firstConverged_affine ?_ ?_ ?_ ?_ (cohesionTol_pos _)
  · rw [hJ 0 le_rfl]; exact hD.ne'
  · rw [hJ 0 le_rfl, hR 0 le_rfl, mul_zero, add_zero, neg_neg]
  · rw [hR x hx, hxd, mul_div_cancel₀ _ hD.ne']; ring
  · rw [hJ x hx]; exact hD.ne'

theorem firstConverged_unique {f : ℝ → NewtonEval} {x y : ℝ} (hx : FirstConverged f x)
    (hy : FirstConverged f y) : x = y := by
  rw [← dpLoop_some_iff] at hx hy
  exact Option.some.inj (hx.symm.trans hy)

theorem not_never {f : ℝ → NewtonEval} {x : ℝ} (hx : FirstConverged f x) : ¬ NeverConverges f := by
  rw [← dpLoop_some_iff] at hx
  rw [← dpLoop_none_iff, hx]; simp

/-- Beyond the apex the trial pressure exceeds the apex pressure. -/
theorem apex_pressure {m : DPParams} (hm : Frictional m) {c0 a : ℝ} (ha : 0 ≤ a) {s : V6} {acc : ℝ}
    (hlt : sqrtJ2 s - shear m.E m.v * coneMultiplier m a (dpYield m s (c0 + a * acc)) < 0) :
    0 < pressure6 s - m.xi / m.etay * (c0 + a * acc) := by
  have hK := hm.elastic.bulk_pos; have hG := hm.elastic.shear_pos
  have h1 := hm.xi; have h2 := hm.etay; have h3 := hm.etaf
  have hD : 0 < shear m.E m.v + bulk m.E m.v * m.etaf * m.etay + m.xi ^ 2 * a := by positivity
  have hJ := sqrtJ2_nonneg s
  unfold coneMultiplier at hlt
  have h4 : sqrtJ2 s * (shear m.E m.v + bulk m.E m.v * m.etaf * m.etay + m.xi ^ 2 * a) <
      shear m.E m.v * dpYield m s (c0 + a * acc) := by
    rw [← mul_div_assoc, sub_neg, lt_div_iff₀ hD] at hlt
    exact hlt
  unfold dpYield at h4
  have h5 : 0 ≤ sqrtJ2 s * (bulk m.E m.v * m.etaf * m.etay + m.xi ^ 2 * a) := by positivity
  have h6 : 0 < shear m.E m.v * (m.etay * pressure6 s - m.xi * (c0 + a * acc)) := by nlinarith
  have h7 : 0 < m.etay * pressure6 s - m.xi * (c0 + a * acc) := (mul_pos_iff_of_pos_left hG).mp h6
  have h8 : pressure6 s - m.xi / m.etay * (c0 + a * acc) =
      (m.etay * pressure6 s - m.xi * (c0 + a * acc)) / m.etay := by field_simp
  rw [h8]
  exact div_pos h7 h2

/-- C36g: with linear cohesion hardening (nonnegative slope) and frictional parameters a state
update never fails: outside the elastic domain the cone return has the closed form
`Δγ = f / (G + K η̄ η + ξ² H)`, and it is used unless it overshoots the apex, where the apex return
has the closed form `Δεv = (p - ξ/η c) / (K + ξ²/(η̄ η) H)`. -/
theorem C36_linear {p : PType} {m : DPParams} (hm : Frictional m) {c0 a : ℝ} (ha : 0 ≤ a)
    {inc : T2 p.dim} {old : DPState p} (hacc : 0 ≤ old.acc) :
    ∃ new T, dpUpdate p m (linearHardening c0 a) inc old = (.good new, T) ∧ 0 ≤ new.acc ∧
      (¬ DPTrialElastic m (linearHardening c0 a) old inc →
        let trial := hooke6 (lame m.E m.v) (shear m.E m.v) (trial3D old.toVMState inc)
        let x := dpYield m trial (c0 + a * old.acc) /
          (shear m.E m.v + bulk m.E m.v * m.etaf * m.etay + m.xi ^ 2 * a)
        (0 ≤ sqrtJ2 trial - shear m.E m.v * x →
          new.isApex = false ∧ new.acc = old.acc + m.xi * x) ∧
        (sqrtJ2 trial - shear m.E m.v * x < 0 →
          new.isApex = true ∧ new.acc = old.acc + m.xi / m.etaf *
            ((pressure6 trial - m.xi / m.etay * (c0 + a * old.acc)) /
              (bulk m.E m.v + m.xi / m.etaf * (m.xi / m.etay) * a)))) := by
  have hK := hm.elastic.bulk_pos; have hG := hm.elastic.shear_pos
  have h1 := hm.xi; have h2 := hm.etay; have h3 := hm.etaf
  have hD : 0 < shear m.E m.v + bulk m.E m.v * m.etaf * m.etay + m.xi ^ 2 * a := by positivity
  have hlaw := linear_nonneg (c0 := c0) (a := a) hacc
  set trial := hooke6 (lame m.E m.v) (shear m.E m.v) (trial3D old.toVMState inc) with htd
  have hcone : ¬ DPTrialElastic m (linearHardening c0 a) old inc →
      0 ≤ dpYield m trial (c0 + a * old.acc) ∧
      FirstConverged (coneEq m (linearHardening c0 a) trial old.acc)
        (coneMultiplier m a (dpYield m trial (c0 + a * old.acc))) := by
    intro hne
    unfold DPTrialElastic at hne
    rw [hlaw] at hne
    have := cohesionTol_pos (c0 + a * old.acc)
    have hy : 0 ≤ dpYield m trial (c0 + a * old.acc) := by
      have := not_le.mp hne; simp only at this; linarith
    exact ⟨hy, cone_linear hm ha hacc hy⟩
  have hgood : ∃ new T, dpUpdate p m (linearHardening c0 a) inc old = (.good new, T) := by
    cases hu : dpUpdate p m (linearHardening c0 a) inc old with
    | mk st T =>
      cases st with
      | good s => exact ⟨s, T, rfl⟩
      | nan s =>
        exfalso
        obtain ⟨hne, hf⟩ := C36_failure_iff.mp ⟨s, T, hu⟩
        obtain ⟨hy, hfc⟩ := hcone hne
        rcases hf with hn | ⟨x, hx, hlt, hn⟩
        · exact not_never hfc hn
        · have hxe : x = _ := firstConverged_unique hx hfc
          rw [hxe] at hlt
          rcases hn with h | h | h
          · exact h3.ne' h
          · exact h2.ne' h
          · exact not_never (apex_linear hm ha hacc (apex_pressure hm ha hlt).le) h
  obtain ⟨new, T, hu⟩ := hgood
  obtain ⟨r, hr, -, -, h5, h6, h7, -⟩ := dpUpdate_good hu
  refine ⟨new, T, hu, ?_⟩
  rcases dpReturn_cases hr with ⟨hp', ha', hc, -, -, hac, -⟩ |
    ⟨hp', ha', hc, x, hx, hge, hac, -⟩ | ⟨hp', ha', hc, -, -, ⟨y, hy, hlt⟩, x, hx, hac, -⟩
  · refine ⟨by rw [h5, hac]; exact hacc, fun hne => absurd hc hne⟩
  · obtain ⟨hyl, hfc⟩ := hcone hc
    obtain rfl := firstConverged_unique hx hfc
    have hx0 : 0 ≤ coneMultiplier m a (dpYield m trial (c0 + a * old.acc)) := div_nonneg hyl hD.le
    refine ⟨by rw [h5, hac]; exact add_nonneg hacc (mul_nonneg h1 hx0), fun _ => ⟨fun _ => ?_, ?_⟩⟩
    · exact ⟨h7.trans ha', h5.trans hac⟩
    · intro hlt; exact absurd hge (not_le.mpr hlt)
  · obtain ⟨hyl, hfc⟩ := hcone hc
    obtain rfl := firstConverged_unique hy hfc
    have hpr := apex_pressure hm ha hlt
    obtain rfl := firstConverged_unique hx (apex_linear hm ha hacc hpr.le)
    refine ⟨?_, fun _ => ⟨fun hge => absurd hge (not_le.mpr hlt), fun _ => ⟨h7.trans ha',
      h5.trans hac⟩⟩⟩
    rw [h5, hac]
    have hD2 : 0 < bulk m.E m.v + m.xi / m.etaf * (m.xi / m.etay) * a := by positivity
    exact add_nonneg hacc (mul_nonneg (by positivity) (div_nonneg hpr.le hD2.le))

/-- C36h: with linear cohesion hardening no history ever fails. -/
theorem C36_linear_never_fails {p : PType} {m : DPParams} (hm : Frictional m) {c0 a : ℝ}
    (ha : 0 ≤ a) (incs : List (T2 p.dim)) :
    ∃ s, dpRun p m (linearHardening c0 a) incs = .good s := by
  suffices H : ∀ (incs : List (T2 p.dim)) (st : DPState p), 0 ≤ st.acc →
      ∃ s, incs.foldl (dpStep p m (linearHardening c0 a)) (.good st) = .good s by
    exact H incs (dpInit p) le_rfl
  intro incs
  induction incs with
  | nil => intro st _; exact ⟨st, rfl⟩
  | cons inc incs ih =>
    intro st hst
    simp only [List.foldl_cons, dpStep]
    obtain ⟨new, T, hu, hacc, -⟩ := C36_linear hm (c0 := c0) ha (inc := inc) hst
    rw [hu]
    exact ih new hacc

/-! ### C37 -/

theorem norm6_dev (e : V6) : norm6 e ^ 2 = norm6 (dev6 e) ^ 2 + tr6 e ^ 2 / 3 := by
  unfold norm6
  rw [Real.sq_sqrt (Finset.sum_nonneg fun _ _ => sq_nonneg _),
    Real.sq_sqrt (Finset.sum_nonneg fun _ _ => sq_nonneg _)]
  simp only [Fin.sum_univ_six, dev6, one6, tr6]
  simp
  ring

theorem frob_unkel6 (w : V6) : ∑ i, ∑ j, unkel6 w i j ^ 2 = norm6 w ^ 2 := by
  unfold norm6
  rw [Real.sq_sqrt (Finset.sum_nonneg fun _ _ => sq_nonneg _)]
  have h2 : √(2 : ℝ) ^ 2 = 2 := Real.sq_sqrt (by norm_num)
  simp only [Fin.sum_univ_six, Fin.sum_univ_three, unkel6, pos6, kf]
  simp
  have h3 : (√(2 : ℝ))⁻¹ ^ 2 = 1 / 2 := by rw [inv_pow, h2]; norm_num
  ring_nf
  rw [h3]
  ring

/-- Squared Frobenius norm of the direction tensor of the cone tangent. -/
theorem C37_direction_norm {e : V6} (h : 1e-8 < norm6 e) :
    ∑ i, ∑ j, dpTrialUnit e i j ^ 2 = 1 - tr6 e ^ 2 / (3 * norm6 e ^ 2) := by
  have hp : 0 < norm6 e := lt_trans (by norm_num) h
  have h' : norm6 e > suSmall := h
  have hsum : ∑ i, ∑ j, dpTrialUnit e i j ^ 2 = dpNormDiv e ^ 2 * norm6 (dev6 e) ^ 2 := by
    rw [← frob_unkel6, Finset.mul_sum]
    refine Finset.sum_congr rfl fun i _ => ?_
    rw [Finset.mul_sum]
    refine Finset.sum_congr rfl fun j _ => ?_
    simp only [dpTrialUnit, mv6_devprojsym]
    ring
  have hd : norm6 (dev6 e) ^ 2 = norm6 e ^ 2 - tr6 e ^ 2 / 3 := by rw [norm6_dev e]; ring
  rw [hsum, hd, dpNormDiv, if_pos h']
  field_simp

/-- C37a: the direction tensor in the cone tangent has unit norm exactly when the elastic trial
strain has no volumetric part. -/
theorem C37_unit_iff {e : V6} (h : 1e-8 < norm6 e) :
    ∑ i, ∑ j, dpTrialUnit e i j ^ 2 = 1 ↔ tr6 e = 0 := by
  rw [C37_direction_norm h]
  have hp : 0 < norm6 e := lt_trans (by norm_num) h
  constructor
  · intro h1
    have h2 : tr6 e ^ 2 / (3 * norm6 e ^ 2) = 0 := by linarith
    rw [div_eq_zero_iff] at h2
    rcases h2 with h2 | h2
    · exact pow_eq_zero_iff (two_ne_zero) |>.mp h2
    · exact absurd h2 (by positivity)
  · intro h1; rw [h1]; simp

/-- C37b: the claim is false in general: for a uniaxial trial strain the squared norm of the
direction tensor is `2/3`. -/
theorem C37_unit_violated : ∑ i, ∑ j, dpTrialUnit ![1, 0, 0, 0, 0, 0] i j ^ 2 = 2 / 3 := by
  have hn : norm6 ![1, 0, 0, 0, 0, 0] = 1 := by
    unfold norm6; simp [Fin.sum_univ_succ]
  rw [C37_direction_norm (by rw [hn]; norm_num), hn]
  simp [tr6]
  norm_num

/-! ### Non-vacuity: `E = 1`, `ν = 0`, `ξ = η = η̄ = 1`, cohesion `1 + acc` -/

/-- Parameters of the examples. -/
def dpOne : DPParams := ⟨1, 0, 1, 1, 1⟩

theorem frictional_one : Frictional dpOne :=
  ⟨admissible_one, by norm_num [dpOne], by norm_num [dpOne], by norm_num [dpOne]⟩

/-- Shear strain increment `d`. -/
def shearInc (d : ℝ) : T2 3 := fun i j => if (i = 0 ∧ j = 1) ∨ (i = 1 ∧ j = 0) then d else 0
/-- Hydrostatic strain increment `d`. -/
def hydroInc (d : ℝ) : T2 3 := fun i j => if i = j then d else 0

theorem shear_trial (d : ℝ) : hooke6 (lame 1 0) (shear 1 0)
    (trial3D (dpInit .solid).toVMState (shearInc d)) = ![0, 0, 0, √2 * d, 0, 0] := by
  funext k
  fin_cases k <;>
    simp [hooke6, lame, shear, trial3D, elastic3D, increment3D, dpInit, vmInit, to3D, mf, kel6,
      shearInc, one6, tr6, ci, cj, kf]
  ring

theorem hydro_trial (d : ℝ) : hooke6 (lame 1 0) (shear 1 0)
    (trial3D (dpInit .solid).toVMState (hydroInc d)) = ![d, d, d, 0, 0, 0] := by
  funext k
  fin_cases k <;>
    simp [hooke6, lame, shear, trial3D, elastic3D, increment3D, dpInit, vmInit, to3D, mf, kel6,
      hydroInc, one6, tr6, ci, cj, kf]

theorem sqrtJ2_shear {d : ℝ} (hd : 0 ≤ d) : sqrtJ2 ![0, 0, 0, √2 * d, 0, 0] = d := by
  have h2 : √(2 : ℝ) ^ 2 = 2 := Real.sq_sqrt (by norm_num)
  have hn : norm6 (dev6 ![0, 0, 0, √2 * d, 0, 0]) = √2 * d := by
    unfold norm6
    rw [show ∑ k, dev6 ![0, 0, 0, √2 * d, 0, 0] k ^ 2 = (√2 * d) ^ 2 by
      simp [Fin.sum_univ_six, dev6, tr6, one6], Real.sqrt_sq (by positivity)]
  rw [sqrtJ2, hn]
  field_simp

theorem sqrtJ2_hydro (d : ℝ) : sqrtJ2 ![d, d, d, 0, 0, 0] = 0 := by
  have hn : norm6 (dev6 ![d, d, d, 0, 0, 0]) = 0 := by
    unfold norm6
    rw [show ∑ k, dev6 ![d, d, d, 0, 0, 0] k ^ 2 = 0 by
      simp [Fin.sum_univ_six, dev6, tr6, one6]; ring, Real.sqrt_zero]
  rw [sqrtJ2, hn]; simp

/-- a return to the cone: hypotheses of C36c and C36d are met -/
example : ∃ new T, dpUpdate .solid dpOne (linearHardening 1 1) (shearInc 3) (dpInit .solid) =
    (.good new, T) ∧ new.isPlast = true ∧ new.isApex = false ∧ new.acc = 12 / 11 := by
  obtain ⟨new, T, hu, -, h⟩ := C36_linear frictional_one (c0 := 1) zero_le_one (inc := shearInc 3)
    (old := dpInit .solid) le_rfl
  have hacc : (dpInit .solid).acc = 0 := rfl
  have hy : dpYield dpOne ![0, 0, 0, √2 * 3, 0, 0] 1 = 2 := by
    rw [dpYield, sqrtJ2_shear (by norm_num)]
    simp [dpOne, pressure6, tr6]; norm_num
  have hE : dpOne.E = 1 := rfl
  have hv : dpOne.v = 0 := rfl
  have hne : ¬ DPTrialElastic dpOne (linearHardening 1 1) (dpInit .solid) (shearInc 3) := by
    unfold DPTrialElastic
    rw [hacc, linear_nonneg le_rfl, hE, hv, shear_trial]
    simp only [mul_zero, add_zero, hy, cohesionTol]
    norm_num
  have h2 := (h hne).1
  simp only [hE, hv, shear_trial, hacc, mul_zero, add_zero, hy, sqrtJ2_shear (show (0:ℝ) ≤ 3 by norm_num)] at h2
  have h3 := h2 (by norm_num [shear, bulk, dpOne])
  refine ⟨new, T, hu, ?_, h3.1, ?_⟩
  · have := (C36_elastic_step hu).1
    cases hp : new.isPlast with
    | true => rfl
    | false => exact absurd (this.mp hp) hne
  · rw [h3.2]; norm_num [shear, bulk, dpOne]

/-- a return to the apex: hypotheses of C36e are met -/
example : ∃ new T, dpUpdate .solid dpOne (linearHardening 1 1) (hydroInc 3) (dpInit .solid) =
    (.good new, T) ∧ new.isApex = true ∧ new.acc = 3 / 2 := by
  obtain ⟨new, T, hu, -, h⟩ := C36_linear frictional_one (c0 := 1) zero_le_one (inc := hydroInc 3)
    (old := dpInit .solid) le_rfl
  have hacc : (dpInit .solid).acc = 0 := rfl
  have hp : pressure6 ![3, 3, 3, 0, 0, 0] = 3 := by simp [pressure6, tr6]; norm_num
  have hy : dpYield dpOne ![3, 3, 3, 0, 0, 0] 1 = 2 := by
    rw [dpYield, sqrtJ2_hydro, hp]
    norm_num [dpOne]
  have hE : dpOne.E = 1 := rfl
  have hv : dpOne.v = 0 := rfl
  have hne : ¬ DPTrialElastic dpOne (linearHardening 1 1) (dpInit .solid) (hydroInc 3) := by
    unfold DPTrialElastic
    rw [hacc, linear_nonneg le_rfl, hE, hv, hydro_trial]
    simp only [mul_zero, add_zero, hy, cohesionTol]
    norm_num
  have h2 := (h hne).2
  simp only [hE, hv, hydro_trial, hacc, mul_zero, add_zero, hy, hp, sqrtJ2_hydro] at h2
  have h3 := h2 (by norm_num [shear, bulk, dpOne])
  refine ⟨new, T, hu, h3.1, ?_⟩
  rw [h3.2]; norm_num [shear, bulk, dpOne]

end Hooke
