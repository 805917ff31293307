import Verif.Model.VonMisesMixedVMAP
import Verif.Lemmas.PlasticityVMAP
import Verif.Props.VonMisesVMAP
import Verif.Props.ConsistentTangentMixed

/-! # C86: the batched mixed hardening model against the standard one -/

noncomputable section

namespace Hooke

open Spec

/-- Outcome of the batched 3D return mapping with mixed hardening. -/
theorem mixVmapReturn_cases {E v : ℝ} {law kin : HardLaw} {eT : V6} {acc : ℝ} {b : V6}
    {r : MixReturn} (h : mixVmapReturn E v law kin eT acc b = some r) :
    let rel : V6 := fun k => dev6 (hooke6 (lame E v) (shear E v) eT) k - b k
    r.stress = hooke6 (lame E v) (shear E v) r.eStrain ∧
    ((r.isPlast = false ∧ r.eStrain = eT ∧ r.acc = acc ∧ r.back = b ∧
      ((law acc).1 ≠ 0 ∧ (√(3 / 2) * norm6 rel - (law acc).1) / (law acc).1 ≤ suTol) ∧
      r.tangent = kel66 (isoTensor (lame E v) (shear E v))) ∨
     (r.isPlast = true ∧ ¬ ((law acc).1 ≠ 0 ∧
        (√(3 / 2) * norm6 rel - (law acc).1) / (law acc).1 ≤ suTol) ∧
      ∃ inc, newtonLoop (mixEval (shear E v) (√(3 / 2) * norm6 rel) acc law kin)
          suTol suMaxIter 0 0 = some inc ∧ r.acc = acc + inc ∧
        (r.eStrain = fun k => eT k - inc * vmapFlow suSmall rel k) ∧
        (r.back = fun k => b k + ((kin (acc + inc)).1 - (kin acc).1) * vmapFlow suSmall rel k) ∧
        ∀ (d : V6) (k : Fin 6), mv6 r.tangent d k = hooke6 (lame E v) (shear E v) d k -
          inc * 6 * shear E v ^ 2 / (√(3 / 2) * norm6 rel) * dev6 d k +
          6 * shear E v ^ 2 * (inc / (√(3 / 2) * norm6 rel) -
            1 / (3 * shear E v + (law r.acc).2)) *
            ((2 / 3) * (∑ j, vmapFlow suSmall rel j * d j) * vmapFlow suSmall rel k))) := by
  have hl : lamOf E v = lame E v := rfl
  have hm : miuOf E v = shear E v := rfl
  have hG : E / (2 * (1 + v)) = shear E v := rfl
  intro rel
  unfold mixVmapReturn at h
  simp only [mv6_iso, mv6_devprojsym, hl, hm, hG] at h
  have hrel : (fun k => dev6 (hooke6 (lame E v) (shear E v) eT) k - b k) = rel := rfl
  simp only [hrel] at h
  by_cases hc : (law acc).1 ≠ 0 ∧ (√(3 / 2) * norm6 rel - (law acc).1) / (law acc).1 ≤ suTol
  · rw [decide_eq_true hc] at h
    simp only [if_true, mixVmapElasticStep, Option.some.injEq] at h
    subst h
    exact ⟨rfl, Or.inl ⟨rfl, rfl, rfl, rfl, hc, rfl⟩⟩
  · rw [decide_eq_false hc] at h
    simp only [Bool.false_eq_true, if_false, mixVmapPlasticStep, maskedLoop_eq] at h
    cases hn : newtonLoop (mixEval (shear E v) (√(3 / 2) * norm6 rel) acc law kin)
          suTol suMaxIter 0 0 with
    | none => rw [hn] at h; simp at h
    | some inc =>
      rw [hn] at h
      simp only [Option.some.injEq] at h
      subst h
      refine ⟨by simp only [mv6_iso], Or.inr ⟨rfl, hc, inc, rfl, rfl, rfl, rfl, ?_⟩⟩
      intro d k
      have h23 : √(2 / 3 : ℝ) ^ 2 = 2 / 3 := Real.sq_sqrt (by norm_num)
      simp only [if_true]
      refine (mv6_kel66_lin _ _ _ _ _ _ _).trans ?_
      rw [mv6_iso, mv6_devprojsym, mv6_dyad, h23]

theorem mixVmapReturn_none {E v : ℝ} {law kin : HardLaw} {eT : V6} {acc : ℝ} {b : V6} :
    mixVmapReturn E v law kin eT acc b = none ↔ mixReturn E v law kin eT acc b = none := by
  have hl : lamOf E v = lame E v := rfl
  have hm : miuOf E v = shear E v := rfl
  have hG : E / (2 * (1 + v)) = shear E v := rfl
  rw [mixReturn_none]
  unfold mixVmapReturn
  simp only [mv6_iso, mv6_devprojsym, hl, hm, hG]
  set rel : V6 := fun k => dev6 (hooke6 (lame E v) (shear E v) eT) k - b k
  by_cases hc : (law acc).1 ≠ 0 ∧ (√(3 / 2) * norm6 rel - (law acc).1) / (law acc).1 ≤ suTol
  · rw [decide_eq_true hc]
    simp only [if_true, reduceCtorEq, false_iff]
    exact fun h => h.1 hc
  · rw [decide_eq_false hc]
    simp only [Bool.false_eq_true, if_false, mixVmapPlasticStep, maskedLoop_eq, hc,
      not_false_eq_true, true_and]
    cases hn : newtonLoop (mixEval (shear E v) (√(3 / 2) * norm6 rel) acc law kin)
          suTol suMaxIter 0 0 <;> simp

theorem planar_vmapFlow {p : PType} {s : ℝ} {w : V6} (h : Planar p w) :
    Planar p (vmapFlow s w) := by
  intro hp
  obtain ⟨h4, h5⟩ := h hp
  simp [vmapFlow, h4, h5]

theorem tr6_vmapFlow {s : ℝ} {w : V6} (h : tr6 w = 0) : tr6 (vmapFlow s w) = 0 := by
  simp only [tr6, vmapFlow] at h ⊢
  rw [← mul_add, ← mul_add, h, mul_zero]

/-- Relation between the batched update of a state and the 3D return mapping. -/
theorem mixVmapUpdate_good {p : PType} {E v : ℝ} {law kin : HardLaw} {inc : T2 p.dim}
    {old new : MixState p} {T : Option (Fin p.len → Fin p.len → ℝ)}
    (h : mixVmapUpdate p E v law kin inc old = (.good new, T)) :
    ∃ r, mixVmapReturn E v law kin (trial3D old.toVMState inc) old.acc (back3D old) = some r ∧
      elastic3D new.toVMState = r.eStrain ∧ stress3D new.toVMState = r.stress ∧
      back3D new = r.back ∧ new.acc = r.acc ∧ new.isPlast = r.isPlast ∧ new.isSuFail = false ∧
      new.strain = old.strain + mf p inc ∧ T = some (to2DM p r.tangent) := by
  unfold mixVmapUpdate at h
  have htr : to3D p old.eStrain old.e33 + to3D p (mf p inc) 0 = trial3D old.toVMState inc := rfl
  have hb : to3D p old.back old.b33 = back3D old := rfl
  simp only [htr, hb] at h
  cases hr : mixVmapReturn E v law kin (trial3D old.toVMState inc) old.acc (back3D old) with
  | none => rw [hr] at h; simp at h
  | some r =>
    rw [hr] at h
    simp only [Prod.mk.injEq, MixVars.good.injEq] at h
    obtain ⟨rfl, rfl⟩ := h
    have hbp : Planar p (back3D old) := planar_to3D p old.back old.b33
    have hrel : Planar p (fun k => dev6 (hooke6 (lame E v) (shear E v)
        (trial3D old.toVMState inc)) k - back3D old k) :=
      planar_sub (planar_dev6 (planar_hooke6 _ _ (planar_trial _ inc))) hbp
    have hpl : Planar p r.eStrain ∧ Planar p r.back := by
      rcases (mixVmapReturn_cases hr).2 with ⟨-, he, -, hb, -⟩ | ⟨-, -, i, -, -, he, hb, -⟩
      · rw [he, hb]; exact ⟨planar_trial _ inc, hbp⟩
      · rw [he, hb]
        refine ⟨planar_sub_smul i (planar_trial _ inc) (planar_vmapFlow hrel), ?_⟩
        intro hp
        obtain ⟨h4, h5⟩ := planar_vmapFlow (s := suSmall) hrel hp
        obtain ⟨h4', h5'⟩ := hbp hp
        exact ⟨by beta_reduce; rw [h4, h4']; simp, by beta_reduce; rw [h5, h5']; simp⟩
    refine ⟨r, rfl, to3D_to2D hpl.1, ?_, to3D_to2D hpl.2, rfl, rfl, rfl, ?_, rfl⟩
    · refine to3D_to2D ?_
      rw [(mixVmapReturn_cases hr).1]
      exact planar_hooke6 _ _ hpl.1
    · show to2D p (trial3D old.toVMState inc) + (old.strain - old.eStrain) = _
      rw [← htr, to2D_add, to2D_to3D, to2D_to3D]
      abel

theorem mixUpdate_nan {p : PType} {E v : ℝ} {law kin : HardLaw} {inc : T2 p.dim}
    {old : MixState p} : (∃ s T, mixUpdate p E v law kin inc old = (.nan s, T)) ↔
      mixReturn E v law kin (trial3D old.toVMState inc) old.acc (back3D old) = none := by
  unfold mixUpdate
  have htr : to3D p old.eStrain old.e33 + to3D p (mf p inc) 0 = trial3D old.toVMState inc := rfl
  have hb : to3D p old.back old.b33 = back3D old := rfl
  simp only [htr, hb]
  cases hr : mixReturn E v law kin (trial3D old.toVMState inc) old.acc (back3D old) <;> simp

theorem mixVmapUpdate_nan {p : PType} {E v : ℝ} {law kin : HardLaw} {inc : T2 p.dim}
    {old : MixState p} : (∃ s T, mixVmapUpdate p E v law kin inc old = (.nan s, T)) ↔
      mixVmapReturn E v law kin (trial3D old.toVMState inc) old.acc (back3D old) = none := by
  unfold mixVmapUpdate
  have htr : to3D p old.eStrain old.e33 + to3D p (mf p inc) 0 = trial3D old.toVMState inc := rfl
  have hb : to3D p old.back old.b33 = back3D old := rfl
  simp only [htr, hb]
  cases hr : mixVmapReturn E v law kin (trial3D old.toVMState inc) old.acc (back3D old) <;> simp

/-! ### C86 -/

/-- C86a: for all hardening laws, states and increments the batched mixed hardening update fails
exactly when the standard one fails. -/
theorem C86_failure_iff {p : PType} {E v : ℝ} {law kin : HardLaw} {inc : T2 p.dim}
    {old : MixState p} :
    (∃ s T, mixVmapUpdate p E v law kin inc old = (.nan s, T)) ↔
      ∃ s T, mixUpdate p E v law kin inc old = (.nan s, T) := by
  rw [mixVmapUpdate_nan, mixUpdate_nan, mixVmapReturn_none]

/-- Same relative trial stress of the increment for both models. -/
theorem mix_rel_eq {p : PType} (E v : ℝ) (old : MixState p) (inc : T2 p.dim) :
    (fun k => dev6 (hooke6 (lame E v) (shear E v) (trial3D old.toVMState inc)) k -
      back3D old k) = relTrial E v old inc := rfl

/-- C86b: whenever the batched update succeeds, the standard one succeeds from the same state with
the same increment, with the same total strain, accumulated plastic strain and plasticity flag.  In
an elastic step all state variables and the tangent are equal.  In a plastic step the increments of
plastic strain and of back stress are those of the standard model times `‖rel‖ / ‖rel + 1e-8‖`,
where `rel` is the relative trial stress and `1e-8` is added to every component. -/
theorem C86_refines_standard {p : PType} {E v : ℝ} {law kin : HardLaw} {inc : T2 p.dim}
    {old new : MixState p} {T : Option (Fin p.len → Fin p.len → ℝ)}
    (h : mixVmapUpdate p E v law kin inc old = (.good new, T)) :
    ∃ new' T', mixUpdate p E v law kin inc old = (.good new', T') ∧ new'.strain = new.strain ∧
      new'.acc = new.acc ∧ new'.isPlast = new.isPlast ∧
      (new.isPlast = false → new' = new ∧ T' = T) ∧
      (new.isPlast = true → 1e-8 < norm6 (relTrial E v old inc) → ∀ k,
        trial3D old.toVMState inc k - elastic3D new.toVMState k =
          norm6 (relTrial E v old inc) / norm6 (fun k => relTrial E v old inc k + 1e-8) *
            (trial3D old.toVMState inc k - elastic3D new'.toVMState k) ∧
        back3D new k - back3D old k =
          norm6 (relTrial E v old inc) / norm6 (fun k => relTrial E v old inc k + 1e-8) *
            (back3D new' k - back3D old k)) := by
  obtain ⟨r, hr, h1, h2, hb, h3, h4, h5, h6, hT⟩ := mixVmapUpdate_good h
  obtain ⟨new', T', hu⟩ : ∃ new' T', mixUpdate p E v law kin inc old = (.good new', T') := by
    cases hu : mixUpdate p E v law kin inc old with
    | mk st T =>
      cases st with
      | good s => exact ⟨s, T, rfl⟩
      | nan s =>
        have := mixVmapReturn_none.mpr (mixUpdate_nan.mp ⟨s, T, hu⟩)
        rw [hr] at this; cases this
  obtain ⟨r', hr', h1', h2', hb', h3', h4', h5', h6', hT'⟩ := mixUpdate_good hu
  obtain ⟨hs, hc⟩ := mixVmapReturn_cases hr
  obtain ⟨hs', hc'⟩ := mixReturn_cases hr'
  simp only [mix_rel_eq] at hc hc'
  refine ⟨new', T', hu, by rw [h6, h6'], ?_⟩
  rcases hc with ⟨c1, c2, c3, c4, c5, c6⟩ | ⟨c1, c2, x, c3, c4, c5, c6, -⟩ <;>
  rcases hc' with ⟨d1, d2, d3, d4, d5, d6⟩ | ⟨d1, d2, y, d3, d4, d5, d6⟩
  · refine ⟨by rw [h3, h3', c3, d3], by rw [h4, h4', c1, d1], fun _ => ?_, fun hp => ?_⟩
    · have hst : r'.stress = r.stress := by rw [hs, hs', c2, d2]
      have hdt : r'.tangent = r.tangent := by
        rw [c6]
        unfold mixReturn at hr'
        dsimp only at hr'
        split_ifs at hr' <;>
          first
            | (obtain rfl := Option.some.inj hr'; rfl)
            | (split at hr'
               · cases hr'
               · obtain rfl := Option.some.inj hr'; cases d1)
      unfold mixUpdate at hu
      unfold mixVmapUpdate at h
      have htr : to3D p old.eStrain old.e33 + to3D p (mf p inc) 0 =
        trial3D old.toVMState inc := rfl
      have hbk : to3D p old.back old.b33 = back3D old := rfl
      simp only [htr, hbk, hr, hr', Prod.mk.injEq, MixVars.good.injEq] at hu h
      exact ⟨by rw [← hu.1, ← h.1, hst, d2, c2, d3, c3, d1, c1, d4, c4], by
        rw [← hu.2, ← h.2, hdt]⟩
    · rw [h4, c1] at hp; cases hp
  · exact absurd c5 d2
  · exact absurd ⟨d5, d6⟩ c2
  · have hxy : x = y := Option.some.inj (c3.symm.trans d3)
    subst hxy
    refine ⟨by rw [h3, h3', c4, d4], by rw [h4, h4', c1, d1], fun hp => ?_, fun _ hbig k => ?_⟩
    · rw [h4, c1] at hp; cases hp
    · have hN : 0 < norm6 (relTrial E v old inc) := lt_trans (by norm_num) hbig
      have hfl : vmapFlow suSmall (relTrial E v old inc) k =
          norm6 (relTrial E v old inc) / norm6 (fun k => relTrial E v old inc k + 1e-8) *
            mixFlow (relTrial E v old inc) k := by
        have hb1 : norm6 (relTrial E v old inc) > suSmall := hbig
        simp only [vmapFlow, mixFlow, if_pos hb1]
        have hsm : (fun k => relTrial E v old inc k + suSmall) =
          fun k => relTrial E v old inc k + 1e-8 := rfl
        rw [hsm]
        field_simp
      rw [h1, h1', hb, hb', c5, d5, c6, d6]
      simp only [hfl]
      constructor <;> ring

/-- C86c: from the initial state, after any history of the batched model without failure, the back
stress is deviatoric, the plastic strain is volume preserving, the total strain is the sum of the
increments and the stress is Hooke's law of the elastic strain. -/
theorem C86_history {p : PType} {E v : ℝ} {law kin : HardLaw} (incs : List (T2 p.dim))
    {s : MixState p} (h : mixVmapRun p E v law kin incs = .good s) :
    MixInvariant E v incs.sum s := by
  suffices H : ∀ (incs : List (T2 p.dim)) (s0 : MixState p) (total : T2 p.dim),
      MixInvariant E v total s0 →
      incs.foldl (mixVmapStep p E v law kin) (.good s0) = .good s →
      MixInvariant E v (total + incs.sum) s by
    have := H incs (mixInit p) 0 (C35_history (law := law) (kin := kin) [] rfl) h
    rwa [zero_add] at this
  intro incs
  induction incs with
  | nil =>
    intro s0 total h0 hs
    simp only [List.foldl_nil, MixVars.good.injEq] at hs
    subst hs
    simpa using h0
  | cons inc incs ih =>
    intro s0 total h0 hs
    simp only [List.foldl_cons, mixVmapStep] at hs
    cases hu : mixVmapUpdate p E v law kin inc s0 with
    | mk st T =>
      rw [hu] at hs
      cases st with
      | nan sn =>
        exfalso
        have : ∀ (l : List (T2 p.dim)) sn,
            l.foldl (mixVmapStep p E v law kin) (.nan sn) ≠ .good s := by
          intro l
          induction l with
          | nil => intro sn h; cases h
          | cons i l ih => intro sn; exact ih none
        exact this incs sn hs
      | good s1 =>
        rw [List.sum_cons, ← add_assoc]
        refine ih s1 (total + inc) ?_ hs
        obtain ⟨r, hr, h1, h2, hb, h3, h4, h5, h6, -⟩ := mixVmapUpdate_good hu
        obtain ⟨hst, hc⟩ := mixVmapReturn_cases hr
        have hrel : tr6 (fun k => dev6 (hooke6 (lame E v) (shear E v)
            (trial3D s0.toVMState inc)) k - back3D s0 k) = 0 := by
          have := tr6_sub_smul (dev6 (hooke6 (lame E v) (shear E v)
            (trial3D s0.toVMState inc))) (back3D s0) 1
          simp only [one_mul] at this
          rw [this, tr6_dev6, h0.back]; simp
        have hf := tr6_vmapFlow (s := suSmall) hrel
        refine ⟨by rw [h6, h0.strain, mf_add], by rw [h2, h1, hst], ?_, ?_, h5⟩
        · have hv := h0.volume
          rcases hc with ⟨-, he, -⟩ | ⟨-, -, x, -, -, he, -⟩
          · simp only [tr6, plastic3D, strain3D_step h6, h1, he] at hv ⊢
            simp only [trial3D]
            linarith
          · simp only [tr6, plastic3D, strain3D_step h6, h1, he] at hv hf ⊢
            simp only [trial3D] at hf ⊢
            linear_combination hv + x * hf
        · rw [hb]
          rcases hc with ⟨-, -, -, he, -⟩ | ⟨-, -, x, -, -, -, he, -⟩
          · rw [he]; exact h0.back
          · rw [he]
            have hbk := h0.back
            simp only [tr6] at hf hbk ⊢
            linear_combination hbk + ((kin (s0.acc + x)).1 - (kin s0.acc).1) * hf

/-! ### Tangent -/

theorem rel_uni (d : ℝ) : relTrial 1 0 (mixInit .solid) (uniInc d) =
    ![2 * d / 3, -d / 3, -d / 3, 0, 0, 0] := by
  funext k
  fin_cases k <;>
    simp [relTrial, back3D, mixInit, hooke6, lame, shear, trial3D, elastic3D, increment3D, vmInit,
      to3D, mf, kel6, uniInc, one6, tr6, ci, cj, kf, dev6] <;> ring

theorem hooke_uni (d : ℝ) : hooke6 (lame 1 0) (shear 1 0)
    (trial3D (mixInit .solid).toVMState (uniInc d)) = ![d, 0, 0, 0, 0, 0] := by
  funext k
  fin_cases k <;>
    simp [mixInit, hooke6, lame, shear, trial3D, elastic3D, increment3D, vmInit,
      to3D, mf, kel6, uniInc, one6, tr6, ci, cj, kf]

theorem norm6_rel_uni {d : ℝ} (hd : 0 ≤ d) :
    √(3 / 2) * norm6 ![2 * d / 3, -d / 3, -d / 3, 0, 0, 0] = d := by
  rw [norm6, ← Real.sqrt_mul (by norm_num)]
  conv_rhs => rw [← Real.sqrt_sq hd]
  congr 1
  simp [Fin.sum_univ_six]
  ring

/-- First component of the batched flow vector in uniaxial straining. -/
theorem vmapFlow_uni {d : ℝ} (hd : 1 ≤ d) :
    vmapFlow suSmall ![2 * d / 3, -d / 3, -d / 3, 0, 0, 0] 0 = d / √(d ^ 2 + 9 * suSmall ^ 2) := by
  have hbig : norm6 ![2 * d / 3, -d / 3, -d / 3, 0, 0, 0] > suSmall := by
    have h1 := norm6_rel_uni (zero_le_one.trans hd)
    have hn := norm6_nonneg ![2 * d / 3, -d / 3, -d / 3, 0, 0, 0]
    have h2 := mul_le_mul_of_nonneg_right sqrt32_lt.le hn
    have : suSmall = 1e-8 := rfl
    rw [this]
    linarith [show (1e-8 : ℝ) < 1 / 2 by norm_num]
  have hR : 0 < √(d ^ 2 + 9 * suSmall ^ 2) := Real.sqrt_pos.mpr (by positivity)
  have hN : norm6 (fun k => (![2 * d / 3, -d / 3, -d / 3, 0, 0, 0] : V6) k + suSmall) =
      √(2 / 3) * √(d ^ 2 + 9 * suSmall ^ 2) := by
    rw [norm6, ← Real.sqrt_mul (by norm_num)]
    congr 1
    simp [Fin.sum_univ_six]
    ring
  have h32 : √(3 / 2 : ℝ) = 3 / 2 * √(2 / 3) := by
    rw [show (3 / 2 : ℝ) = (3 / 2) ^ 2 * (2 / 3) by norm_num, Real.sqrt_mul (by norm_num),
      Real.sqrt_sq (by norm_num)]
    norm_num
  have h23 : 0 < √(2 / 3 : ℝ) := Real.sqrt_pos.mpr (by norm_num)
  simp only [vmapFlow, if_pos hbig, hN, h32]
  simp
  field_simp

/-- Plastic step of the batched model in uniaxial straining: `E = 1`, `ν = 0`, constant yield
stress 1 and kinematic hardening stress equal to the accumulated plastic strain. -/
theorem mixVmap_uni {d : ℝ} (hd : 2 ≤ d) : ∃ (new : MixState .solid) (r : MixReturn),
    mixVmapUpdate .solid 1 0 (linearHardening 1 0) (linearHardening 0 1) (uniInc d)
      (mixInit .solid) = (.good new, some r.tangent) ∧ new.isPlast = true ∧
    new.acc = (d - 1) * (2 / 5) ∧
    new.stress (0 : Fin 6) = d - (d - 1) * (2 / 5) * (d / √(d ^ 2 + 9 * suSmall ^ 2)) ∧
    mv6 r.tangent ![1, 0, 0, 0, 0, 0] 0 = 1 - (d - 1) * (2 / 5) / d +
      ((d - 1) * (2 / 5) / d - 2 / 3) * (d / √(d ^ 2 + 9 * suSmall ^ 2)) ^ 2 := by
  have hd0 : 0 ≤ d := by linarith
  have hacc : (mixInit .solid).acc = 0 := rfl
  have hG : shear 1 0 = 1 / 2 := by norm_num [shear]
  have hL : lame 1 0 = 0 := by norm_num [lame]
  have hq := norm6_rel_uni hd0
  have hn : newtonLoop (mixEval (shear 1 0) d 0 (linearHardening 1 0) (linearHardening 0 1))
      suTol suMaxIter 0 0 = some ((d - 1) * (2 / 5)) := by
    have hr : relu ((d - 1) * (2 / 5)) = (d - 1) * (2 / 5) := max_eq_left (by linarith)
    refine newton_affine (by decide) suTol_pos ?_ ?_ ?_ ?_ <;>
      norm_num [mixEval, linearHardening, relu, hG]
    · ring
    · rw [max_eq_left (by linarith)]; ring
  have hel : ¬ ((linearHardening 1 0 0).1 ≠ 0 ∧
      (d - (linearHardening 1 0 0).1) / (linearHardening 1 0 0).1 ≤ suTol) := by
    norm_num [linearHardening, relu, suTol]
    linarith
  cases hu : mixVmapUpdate .solid 1 0 (linearHardening 1 0) (linearHardening 0 1)
    (uniInc d) (mixInit .solid) with
  | mk st T =>
    cases st with
    | nan sn =>
      exfalso
      have h1 := mixReturn_none.mp (mixVmapReturn_none.mp (mixVmapUpdate_nan.mp ⟨sn, T, hu⟩))
      have := h1.2
      simp only [mix_rel_eq, rel_uni, hq, hacc, hn] at this
      cases this
    | good new =>
      obtain ⟨r, hr, -, h2, -, h3, h4, -, -, hT⟩ := mixVmapUpdate_good hu
      have hc := mixVmapReturn_cases hr
      simp only [mix_rel_eq, rel_uni, hq, hacc] at hc
      obtain ⟨hs, ⟨-, -, -, -, h1, -⟩ | ⟨h1, -, x, hx, ha, he, -, ht⟩⟩ := hc
      · exact absurd h1 hel
      rw [hn] at hx
      cases hx
      refine ⟨new, r, by rw [hT]; rfl, h4.trans h1, by rw [h3, ha]; ring, ?_, ?_⟩
      · have h5 : new.stress (0 : Fin 6) = r.stress 0 := congrFun h2 0
        rw [h5, hs, he, hooke6_sub_smul, hooke_uni]
        have htr : tr6 (vmapFlow suSmall ![2 * d / 3, -d / 3, -d / 3, 0, 0, 0]) = 0 :=
          tr6_vmapFlow (by simp [tr6]; ring)
        rw [hooke6_dev htr]
        simp only [vmapFlow_uni (show (1:ℝ) ≤ d by linarith), hG]
        simp
      · rw [ht]
        have hsum : ∑ j, vmapFlow suSmall ![2 * d / 3, -d / 3, -d / 3, 0, 0, 0] j *
            (![1, 0, 0, 0, 0, 0] : V6) j = d / √(d ^ 2 + 9 * suSmall ^ 2) := by
          rw [Fin.sum_univ_six, ← vmapFlow_uni (show (1:ℝ) ≤ d by linarith)]
          simp
        rw [hsum, vmapFlow_uni (show (1:ℝ) ≤ d by linarith), hG, hL]
        simp only [hooke6, dev6, tr6, one6, linearHardening]
        simp
        ring

theorem vmap_slope_ne {u : ℝ} (h0 : 0 ≤ u) :
    1 - (2 / 5) * (5 / 3 * u - 2 / 3 * u ^ 3) ≠
      1 - 4 / 15 + (4 / 15 - 2 / 3) * u ^ 2 := by
  intro h
  nlinarith [mul_nonneg h0 (sq_nonneg (u - 1 / 2)), sq_nonneg (u - 1 / 2)]

/-- C86d: the tangent returned by the batched mixed hardening model is not the derivative of its
updated stress: it omits the slope of the kinematic hardening, which the standard model includes.
Here the normal stress grows with slope about 0.6 and the tangent says about 0.33. -/
theorem C86_tangent_violated : ∃ new T, mixVmapUpdate .solid 1 0 (linearHardening 1 0)
    (linearHardening 0 1) (uniInc 3) (mixInit .solid) = (.good new, some T) ∧
      new.isPlast = true ∧ ¬ IsTangent .solid (updatedStressMixedVmap .solid 1 0
        (linearHardening 1 0) (linearHardening 0 1) (mixInit .solid)) T (uniInc 3) := by
  obtain ⟨new, r, hu, hp, -, -, hT⟩ := mixVmap_uni (d := 3) (by norm_num)
  refine ⟨new, _, hu, hp, ?_⟩
  rintro ⟨L, hL, hd⟩
  -- derivative along uniaxial straining
  have hline : HasDerivAt (fun d : ℝ => uniInc d) (uniInc 1) 3 := by
    refine hasDerivAt_pi.mpr fun i => hasDerivAt_pi.mpr fun j => ?_
    unfold uniInc
    split_ifs
    · exact hasDerivAt_id 3
    · exact hasDerivAt_const 3 0
  have h1 := hasDerivAt_pi.mp (hd.comp_hasDerivAt (3 : ℝ) hline) (0 : Fin 6)
  have hR0 : (3 : ℝ) ^ 2 + 9 * suSmall ^ 2 ≠ 0 := by positivity
  have hsq : HasDerivAt (fun d : ℝ => √(d ^ 2 + 9 * suSmall ^ 2))
      (3 / √(3 ^ 2 + 9 * suSmall ^ 2)) 3 := by
    have := (((hasDerivAt_pow 2 (3 : ℝ)).add_const (9 * suSmall ^ 2))).sqrt hR0
    refine this.congr_deriv ?_
    have hpos : 0 < √((3 : ℝ) ^ 2 + 9 * suSmall ^ 2) := Real.sqrt_pos.mpr (by positivity)
    field_simp
    norm_num
  have hpos : 0 < √((3 : ℝ) ^ 2 + 9 * suSmall ^ 2) := Real.sqrt_pos.mpr (by positivity)
  have h2 : HasDerivAt (fun d : ℝ => d - (d - 1) * (2 / 5) * (d / √(d ^ 2 + 9 * suSmall ^ 2)))
      _ 3 := (hasDerivAt_id' (3 : ℝ)).sub ((((hasDerivAt_id' (3 : ℝ)).sub_const 1).mul_const
        (2 / 5 : ℝ)).mul ((hasDerivAt_id' (3 : ℝ)).div hsq hpos.ne'))
  have h3 := h2.congr_of_eventuallyEq (f₁ := fun d => updatedStressMixedVmap .solid 1 0
      (linearHardening 1 0) (linearHardening 0 1) (mixInit .solid) (uniInc d) (0 : Fin 6)) (by
    filter_upwards [lt_mem_nhds (show (2 : ℝ) < 3 by norm_num)] with d hd2
    obtain ⟨new', r', hu', -, -, hs', -⟩ := mixVmap_uni (d := d) hd2.le
    simp only [updatedStressMixedVmap, hu', hs'])
  have h4 := h1.unique h3
  have h5 : L (uniInc 1) (0 : Fin 6) = mv6 r.tangent ![1, 0, 0, 0, 0, 0] 0 := by
    rw [hL]
    have : mf .solid (uniInc 1) = (![1, 0, 0, 0, 0, 0] : V6) := by
      funext k
      fin_cases k <;> simp [mf, kel6, uniInc, ci, cj, kf]
    rw [this]
    rfl
  rw [h5, hT] at h4
  refine vmap_slope_ne (u := 3 / √((3 : ℝ) ^ 2 + 9 * suSmall ^ 2)) (by positivity) ?_
  generalize √((3 : ℝ) ^ 2 + 9 * suSmall ^ 2) = R at *
  have hRne := hpos.ne'
  have hslope : 1 - (1 * (2 / 5) * (3 / R) + (3 - 1) * (2 / 5) * ((1 * R - 3 * (3 / R)) / R ^ 2)) =
      1 - (2 / 5) * (5 / 3 * (3 / R) - 2 / 3 * (3 / R) ^ 3) := by
    field_simp
    ring
  linear_combination (-1) * hslope - h4

/-- a plastic step meets the hypotheses of C86b with a relative trial stress above `1e-8` -/
example : ∃ new T, mixVmapUpdate .solid 1 0 (linearHardening 1 0) (linearHardening 0 1)
    (uniInc 3) (mixInit .solid) = (.good new, T) ∧ new.isPlast = true ∧ new.acc = 4 / 5 ∧
      1e-8 < norm6 (relTrial 1 0 (mixInit .solid) (uniInc 3)) := by
  obtain ⟨new, r, hu, hp, ha, -, -⟩ := mixVmap_uni (d := 3) (by norm_num)
  refine ⟨new, _, hu, hp, by rw [ha]; norm_num, ?_⟩
  rw [rel_uni]
  have h1 := norm6_rel_uni (d := 3) (by norm_num)
  have hn := norm6_nonneg ![2 * 3 / 3, -3 / 3, -3 / 3, 0, 0, 0]
  have h2 := mul_le_mul_of_nonneg_right sqrt32_lt.le hn
  linarith [show (1e-8 : ℝ) < 1 / 2 by norm_num]

/-- hypotheses of C86c are met by a history with a plastic step -/
example : ∃ s, mixVmapRun .solid 1 0 (linearHardening 1 0) (linearHardening 0 1) [uniInc 3] =
    .good s := by
  obtain ⟨new, r, hu, -⟩ := mixVmap_uni (d := 3) (by norm_num)
  exact ⟨new, by simp only [mixVmapRun, List.foldl_cons, List.foldl_nil, mixVmapStep, hu]⟩

end Hooke
