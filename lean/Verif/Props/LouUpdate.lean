import Verif.Lemmas.LouPlanar
import Verif.Props.VonMisesMixed
import Verif.Props.DruckerPrager

/-!
# C90: state update of the Lou-Zhang-Yoon model
-/

noncomputable section

namespace Hooke

open Spec

theorem normT2_frob (t : T2 3) : normT2 t = frob t := rfl

theorem louElastic_iff {p : PType} (m : LouParams) (old : VMState p) (inc : T2 p.dim) :
    louElastic (louEffective (unkel6 (mv6 (kel66 m.tangent) (trial3D old inc)))
      (m.a old.acc).1 (m.b old.acc).1 (m.c old.acc).1 (m.d old.acc).1) (m.y old.acc).1 ↔
    LouTrialElastic m old inc := by
  have h1 : mv6 (kel66 m.tangent) (trial3D old inc) = louTrial m old inc := mv6_iso _ _ _
  rw [h1]
  obtain ⟨hyes, hno⟩ := C88_effective (unkel6_isSym (louTrial m old inc)) (m.a old.acc).1 (m.b old.acc).1
    (m.c old.acc).1 (m.d old.acc).1
  unfold louElastic LouTrialElastic
  by_cases hd : LzyDefined (m.c old.acc).1 (m.d old.acc).1 (unkel6 (louTrial m old inc))
  · rw [hyes hd]
    constructor
    · rintro ⟨q, hq, h⟩
      obtain rfl := Option.some.inj hq
      refine ⟨hd, ?_⟩
      rcases h with h | ⟨h0, h⟩
      · exact Or.inl h
      · refine Or.inr ⟨h0, ?_⟩
        rw [h0, sub_zero] at h
        exact h
    · rintro ⟨-, h⟩
      refine ⟨_, rfl, ?_⟩
      rcases h with h | ⟨h0, h⟩
      · exact Or.inl h
      · refine Or.inr ⟨h0, ?_⟩
        rw [h0, sub_zero]
        exact h
  · rw [hno hd]
    constructor
    · rintro ⟨q, hq, -⟩
      cases hq
    · rintro ⟨h, -⟩
      exact absurd h hd

theorem louApexReturn_iff {p : PType} (m : LouParams) (old : VMState p) (inc : T2 p.dim) :
    louApexReturn (1 / 3 * ∑ i, unkel6 (mv6 (kel66 m.tangent) (trial3D old inc)) i i)
      (m.a old.acc).1 (m.b old.acc).1 (m.y old.acc).1 ↔ LouNearApex m old inc := by
  have h1 : mv6 (kel66 m.tangent) (trial3D old inc) = louTrial m old inc := mv6_iso _ _ _
  have h2 : ∑ i, unkel6 (louTrial m old inc) i i = tr6 (louTrial m old inc) := by
    have := tr6_kel6 (unkel6 (louTrial m old inc))
    rw [kel6_unkel6] at this
    exact this.symm
  rw [h1, h2]
  unfold louApexReturn LouNearApex
  split
  · rfl
  · rw [show (1 / 3 * tr6 (louTrial m old inc)) = tr6 (louTrial m old inc) / 3 by ring,
      show ((1 : ℝ) - 0.05) = 0.95 by norm_num,
      show 1 / (3 * (m.a old.acc).1 * max |(m.b old.acc).1| 1e-6) * (m.y old.acc).1 =
        (m.y old.acc).1 / (3 * (m.a old.acc).1 * max |(m.b old.acc).1| 1e-6) by ring]

open Classical in
/-- The three ways of a step. -/
theorem louReturn_cases {p : PType} (m : LouParams) (old : VMState p) (inc : T2 p.dim) :
    louReturn m (trial3D old inc) old.acc =
      if LouTrialElastic m old inc then
        .ok (some ⟨trial3D old inc, louTrial m old inc, old.acc, false⟩)
      else if LouNearApex m old inc then
        .ok (louApex m (tr6 (louTrial m old inc) / 3) old.acc)
      else louCone m (unkel6 (trial3D old inc)) old.acc := by
  have h1 : mv6 (kel66 m.tangent) (trial3D old inc) = louTrial m old inc := mv6_iso _ _ _
  have h2 : ∑ i, unkel6 (louTrial m old inc) i i = tr6 (louTrial m old inc) := by
    have := tr6_kel6 (unkel6 (louTrial m old inc))
    rw [kel6_unkel6] at this
    exact this.symm
  have he := louElastic_iff m old inc
  have ha := louApexReturn_iff m old inc
  unfold louReturn
  dsimp only
  rw [h1] at he ha ⊢
  rw [h2] at ha ⊢
  by_cases hc : LouTrialElastic m old inc
  · rw [if_pos (he.mpr hc), if_pos hc]
  · rw [if_neg (fun h => hc (he.mp h)), if_neg hc]
    by_cases hn : LouNearApex m old inc
    · rw [if_pos (ha.mpr hn), if_pos hn]
      congr 2
      ring
    · rw [if_neg (fun h => hn (ha.mp h)), if_neg hn]

/-- What a returned state is made of. -/
theorem louUpdate_good {p : PType} {m : LouParams} {inc : T2 p.dim} {old new : VMState p}
    (h : louUpdate p m inc old = .ok (.good new)) :
    ∃ r, louReturn m (trial3D old inc) old.acc = .ok (some r) ∧
      new.eStrain = to2D p r.eStrain ∧ new.e33 = get33 p r.eStrain ∧
      new.stress = to2D p r.stress ∧ new.s33 = get33 p r.stress ∧
      new.acc = r.acc ∧ new.isPlast = r.isPlast ∧ new.isSuFail = false ∧
      new.strain = old.strain + mf p inc := by
  unfold louUpdate at h
  have htr : to3D p old.eStrain old.e33 + to3D p (mf p inc) 0 = trial3D old inc := rfl
  simp only [htr] at h
  cases hr : louReturn m (trial3D old inc) old.acc with
  | error e => rw [hr] at h; cases h
  | ok r =>
    rw [hr] at h
    cases r with
    | none => simp [Except.map, louState] at h
    | some r =>
      simp only [Except.map, louState, Except.ok.injEq, VMVars.good.injEq] at h
      subst h
      refine ⟨r, rfl, rfl, rfl, rfl, rfl, rfl, rfl, rfl, ?_⟩
      show to2D p (trial3D old inc) + (old.strain - old.eStrain) = _
      have : trial3D old inc = to3D p old.eStrain old.e33 + to3D p (mf p inc) 0 := rfl
      rw [this, to2D_add, to2D_to3D, to2D_to3D]
      abel

/-- Results of a plastic step. -/
theorem louPlasticResult_stress (m : LouParams) (e : T2 3) (acc : ℝ) :
    (louPlasticResult m e acc).stress =
      hooke6 (lame m.E m.v) (shear m.E m.v) (louPlasticResult m e acc).eStrain := mv6_iso _ _ _

theorem louApex_some {m : LouParams} {pT accOld : ℝ} {r : LouReturn}
    (h : louApex m pT accOld = some r) : ∃ alpha x e, louAlpha (m.a 0).1 (m.b 0).1 = some alpha ∧
      louApexEval m alpha pT accOld x = some e ∧ louApexNorm e < suTol ∧
      r = louPlasticResult m (fun i j => 1 / (3 * m.K) * (pT - m.K * x) * (getIdOperators 3).soid i j)
        (accOld + alpha * x) := by
  unfold louApex at h
  cases ha : louAlpha (m.a 0).1 (m.b 0).1 with
  | none => rw [ha] at h; cases h
  | some alpha =>
    rw [ha] at h
    simp only [Option.bind_some, Option.map_eq_some_iff] at h
    obtain ⟨x, hx, rfl⟩ := h
    have key : ∀ (fuel nr : ℕ) (x0 dn : ℝ), louApexLoop (louApexEval m alpha pT accOld) accOld fuel nr x0 dn
        = some x → ∃ e, louApexEval m alpha pT accOld x = some e ∧ louApexNorm e < suTol := by
      intro fuel
      induction fuel with
      | zero =>
        intro nr x0 dn h
        unfold louApexLoop at h
        cases he : louApexEval m alpha pT accOld x0 with
        | none => rw [he] at h; cases h
        | some e =>
          rw [he] at h
          simp only at h
          split_ifs at h with hc
          · obtain rfl := Option.some.inj h
            exact ⟨e, he, hc.1⟩
      | succ n ih =>
        intro nr x0 dn h
        unfold louApexLoop at h
        cases he : louApexEval m alpha pT accOld x0 with
        | none => rw [he] at h; cases h
        | some e =>
          rw [he] at h
          simp only at h
          split_ifs at h with hc hj
          · obtain rfl := Option.some.inj h
            exact ⟨e, he, hc.1⟩
          · exact ih _ _ _ h
    obtain ⟨e, he, hn⟩ := key _ _ _ _ hx
    exact ⟨alpha, x, e, rfl, he, hn, rfl⟩

theorem louCone_some {p : PType} {m : LouParams} {eT : T2 3} {accOld : ℝ} (hT : LouShape p eT)
    {r : LouReturn} (h : louCone m eT accOld = .ok (some r)) :
    ∃ (x : LouPoint) (q : LouEval), LouShape p x.e ∧ louEval m eT accOld x = .ok (some q) ∧
      q.convNorm eT accOld < suTol ∧ r = louPlasticResult m x.e x.acc := by
  unfold louCone at h
  cases hl : louConeLoop m eT accOld suMaxIter 0 ⟨eT, accOld, 0⟩ 0 with
  | error e => rw [hl] at h; cases h
  | ok y =>
    rw [hl] at h
    cases y with
    | none => simp [Except.map] at h
    | some y =>
      simp only [Except.map, Except.ok.injEq, Option.map_some, Option.some.injEq] at h
      obtain ⟨h1, q, h2, h3⟩ := louConeLoop_some hT _ _ ⟨eT, accOld, 0⟩ _ hT hl
      exact ⟨y, q, h1, h2, h3, h.symm⟩

theorem planar_kel6 {p : PType} {e : T2 3} (h : LouShape p e) : Planar p (kel6 e) := by
  have := h.2
  rw [← unkel6_kel6 h.1] at this
  exact even2_planar.mp this

theorem louShape_soid (p : PType) (c : ℝ) : LouShape p fun i j => c * (getIdOperators 3).soid i j := by
  constructor
  · intro i j
    simp only [(C09_actions 3 0).1, eq_comm (a := i) (b := j)]
  · intro _ i j
    linear_combination c * even2_soid i j

/-- Elastic strain and stress of every returned state are those of the 3D return mapping. -/
theorem louUpdate_3D {p : PType} {m : LouParams} {inc : T2 p.dim} {old new : VMState p}
    (h : louUpdate p m inc old = .ok (.good new)) :
    ∃ r, louReturn m (trial3D old inc) old.acc = .ok (some r) ∧ elastic3D new = r.eStrain ∧
      stress3D new = r.stress ∧ new.acc = r.acc ∧ new.isPlast = r.isPlast ∧
      r.stress = hooke6 (lame m.E m.v) (shear m.E m.v) r.eStrain ∧ Planar p r.eStrain := by
  obtain ⟨r, hr, h1, h2, h3, h4, h5, h6, -, -⟩ := louUpdate_good h
  have hpl : Planar p r.eStrain ∧ r.stress = hooke6 (lame m.E m.v) (shear m.E m.v) r.eStrain := by
    rw [louReturn_cases] at hr
    split_ifs at hr with hc hn
    · obtain rfl := Option.some.inj (Except.ok.inj hr)
      exact ⟨planar_trial old inc, rfl⟩
    · obtain ⟨alpha, x, e, -, -, -, rfl⟩ := louApex_some (Except.ok.inj hr)
      exact ⟨planar_kel6 (louShape_soid p _), louPlasticResult_stress _ _ _⟩
    · obtain ⟨x, q, hx, -, -, rfl⟩ := louCone_some (louShape_unkel6 (planar_trial old inc)) hr
      exact ⟨planar_kel6 hx, louPlasticResult_stress _ _ _⟩
  refine ⟨r, hr, ?_, ?_, h5, h6, hpl.2, hpl.1⟩
  · rw [elastic3D, h1, h2]; exact to3D_to2D hpl.1
  · rw [stress3D, h3, h4]
    refine to3D_to2D ?_
    rw [hpl.2]
    exact planar_hooke6 _ _ hpl.1

/-- C90: in every successful step the total strain grows by the increment and the stress is Hooke's
law of the elastic strain, in plane strain and in 3D. -/
theorem C90_step {p : PType} {m : LouParams} {inc : T2 p.dim} {old new : VMState p}
    (h : louUpdate p m inc old = .ok (.good new)) :
    new.strain = old.strain + mf p inc ∧ new.isSuFail = false ∧
      stress3D new = hooke6 (lame m.E m.v) (shear m.E m.v) (elastic3D new) := by
  obtain ⟨r, -, -, -, -, -, -, -, h7, h8⟩ := louUpdate_good h
  obtain ⟨r', -, h1, h2, -, -, h5, -⟩ := louUpdate_3D h
  exact ⟨h8, h7, by rw [h1, h2, h5]⟩

/-- C90: a step is elastic exactly when the trial stress is within the tolerance of the yield
surface; it then changes neither the plastic strain nor the accumulated plastic strain. -/
theorem C90_elastic_step {p : PType} {m : LouParams} {inc : T2 p.dim} {old new : VMState p}
    (h : louUpdate p m inc old = .ok (.good new)) :
    (new.isPlast = false ↔ LouTrialElastic m old inc) ∧
    (new.isPlast = false → elastic3D new = trial3D old inc ∧ new.acc = old.acc ∧
      plastic3D new = plastic3D old) := by
  obtain ⟨r, hr, h1, h2, h3, h4, h5, -⟩ := louUpdate_3D h
  have hs := (C90_step h).1
  rw [louReturn_cases] at hr
  split_ifs at hr with hc hn
  · obtain rfl := Option.some.inj (Except.ok.inj hr)
    refine ⟨iff_of_true h4 hc, fun _ => ⟨h1, h3, ?_⟩⟩
    funext k
    simp only [plastic3D, strain3D_step hs, h1]
    simp only [trial3D]
    ring
  · obtain ⟨alpha, x, e, -, -, -, rfl⟩ := louApex_some (Except.ok.inj hr)
    have : new.isPlast = true := h4
    simp [this, hc]
  · obtain ⟨x, q, hx, -, -, rfl⟩ := louCone_some (louShape_unkel6 (planar_trial old inc)) hr
    have : new.isPlast = true := h4
    simp [this, hc]

/-- An elastic trial state never fails. -/
theorem C90_elastic_success {p : PType} {m : LouParams} {inc : T2 p.dim} {old : VMState p}
    (h : LouTrialElastic m old inc) : ∃ new, louUpdate p m inc old = .ok (.good new) ∧
      new.isPlast = false := by
  have htr : to3D p old.eStrain old.e33 + to3D p (mf p inc) 0 = trial3D old inc := rfl
  have : louUpdate p m inc old = .ok (louState p (trial3D old inc) (old.strain - old.eStrain)
      (some ⟨trial3D old inc, louTrial m old inc, old.acc, false⟩)) := by
    unfold louUpdate
    simp only [htr]
    rw [louReturn_cases, if_pos h]
    rfl
  exact ⟨_, this, rfl⟩

theorem louTol_of {x n : ℝ} (h : (if x < suSmall then n else n / x) < 3 * suTol) : n < louTol x := by
  unfold louTol
  have h8 : (1e-8 : ℝ) = suSmall := rfl
  have h6 : 3 * suTol = 3e-6 := by unfold suTol; norm_num
  rw [h8]
  rw [h6] at h
  by_cases hx : x < suSmall
  · rw [if_pos hx] at h ⊢; exact h
  · rw [if_neg hx] at h ⊢
    have : 0 < x := lt_of_lt_of_le (by unfold suSmall; norm_num) (not_lt.mp hx)
    rw [div_lt_iff₀ this] at h
    exact h

/-- What the return to the surface computes. -/
theorem lou_surface {p : PType} {m : LouParams} {inc : T2 p.dim} {old new : VMState p} {r : LouReturn}
    (hr : louCone m (unkel6 (trial3D old inc)) old.acc = .ok (some r))
    (hs : new.strain = old.strain + mf p inc) (h1 : elastic3D new = r.eStrain)
    (h2 : stress3D new = r.stress) (h3 : new.acc = r.acc) :
    ∃ g N, LouSurfaceReturn m old new inc g N := by
  obtain ⟨x, q, hx, hq, hconv, rfl⟩ := louCone_some (louShape_unkel6 (planar_trial old inc)) hr
  obtain ⟨hd, hfin, -, hqe⟩ := louEval_some hx.1 hq
  have hstress : unkel6 (stress3D new) = hooke (lame m.E m.v) (shear m.E m.v) x.e := by
    rw [h2, louPlasticResult_stress]
    show unkel6 (hooke6 _ _ (kel6 x.e)) = _
    rw [hooke6_kel6, unkel6_kel6 (hooke_isSym _ _ hx.1)]
  have hacc : new.acc = x.acc := h3
  have hctx : louCtx m x = .ok (louK m (louVec x)) := by
    have := louCtx_ok m hd
    rwa [louPoint_louVec hx.1] at this
  obtain ⟨heff, L, hL, hgrad⟩ := C89_flow m hx.1 hctx hfin
  set N := (louK m (louVec x)).flow with hN
  have hq1 : q.r1 = louR1 (unkel6 (trial3D old inc)) x N := by rw [hqe]
  have hq2 : q.r2 = louR2 m.assoc old.acc x N := by rw [hqe]
  have hq3 : q.r3 = louR3 (louK m (louVec x)).effective (m.y x.acc).1 (m.y 0).1 := by rw [hqe]
  unfold LouEval.convNorm at hconv
  have hn1 : 0 ≤ (if normT2 (unkel6 (trial3D old inc)) < suSmall then normT2 q.r1
      else normT2 q.r1 / normT2 (unkel6 (trial3D old inc))) := by
    have a1 : 0 ≤ normT2 q.r1 := Real.sqrt_nonneg _
    have a2 : 0 ≤ normT2 (unkel6 (trial3D old inc)) := Real.sqrt_nonneg _
    split
    · exact a1
    · exact div_nonneg a1 a2
  have hn2 : 0 ≤ (if |old.acc| < suSmall then |q.r2| else |q.r2 / old.acc|) := by
    split <;> exact abs_nonneg _
  have hn3 := abs_nonneg q.r3
  rw [div_lt_iff₀ (by norm_num)] at hconv
  have c1 : (if normT2 (unkel6 (trial3D old inc)) < suSmall then normT2 q.r1
      else normT2 q.r1 / normT2 (unkel6 (trial3D old inc))) < 3 * suTol := by linarith
  have c2 : (if |old.acc| < suSmall then |q.r2| else |q.r2| / |old.acc|) < 3 * suTol := by
    rw [abs_div] at hconv
    linarith
  have c3 : |q.r3| < 3 * suTol := by linarith
  refine ⟨x.inc, N, ?_, ?_, ?_, ?_, ?_⟩
  · rw [hacc, hstress]
    exact ⟨L, hL, hgrad⟩
  · obtain ⟨f4, f5, -⟩ := hfin
    unfold LzyDefinedAt LzyDefined
    rw [hacc, hstress]
    have hS := louS_louVec m hx.1
    have e4 : (louK m (louVec x)).w4 = devJ2 (hooke (lame m.E m.v) (shear m.E m.v) x.e) ^ 3 -
        (m.c x.acc).1 * devJ3 (hooke (lame m.E m.v) (shear m.E m.v) x.e) ^ 2 := by
      have : hooke (lame m.E m.v) (shear m.E m.v) x.e = louS m (louVec x) := hS.symm
      rw [this]
      rfl
    have e5 : (louK m (louVec x)).w5 = √((louK m (louVec x)).w4) -
        (m.d x.acc).1 * devJ3 (hooke (lame m.E m.v) (shear m.E m.v) x.e) := by
      have : hooke (lame m.E m.v) (shear m.E m.v) x.e = louS m (louVec x) := hS.symm
      rw [this, Real.sqrt_eq_rpow]
      rfl
    rw [← e4, ← e5]
    exact ⟨f4.le, f5.le⟩
  · have e : lzyAt m new.acc (stress3D new) = (louK m (louVec x)).effective := by
      rw [heff, lzyAt, hacc, hstress]; rfl
    rw [e, hacc]
    rw [hq3, louR3, abs_div] at c3
    have hy : 0 < |(m.y 0).1| := abs_pos.mpr hfin.2.2
    rw [div_lt_iff₀ hy] at c3
    have h6 : 3 * suTol = 3e-6 := by unfold suTol; norm_num
    rwa [h6] at c3
  · have hpl : (fun k => plastic3D new k - plastic3D old k) = fun k => trial3D old inc k - kel6 x.e k := by
      funext k
      have : elastic3D new k = kel6 x.e k := congrFun h1 k
      simp only [plastic3D, strain3D_step hs, this, trial3D]
      ring
    have hu : ∀ i j, unkel6 (fun k => trial3D old inc k - kel6 x.e k) i j =
        unkel6 (trial3D old inc) i j - x.e i j := by
      intro i j
      have := congrFun (congrFun (unkel6_kel6 hx.1) i) j
      rw [← this]
      simp only [unkel6]
      ring
    have hfr : frob (fun i j => unkel6 (fun k => plastic3D new k - plastic3D old k) i j - x.inc * N i j) =
        normT2 q.r1 := by
      rw [hpl, hq1, normT2_frob]
      unfold frob
      congr 1
      refine Finset.sum_congr rfl fun i _ => Finset.sum_congr rfl fun j _ => ?_
      show (unkel6 (fun k => trial3D old inc k - kel6 x.e k) i j - x.inc * N i j) ^ 2 = _
      rw [hu, louR1]
      ring
    rw [hfr]
    exact louTol_of c1
  · have e : new.acc - old.acc - x.inc * (if m.assoc then 1 else √(2 / 3) * frob N) = q.r2 := by
      rw [hq2, louR2, hacc, normT2_frob]
      split <;> ring
    rw [e]
    exact louTol_of c2

/-- C90: a plastic step away from the apex region returns to the yield surface along its gradient,
with the hardening rule. -/
theorem C90_surface {p : PType} {m : LouParams} {inc : T2 p.dim} {old new : VMState p}
    (h : louUpdate p m inc old = .ok (.good new)) (hp : new.isPlast = true)
    (hn : ¬ LouNearApex m old inc) : ∃ g N, LouSurfaceReturn m old new inc g N := by
  obtain ⟨r, hr, h1, h2, h3, h4, h5, -⟩ := louUpdate_3D h
  have hc : ¬ LouTrialElastic m old inc := by
    intro hc
    have := (C90_elastic_step h).1.mpr hc
    rw [hp] at this
    cases this
  rw [louReturn_cases, if_neg hc, if_neg hn] at hr
  exact lou_surface hr (C90_step h).1 h1 h2 h3

/-- C90: a plastic step in the apex region returns to the apex of the yield surface. -/
theorem C90_apex {p : PType} {m : LouParams} (hA : Admissible m.E m.v) {inc : T2 p.dim}
    {old new : VMState p} (h : louUpdate p m inc old = .ok (.good new)) (hp : new.isPlast = true)
    (hn : LouNearApex m old inc) : LouApexReturned m new := by
  obtain ⟨r, hr, h1, h2, h3, h4, h5, -⟩ := louUpdate_3D h
  have hc : ¬ LouTrialElastic m old inc := by
    intro hc
    have := (C90_elastic_step h).1.mpr hc
    rw [hp] at this
    cases this
  rw [louReturn_cases, if_neg hc, if_pos hn] at hr
  obtain ⟨alpha, x, e, -, he, hnorm, rfl⟩ := louApex_some (Except.ok.inj hr)
  set P := tr6 (louTrial m old inc) / 3 - m.K * x with hP
  have hK : 0 < bulk m.E m.v := hA.bulk_pos
  have hKm : m.K = bulk m.E m.v := rfl
  have hl := hA.lame_bulk
  have hst : stress3D new = fun k => P * one6 k := by
    rw [h2, louPlasticResult_stress]
    funext k
    have hone : kel6 (fun i j => 1 / (3 * m.K) * P * (getIdOperators 3).soid i j) = fun k =>
        1 / (3 * m.K) * P * one6 k := by
      funext k
      rw [one6_kel6]
      simp only [kel6, (C09_actions 3 0).1]
      ring
    show hooke6 _ _ (kel6 fun i j => 1 / (3 * m.K) * P * (getIdOperators 3).soid i j) k = _
    rw [hone]
    have htr : tr6 (fun k => 1 / (3 * m.K) * P * one6 k) = 1 / m.K * P := by
      rw [hKm]
      simp [tr6, one6]
      field_simp
      ring
    rw [hooke6, htr, hKm]
    have hne := hK.ne'
    field_simp
    linear_combination P * one6 k * hl
  have hacc : new.acc = old.acc + alpha * x := h3
  unfold louApexEval at he
  simp only at he
  split_ifs at he with h0
  rw [← hacc] at h0 he
  obtain rfl := Option.some.inj he
  have ht : tr6 (fun k => P * one6 k) = 3 * P := by
    simp [tr6, one6]
    ring
  refine ⟨?_, ?_, ?_⟩
  · rw [hst]
    funext k
    simp only [dev6, ht, Pi.zero_apply]
    ring
  · intro hz
    apply h0
    linear_combination 3 * hz
  · rw [hst, ht]
    unfold louApexNorm at hnorm
    simp only at hnorm
    have e1 : 3 * P / 3 - (m.y new.acc).1 / (3 * (m.a new.acc).1 * (m.b new.acc).1) =
        -((m.y new.acc).1 * (1 / (3 * (m.a new.acc).1 * (m.b new.acc).1)) - P) := by ring
    rw [e1, abs_neg]
    have h6 : (1e-6 : ℝ) = suTol := rfl
    rw [h6]
    have hm1 := le_max_left 1 |(m.y new.acc).1|
    have hm2 := le_max_right 1 |(m.y new.acc).1|
    split_ifs at hnorm with hsm
    · have := suTol_pos
      nlinarith
    · have hpos : 0 < |(m.y new.acc).1| :=
        lt_of_lt_of_le (by unfold suSmall; norm_num) (not_lt.mp hsm)
      rw [div_lt_iff₀ hpos] at hnorm
      have := suTol_pos
      nlinarith

theorem lzyAt_hydro (m : LouParams) (acc P : ℝ) {s : V6} (hs : s = fun k => P * one6 k) :
    LzyDefinedAt m acc s ∧ lzyAt m acc s = 3 * (m.a acc).1 * (m.b acc).1 * P := by
  have hu : unkel6 s = hydrostatic P := by
    subst hs
    rw [one6_kel6]
    have : (fun k => P * kel6 (fun i j => if i = j then (1 : ℝ) else 0) k) = kel6 (hydrostatic P) := by
      funext k
      simp only [kel6, hydrostatic]
      split_ifs <;> ring
    rw [this, unkel6_kel6 (hydrostatic_isSym P)]
  have h2 : devJ2 (hydrostatic P) = 0 := by simp [devJ2, hydrostatic_dev]
  have h3 : devJ3 (hydrostatic P) = 0 := by
    rw [devJ3, hydrostatic_dev]
    simp
  have h1 : trace (hydrostatic P) = 3 * P := by
    simp [trace, hydrostatic]
  unfold LzyDefinedAt lzyAt LzyDefined lzyStress
  rw [hu, h1, h2, h3]
  constructor
  · simp
  · simp
    ring

theorem lou_history_step {p : PType} {m : LouParams} (hA : Admissible m.E m.v)
    (hy : ∀ x, 0 < (m.y x).1) {inc total : T2 p.dim} {old new : VMState p}
    (hi : LouInvariant m total old) (h : louUpdate p m inc old = .ok (.good new)) :
    LouInvariant m (total + inc) new := by
  obtain ⟨h1, h2, h3⟩ := C90_step h
  have hone : ∀ x : ℝ, 1 ≤ max 1 x := fun x => le_max_left _ _
  have key : LzyDefinedAt m new.acc (stress3D new) ∧ lzyAt m new.acc (stress3D new) ≤
      (m.y new.acc).1 + 3e-6 * max |(m.y 0).1|
        (max 1 |(m.a new.acc).1 * (m.b new.acc).1| * max 1 (m.y new.acc).1) := by
    have hR := le_max_right |(m.y 0).1|
      (max 1 |(m.a new.acc).1 * (m.b new.acc).1| * max 1 (m.y new.acc).1)
    have hL := le_max_left |(m.y 0).1|
      (max 1 |(m.a new.acc).1 * (m.b new.acc).1| * max 1 (m.y new.acc).1)
    set M := max |(m.y 0).1| (max 1 |(m.a new.acc).1 * (m.b new.acc).1| * max 1 (m.y new.acc).1)
    have m1 := hone |(m.a new.acc).1 * (m.b new.acc).1|
    have m2 := le_max_right 1 |(m.a new.acc).1 * (m.b new.acc).1|
    have m3 := hone (m.y new.acc).1
    have m4 := le_max_right 1 (m.y new.acc).1
    set A := max 1 |(m.a new.acc).1 * (m.b new.acc).1|
    set B := max 1 (m.y new.acc).1
    cases hp : new.isPlast with
    | false =>
      obtain ⟨he, ha, -⟩ := (C90_elastic_step h).2 hp
      obtain ⟨hd, hv⟩ := (C90_elastic_step h).1.mp hp
      have hst : stress3D new = louTrial m old inc := by rw [h3, he]; rfl
      rw [hst, ha]
      rw [ha] at m4
      refine ⟨hd, ?_⟩
      have hpos := hy old.acc
      rcases hv with ⟨-, hv⟩ | ⟨h0, -⟩
      · rw [div_le_iff₀ hpos] at hv
        have hBM : B ≤ M := by nlinarith
        linarith
      · exact absurd h0 hpos.ne'
    | true =>
      by_cases hn : LouNearApex m old inc
      · obtain ⟨q1, q2, q3⟩ := C90_apex hA h hp hn
        set P := tr6 (stress3D new) / 3 with hP
        have hst : stress3D new = fun k => P * one6 k := by
          funext k
          have := congrFun q1 k
          rw [dev6, Pi.zero_apply, sub_eq_zero] at this
          exact this
        obtain ⟨hd, hz⟩ := lzyAt_hydro m new.acc P hst
        refine ⟨hd, ?_⟩
        rw [hz]
        have hpos := hy new.acc
        rw [abs_of_pos hpos] at q3
        have hane : (m.a new.acc).1 ≠ 0 := left_ne_zero_of_mul q2
        have hbne : (m.b new.acc).1 ≠ 0 := right_ne_zero_of_mul q2
        have e : 3 * (m.a new.acc).1 * (m.b new.acc).1 * P - (m.y new.acc).1 =
            3 * ((m.a new.acc).1 * (m.b new.acc).1) *
              (P - (m.y new.acc).1 / (3 * (m.a new.acc).1 * (m.b new.acc).1)) := by
          field_simp
        have hle : 3 * (m.a new.acc).1 * (m.b new.acc).1 * P - (m.y new.acc).1 ≤
            3 * A * (1e-6 * B) := by
          rw [e]
          refine (le_abs_self _).trans ?_
          rw [abs_mul, abs_mul, abs_of_pos (by norm_num : (0 : ℝ) < 3)]
          have hA3 : 3 * |(m.a new.acc).1 * (m.b new.acc).1| ≤ 3 * A := by linarith
          exact mul_le_mul hA3 q3.le (abs_nonneg _) (by linarith)
        nlinarith
      · obtain ⟨g, N, hret⟩ := C90_surface h hp hn
        refine ⟨hret.isDefined, ?_⟩
        have := (abs_lt.mp hret.onSurface).2
        linarith
  exact ⟨by rw [h1, hi.strain, mf_add], h3, key.1, key.2, h2⟩

/-- C90: after every history of strain increments which ends in a valid state, the total strain is
the sum of the increments, the stress is Hooke's law of the elastic strain, and the effective stress
does not exceed the yield stress by more than the tolerance. -/
theorem C90_history {p : PType} {m : LouParams} (hA : Admissible m.E m.v) (hy : ∀ x, 0 < (m.y x).1)
    (incs : List (T2 p.dim)) {s : VMState p} (h : louRun p m incs = .ok (.good s)) :
    LouInvariant m incs.sum s := by
  suffices H : ∀ (incs : List (T2 p.dim)) (s0 : VMState p) (total : T2 p.dim),
      LouInvariant m total s0 → incs.foldlM (louStep p m) (.good s0) = .ok (.good s) →
      LouInvariant m (total + incs.sum) s by
    have hz : ∀ p : PType, to3D p (0 : Vmf p) 0 = 0 := by
      intro p; cases p
      · funext k; fin_cases k <;> simp [to3D]
      · rfl
    have hi : LouInvariant m 0 (vmInit p) := by
      have hs : stress3D (vmInit p) = 0 := hz p
      have he : elastic3D (vmInit p) = 0 := hz p
      obtain ⟨hd, hv⟩ := lzyAt_hydro m (vmInit p).acc 0 (s := 0) (by funext k; simp)
      refine ⟨(mf_zero p).symm, ?_, ?_, ?_, rfl⟩
      · rw [hs, he]; funext k; simp [hooke6, tr6]
      · rw [hs]; exact hd
      · rw [hs, hv, mul_zero]
        have h1 := hy (vmInit p).acc
        have h2 := (abs_nonneg (m.y 0).1).trans (le_max_left |(m.y 0).1|
          (max 1 |(m.a (vmInit p).acc).1 * (m.b (vmInit p).acc).1| * max 1 (m.y (vmInit p).acc).1))
        linarith
    have := H incs (vmInit p) 0 hi h
    rwa [zero_add] at this
  intro incs
  induction incs with
  | nil =>
    intro s0 total h0 hs
    simp only [List.foldlM_nil] at hs
    obtain rfl := VMVars.good.inj (Except.ok.inj hs)
    simpa using h0
  | cons inc incs ih =>
    intro s0 total hi hs
    simp only [List.foldlM_cons, louStep] at hs
    obtain ⟨st, hu, hs⟩ := bind_ok hs
    cases st with
    | nan sn =>
      exfalso
      have : ∀ (l : List (T2 p.dim)) sn, l.foldlM (louStep p m) (.nan sn) ≠ .ok (.good s) := by
        intro l
        induction l with
        | nil => intro sn h; cases h
        | cons i l ih =>
          intro sn h
          simp only [List.foldlM_cons, louStep] at h
          exact ih none h
      exact this incs sn hs
    | good s1 =>
      rw [List.sum_cons, ← add_assoc]
      exact ih s1 (total + inc) (lou_history_step hA hy hi hu) hs

/-- C90: a plastic step outside the apex region raises `RuntimeError` when the deviator of the trial
stress is singular. -/
theorem C90_singular_raises {p : PType} {m : LouParams} {inc : T2 p.dim} {old : VMState p}
    (hc : ¬ LouTrialElastic m old inc) (hn : ¬ LouNearApex m old inc)
    (h3 : devJ3 (unkel6 (louTrial m old inc)) = 0) :
    louUpdate p m inc old = .error .runtimeError := by
  have htr : to3D p old.eStrain old.e33 + to3D p (mf p inc) 0 = trial3D old inc := rfl
  unfold louUpdate
  simp only [htr]
  rw [louReturn_cases, if_neg hc, if_neg hn]
  have hx : IsSym (⟨unkel6 (trial3D old inc), old.acc, 0⟩ : LouPoint).e := unkel6_isSym _
  have hS : devJ3 (louS m (louVec ⟨unkel6 (trial3D old inc), old.acc, 0⟩)) = 0 := by
    rw [louS_louVec m hx]
    have : hooke (lamOf m.E m.v) (miuOf m.E m.v) (unkel6 (trial3D old inc)) =
        unkel6 (louTrial m old inc) := by
      have e := hooke6_kel6 (lame m.E m.v) (shear m.E m.v) (unkel6 (trial3D old inc))
      rw [kel6_unkel6] at e
      rw [louTrial, e, unkel6_kel6 (hooke_isSym _ _ (unkel6_isSym _))]
      rfl
    rw [this, h3]
  have hctx := louCtx_error m hS
  rw [louPoint_louVec hx] at hctx
  have hev : louEval m (unkel6 (trial3D old inc)) old.acc ⟨unkel6 (trial3D old inc), old.acc, 0⟩ =
      .error .runtimeError := by
    rw [louEval, hctx]; rfl
  unfold louCone suMaxIter louConeLoop
  rw [hev]
  rfl

/-- A strain increment of pure shear. -/
def pureShear : (p : PType) → ℝ → T2 p.dim
  | .plane, g => fun i j => if i = j then 0 else g
  | .solid, g => fun i j => if (i = 0 ∧ j = 1) ∨ (i = 1 ∧ j = 0) then g else 0

theorem pureShear_trial (p : PType) (m : LouParams) (g : ℝ) :
    unkel6 (louTrial m (vmInit p) (pureShear p g)) = fun i j =>
      if (i = 0 ∧ j = 1) ∨ (i = 1 ∧ j = 0) then 2 * shear m.E m.v * g else 0 := by
  have h0 : √(2 : ℝ) ≠ 0 := by positivity
  have ht : trial3D (vmInit p) (pureShear p g) = ![0, 0, 0, g * √2, 0, 0] := by
    funext k
    cases p
    · simp only [trial3D, elastic3D, increment3D, vmInit, pureShear, mf, to3D]
      fin_cases k <;> simp
    · simp only [trial3D, elastic3D, increment3D, vmInit, pureShear, mf, to3D]
      fin_cases k <;> simp [kel6, ci, cj, kf]
  rw [louTrial, ht]
  funext i j
  fin_cases i <;> fin_cases j <;> simp [unkel6, pos6, kf, hooke6, tr6, one6] <;> field_simp

theorem pureShear_inv (T : ℝ) (t : T2 3)
    (ht : t = fun i j => if (i = 0 ∧ j = 1) ∨ (i = 1 ∧ j = 0) then T else 0) :
    trace t = 0 ∧ devJ2 t = T ^ 2 ∧ devJ3 t = 0 := by
  have h1 : trace t = 0 := by
    subst ht
    simp [trace, Fin.sum_univ_three]
  have hd : deviator t = t := by
    funext i j
    simp [deviator, h1]
  refine ⟨h1, ?_, ?_⟩
  · rw [devJ2, hd, ht]
    simp [Fin.sum_univ_three]
    ring
  · rw [devJ3, hd, ht]
    simp [Matrix.det_fin_three]

/-- The update has no result for any plastic increment of pure shear: whatever the elastic
constants and the yield parameters `b`, `c`, `d` are, a first increment of pure shear which exceeds
the yield stress raises `RuntimeError`, in plane strain and in 3D, because the deviator of a pure
shear stress is singular and `get_stress_invariants_and_derivatives` inverts it. -/
theorem C90_pure_shear_violated (p : PType) (m : LouParams) {g : ℝ} (hy : 0 < (m.y 0).1)
    (ha : 0 < (m.a 0).1)
    (hg : (1 + 1e-6) * (m.y 0).1 < (m.a 0).1 * |2 * shear m.E m.v * g|) :
    louUpdate p m (pureShear p g) (vmInit p) = .error .runtimeError := by
  have hu := pureShear_trial p m g
  obtain ⟨h1, h2, h3⟩ := pureShear_inv _ _ hu
  have hacc : (vmInit p).acc = 0 := rfl
  refine C90_singular_raises ?_ ?_ h3
  · rintro ⟨-, hv⟩
    have hz : lzyAt m (vmInit p).acc (louTrial m (vmInit p) (pureShear p g)) =
        (m.a 0).1 * |2 * shear m.E m.v * g| := by
      rw [lzyAt, lzyStress, h1, h2, h3, hacc]
      have e : (2 * shear m.E m.v * g) ^ 2 = |2 * shear m.E m.v * g| ^ 2 := (sq_abs _).symm
      have hs := cbrt_sqrt_cube (x := (2 * shear m.E m.v * g) ^ 2) (sq_nonneg _)
      rw [Real.sqrt_sq_eq_abs] at hs
      have e2 : ((2 * shear m.E m.v * g) ^ 2) ^ 3 - (m.c 0).1 * 0 ^ 2 =
        ((2 * shear m.E m.v * g) ^ 2) ^ 3 := by ring
      rw [e2, mul_zero, mul_zero, sub_zero, hs, zero_add]
    rw [hz, hacc] at hv
    rcases hv with ⟨-, hv⟩ | ⟨h0, -⟩
    · rw [div_le_iff₀ hy] at hv
      linarith
    · exact hy.ne' h0
  · unfold LouNearApex
    rw [hacc, if_neg ha.ne']
    have ht : tr6 (louTrial m (vmInit p) (pureShear p g)) = 0 := by
      have := tr6_kel6 (unkel6 (louTrial m (vmInit p) (pureShear p g)))
      rw [kel6_unkel6] at this
      rw [this, h1]
    rw [ht]
    have : 0 < max |(m.b 0).1| 1e-6 := lt_of_lt_of_le (by norm_num) (le_max_right _ _)
    have h4 : 0 < (m.y 0).1 / (3 * (m.a 0).1 * max |(m.b 0).1| 1e-6) := by positivity
    simp only [zero_div, gt_iff_lt, not_lt]
    positivity

/-- The von Mises material with `E = 1`, `v = 0`, yield stress one: a shear strain of two. -/
example : louUpdate .plane louDemo (pureShear .plane 2) (vmInit .plane) = .error .runtimeError := by
  refine C90_pure_shear_violated .plane louDemo (by simp [louDemo]) (by simp [louDemo]) ?_
  have h3 : (1 : ℝ) ≤ √3 := by rw [Real.one_le_sqrt]; norm_num
  have hs : shear louDemo.E louDemo.v = 1 / 2 := by simp [shear, louDemo]
  rw [hs]
  simp only [louDemo]
  norm_num
  linarith

end Hooke
