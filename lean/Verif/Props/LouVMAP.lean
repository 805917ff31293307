import Verif.Model.LouVMAP
import Verif.Props.LouVonMises
import Verif.Spec.LouVMAP

/-!
# C93: batched Lou-Zhang-Yoon model
-/

noncomputable section

namespace Hooke

open Spec

theorem louVmapJacobian_eq {m : LouParams} {fixed : Bool} {x : LouPoint} {k : LouCtx}
    (h : fixed = true → k.ha = 0 ∧ k.hb = 0 ∧ k.hc = 0 ∧ k.hd = 0) :
    louVmapJacobian m fixed x k = louJacobian m x k := by
  cases fixed with
  | false => rfl
  | true =>
    obtain ⟨h1, h2, h3, h4⟩ := h rfl
    have e1 : k.dw5acc = 0 := by simp [LouCtx.dw5acc, LouCtx.dw4acc, h3, h4]
    have e2 : k.dflowAcc = 0 := by
      funext i j
      simp [LouCtx.dflowAcc, LouCtx.d2w1acc, LouCtx.d2w5acc, LouCtx.d2w4acc, LouCtx.dw4acc, e1, h1, h2,
        h3, h4]
    have e3 : k.deffAcc = 0 := by simp [LouCtx.deffAcc, LouCtx.dw1acc, e1, h1, h2]
    have e4 : louDr2acc m.assoc x k.flow k.dflowAcc = 1 := by
      rw [louDr2acc, e2]
      split
      · rfl
      · simp [ddot22_1]
    have e5 : (fun i j => x.inc * k.dflowAcc i j) = (0 : T2 3) := by
      funext i j; simp [e2]
    unfold louVmapJacobian louJacobian
    simp only [if_true, e3, e4, e5]
    have e6 : -(m.y x.acc).2 / (m.y 0).1 = 1 / (m.y 0).1 * (0 - (m.y x.acc).2) := by ring
    rw [e6]

theorem louVmapEval_eq {m : LouParams} {fixed : Bool} (h : fixed = true → FixedYield m) (eT : T2 3)
    (accOld : ℝ) (x : LouPoint) : louVmapEval m fixed eT accOld x = louEval m eT accOld x := by
  unfold louVmapEval louEval
  cases hk : louCtx m x with
  | error e => rfl
  | ok k =>
    simp only [Except.map, louAssemble]
    rw [louVmapJacobian_eq]
    intro hf
    have hs := h hf x.acc
    unfold louCtx at hk
    dsimp only at hk
    cases hd : louDerivatives (ddot42_1 m.tangent x.e) with
    | error e => rw [hd] at hk; cases hk
    | ok g =>
      rw [hd] at hk
      cases hk
      exact hs

theorem louVmapStepNorm_eq (eT : T2 3) {accOld : ℝ} (h : 0 ≤ accOld) (d : LouIx → ℝ) :
    louVmapStepNorm eT accOld d = louStepNorm eT accOld d := by
  unfold louVmapStepNorm louStepNorm
  rw [abs_of_nonneg h]

/-- Unknowns which are not finite stay so. -/
theorem louVmap_none {m : LouParams} {fixed : Bool} {eT : T2 3} {accOld : ℝ} {c : Bool}
    (l : List ℕ) : ∃ c', l.foldlM (louVmapConeStep m fixed eT accOld false) (none, c) = .ok (none, c') := by
  induction l generalizing c with
  | nil => exact ⟨c, rfl⟩
  | cons k l ih => exact ih

/-- Converged unknowns stay as they are. -/
theorem louVmap_stay {m : LouParams} {eT : T2 3} {accOld : ℝ} {fixed : Bool} {x : LouPoint}
    {r : LouEval} (hr : louVmapEval m fixed eT accOld x = .ok (some r))
    (hc : r.convNorm eT accOld < suTol) {s : LouMask LouPoint} (l : List ℕ) (hl : ∀ k ∈ l, 0 < k) {c : Bool}
    (h : l.foldlM (louVmapConeStep m fixed eT accOld false) (some (x, 0), true) = .ok s) :
    s = (some (x, 0), true) := by
  induction l with
  | nil => cases h; rfl
  | cons k l ih =>
    rw [List.foldlM_cons] at h
    obtain ⟨s1, h1, h2⟩ := bind_ok h
    have : s1 = (some (x, 0), true) := by
      unfold louVmapConeStep at h1
      simp only [hr, Except.bind] at h1
      cases hs : louSolve r with
      | error e => rw [hs] at h1; cases h1
      | ok d =>
        rw [hs] at h1
        simp only [Except.map, Except.ok.injEq] at h1
        have hconv : louVmapConverged eT accOld false r 0 k = true := by
          simp only [louVmapConverged, Bool.false_eq_true, if_false, decide_eq_true_eq]
          exact ⟨hc, suTol_pos, hl k (List.mem_cons_self ..)⟩
        rw [hconv, louVmapAdvance, if_pos rfl] at h1
        exact h1.symm
    subst this
    exact ih (fun k hk => hl k (List.mem_cons_of_mem _ hk)) h2

/-- Convergence of the masked loop is convergence of the loop of the standard model. -/
theorem louVmap_loop {m : LouParams} {fixed : Bool} (hf : fixed = true → FixedYield m) {eT : T2 3}
    {accOld : ℝ} (hacc : 0 ≤ accOld) (n : ℕ) : ∀ (k : ℕ) (x : LouPoint) (dn : ℝ) (c : Bool)
    (y : LouPoint × ℝ) (fuel : ℕ), n ≤ fuel →
    (List.range' k (n + 1)).foldlM (louVmapConeStep m fixed eT accOld false) (some (x, dn), c) =
      .ok (some y, true) → louConeLoop m eT accOld fuel k x dn = .ok (some y.1) := by
  induction n with
  | zero =>
    intro k x dn c y fuel _ h
    simp only [List.range'_succ, List.range'_zero, List.foldlM_cons, List.foldlM_nil] at h
    obtain ⟨s1, h1, h2⟩ := bind_ok h
    cases h2
    unfold louVmapConeStep at h1
    unfold louConeLoop
    rw [← louVmapEval_eq hf]
    simp only at h1
    cases hr : louVmapEval m fixed eT accOld x with
    | error e => rw [hr] at h1; cases h1
    | ok r =>
      rw [hr] at h1
      cases r with
      | none => simp [Except.bind] at h1
      | some r =>
        simp only [Except.bind] at h1 ⊢
        cases hs : louSolve r with
        | error e => rw [hs] at h1; cases h1
        | ok d =>
          rw [hs] at h1
          simp only [Except.map, Except.ok.injEq, louVmapAdvance, louVmapConverged,
            Bool.false_eq_true, if_false] at h1
          by_cases hc : r.convNorm eT accOld < suTol ∧ dn < suTol ∧ k > 0
          · rw [if_pos hc]
            simp only [hc, and_self, decide_true, if_true, Prod.mk.injEq, Option.some.injEq] at h1
            rw [← h1.1]
          · simp only [hc, decide_false, Bool.false_eq_true, if_false, Prod.mk.injEq, and_false] at h1
  | succ n ih =>
    intro k x dn c y fuel hn h
    rw [List.range'_succ, List.foldlM_cons] at h
    obtain ⟨s1, h1, h2⟩ := bind_ok h
    have hpos : ∀ j ∈ List.range' (k + 1) (n + 1), 0 < j := by
      intro j hj
      have := (List.mem_range'_1.mp hj).1
      omega
    unfold louVmapConeStep at h1
    unfold louConeLoop
    rw [← louVmapEval_eq hf]
    simp only at h1
    cases hr : louVmapEval m fixed eT accOld x with
    | error e => rw [hr] at h1; cases h1
    | ok r =>
      rw [hr] at h1
      cases r with
      | none =>
        simp only [Except.bind, Bool.false_eq_true, if_false, Except.ok.injEq] at h1
        subst h1
        obtain ⟨c', hc'⟩ := louVmap_none (m := m) (fixed := fixed) (eT := eT) (accOld := accOld)
          (c := false) (List.range' (k + 1) (n + 1))
        rw [hc'] at h2
        cases h2
      | some r =>
        simp only [Except.bind] at h1 ⊢
        cases hs : louSolve r with
        | error e => rw [hs] at h1; cases h1
        | ok d =>
          rw [hs] at h1
          simp only [Except.map, Except.ok.injEq, louVmapAdvance, louVmapConverged,
            Bool.false_eq_true, if_false] at h1
          by_cases hc : r.convNorm eT accOld < suTol ∧ dn < suTol ∧ k > 0
          · rw [if_pos hc]
            simp only [hc, and_self, decide_true, if_true] at h1
            subst h1
            have := louVmap_stay hr hc.1 _ hpos (c := true) h2
            rw [Prod.mk.injEq, Option.some_inj] at this
            rw [this.1]
          · rw [if_neg hc]
            simp only [hc, decide_false, Bool.false_eq_true, if_false] at h1
            subst h1
            obtain ⟨fuel, rfl⟩ : ∃ f, fuel = f + 1 := ⟨fuel - 1, by omega⟩
            simp only
            cases d with
            | none =>
              obtain ⟨c', hc'⟩ := louVmap_none (m := m) (fixed := fixed) (eT := eT) (accOld := accOld)
                (c := false) (List.range' (k + 1) (n + 1))
              rw [Option.map_none, hc'] at h2
              cases h2
            | some d =>
              simp only [Option.map_some] at h2
              rw [louVmapStepNorm_eq _ hacc] at h2
              exact ih (k + 1) _ _ _ y fuel (by omega) h2

/-- The return to the surface of the batched model, if it converges. -/
theorem louVmapCone_ok {m : LouParams} {fixed : Bool} (hf : fixed = true → FixedYield m) {eT : T2 3}
    {accOld : ℝ} (hacc : 0 ≤ accOld) {r : LouReturn}
    (h : louVmapCone m fixed eT accOld false = .ok (some r)) : louCone m eT accOld = .ok (some r) := by
  unfold louVmapCone at h
  cases hs : (List.range (louVmapMaxIter + 1)).foldlM (louVmapConeStep m fixed eT accOld false)
      (some (⟨eT, accOld, 0⟩, 0), false) with
  | error e => rw [hs] at h; cases h
  | ok s =>
    rw [hs] at h
    obtain ⟨s1, s2⟩ := s
    simp only [Except.map, Except.ok.injEq] at h
    cases s2 with
    | false => simp at h
    | true =>
      simp only [if_true, Option.map_eq_some_iff] at h
      obtain ⟨y, rfl, rfl⟩ := h
      rw [List.range_eq_range'] at hs
      have := louVmap_loop hf hacc louVmapMaxIter 0 _ _ _ y suMaxIter (by decide) hs
      unfold louCone
      rw [this]
      rfl

theorem louVmapApexStepNorm_eq {accOld : ℝ} (h : 0 ≤ accOld) (d : ℝ) :
    louVmapApexStepNorm accOld d = louApexStepNorm accOld d := by
  unfold louVmapApexStepNorm louApexStepNorm
  rw [abs_of_nonneg h]

theorem louVmapApex_none {f : ℝ → Option NewtonEval} {accOld : ℝ} (c : Bool) (l : List ℕ) :
    (l.foldl (louVmapApexStep f accOld) (none, c)).1 = none := by
  induction l generalizing c with
  | nil => rfl
  | cons k l ih => exact ih _

theorem louVmapApex_stay {f : ℝ → Option NewtonEval} {accOld x : ℝ} {e : NewtonEval} (he : f x = some e)
    (hc : louApexNorm e < suTol) (l : List ℕ) (hl : ∀ k ∈ l, 0 < k) :
    l.foldl (louVmapApexStep f accOld) (some (x, 0), true) = (some (x, 0), true) := by
  induction l with
  | nil => rfl
  | cons k l ih =>
    rw [List.foldl_cons]
    have : louVmapApexStep f accOld (some (x, 0), true) k = (some (x, 0), true) := by
      unfold louVmapApexStep
      simp only [he]
      rw [decide_eq_true ⟨hc, suTol_pos, hl k (List.mem_cons_self ..)⟩, louVmapApexAdvance, if_pos rfl]
    rw [this]
    exact ih fun k hk => hl k (List.mem_cons_of_mem _ hk)

/-- Convergence of the masked loop of the return to the apex is convergence of the loop of the
standard model. -/
theorem louVmapApex_loop {f : ℝ → Option NewtonEval} {accOld : ℝ} (hacc : 0 ≤ accOld) (n : ℕ) :
    ∀ (k : ℕ) (x dn : ℝ) (c : Bool) (y : ℝ × ℝ) (fuel : ℕ), n ≤ fuel →
    (List.range' k (n + 1)).foldl (louVmapApexStep f accOld) (some (x, dn), c) = (some y, true) →
      louApexLoop f accOld fuel k x dn = some y.1 := by
  induction n with
  | zero =>
    intro k x dn c y fuel _ h
    simp only [List.range'_succ, List.range'_zero, List.foldl_cons, List.foldl_nil] at h
    unfold louVmapApexStep at h
    unfold louApexLoop
    simp only at h
    cases he : f x with
    | none => rw [he] at h; simp at h
    | some e =>
      rw [he] at h
      simp only [louVmapApexAdvance] at h ⊢
      by_cases hc : louApexNorm e < suTol ∧ dn < suTol ∧ k > 0
      · rw [if_pos hc]
        simp only [hc, and_self, decide_true, if_true, Prod.mk.injEq, Option.some.injEq] at h
        rw [← h.1]
      · simp only [hc, decide_false, Bool.false_eq_true, if_false] at h
        split_ifs at h <;> simp at h
  | succ n ih =>
    intro k x dn c y fuel hn h
    rw [List.range'_succ, List.foldl_cons] at h
    have hpos : ∀ j ∈ List.range' (k + 1) (n + 1), 0 < j := by
      intro j hj
      have := (List.mem_range'_1.mp hj).1
      omega
    have hnone : ∀ c : Bool, (List.range' (k + 1) (n + 1)).foldl (louVmapApexStep f accOld)
        ((none : Option (ℝ × ℝ)), c) ≠ (some y, true) := by
      intro c hh
      have := louVmapApex_none (f := f) (accOld := accOld) c (List.range' (k + 1) (n + 1))
      rw [hh] at this
      cases this
    unfold louApexLoop
    cases he : f x with
    | none =>
      have hs : louVmapApexStep f accOld (some (x, dn), c) k = (none, false) := by
        unfold louVmapApexStep; simp [he]
      rw [hs] at h
      exact absurd h (hnone _)
    | some e =>
      by_cases hc : louApexNorm e < suTol ∧ dn < suTol ∧ k > 0
      · have hs : louVmapApexStep f accOld (some (x, dn), c) k = (some (x, 0), true) := by
          unfold louVmapApexStep; simp [he, hc, louVmapApexAdvance]
        rw [hs, louVmapApex_stay he hc.1 _ hpos] at h
        simp only [Prod.mk.injEq, Option.some.injEq, and_true] at h
        simp only
        rw [if_pos hc, ← h]
      · obtain ⟨fuel, rfl⟩ : ∃ f, fuel = f + 1 := ⟨fuel - 1, by omega⟩
        simp only
        rw [if_neg hc]
        by_cases hj : e.jacobian = 0
        · have hs : louVmapApexStep f accOld (some (x, dn), c) k = (none, false) := by
            unfold louVmapApexStep; simp [he, hc, louVmapApexAdvance, hj]
          rw [hs] at h
          exact absurd h (hnone _)
        · have hs : louVmapApexStep f accOld (some (x, dn), c) k =
              (some (x + -e.residual / e.jacobian,
                louVmapApexStepNorm accOld (-e.residual / e.jacobian)), false) := by
            unfold louVmapApexStep; simp [he, hc, louVmapApexAdvance, hj]
          rw [hs, louVmapApexStepNorm_eq hacc] at h
          rw [if_neg hj]
          exact ih (k + 1) _ _ _ y fuel (by omega) h

theorem louVmapApexEval_eq {m : LouParams} (hb : ∀ x, 1e-6 ≤ (m.b x).1) (alpha pT accOld : ℝ) :
    louVmapApexEval m alpha pT accOld = louApexEval m alpha pT accOld := by
  funext x
  unfold louVmapApexEval louApexEval
  have h := hb (accOld + alpha * x)
  have h0 : 0 < (m.b (accOld + alpha * x)).1 := lt_of_lt_of_le (by norm_num) h
  simp only
  rw [abs_of_pos h0, max_eq_left h]
  have : (3 * (m.a (accOld + alpha * x)).1 * (m.b (accOld + alpha * x)).1 = 0) ↔
      (m.a (accOld + alpha * x)).1 = 0 := by simp [h0.ne']
  simp only [this]

/-- The state which the return to the apex builds satisfies Hooke's law. -/
theorem louVmap_hydro {m : LouParams} (hA : Admissible m.E m.v) (P acc : ℝ) :
    (⟨fun k => 1 / (3 * m.K) * P * kel6 (getIdOperators 3).soid k,
      fun k => P * kel6 (getIdOperators 3).soid k, acc, true⟩ : LouReturn) =
      louPlasticResult m (fun i j => 1 / (3 * m.K) * P * (getIdOperators 3).soid i j) acc := by
  have hK : 0 < bulk m.E m.v := hA.bulk_pos
  have hKm : m.K = bulk m.E m.v := rfl
  have hl := hA.lame_bulk
  have hone : kel6 (fun i j => 1 / (3 * m.K) * P * (getIdOperators 3).soid i j) = fun k =>
      1 / (3 * m.K) * P * kel6 (getIdOperators 3).soid k := by
    funext k
    simp only [kel6]
    ring
  have hso : kel6 (getIdOperators 3).soid = one6 := by
    funext k
    rw [one6_kel6]
    simp only [kel6, (C09_actions 3 0).1]
  have hst : mv6 (kel66 m.tangent) (fun k => 1 / (3 * m.K) * P * one6 k) = fun k => P * one6 k := by
    have : mv6 (kel66 m.tangent) (fun k => 1 / (3 * m.K) * P * one6 k) =
      hooke6 (lame m.E m.v) (shear m.E m.v) (fun k => 1 / (3 * m.K) * P * one6 k) := mv6_iso _ _ _
    rw [this]
    funext k
    have htr : tr6 (fun k => 1 / (3 * m.K) * P * one6 k) = 1 / m.K * P := by
      rw [hKm]
      simp [tr6, one6]
      field_simp
      ring
    rw [hooke6, htr, hKm]
    have hne := hK.ne'
    field_simp
    linear_combination P * one6 k * hl
  unfold louPlasticResult
  rw [hone, hso, hst]

theorem louVmapApex_ok {m : LouParams} (hA : Admissible m.E m.v) (hm : ApexBounds m) {pT accOld : ℝ}
    (hacc : 0 ≤ accOld) {r : LouReturn} (h : louVmapApex m pT accOld = some r) :
    louApex m pT accOld = some r := by
  have h0 : (0 : ℝ) < 3 * (m.a 0).1 * (m.b 0).1 := lt_of_lt_of_le (by norm_num) hm.1
  have hal : louVmapAlpha (m.a 0).1 (m.b 0).1 = louAlpha (m.a 0).1 (m.b 0).1 := by
    unfold louVmapAlpha louAlpha
    simp only [h0.ne', or_false]
    rw [abs_of_pos h0, max_eq_left hm.1]
  unfold louVmapApex at h
  rw [hal] at h
  unfold louApex
  cases ha : louAlpha (m.a 0).1 (m.b 0).1 with
  | none => rw [ha] at h; cases h
  | some alpha =>
    rw [ha] at h
    simp only [Option.bind_some] at h ⊢
    rw [louVmapApexEval_eq hm.2] at h
    cases hs : (List.range (louVmapMaxIter + 1)).foldl
        (louVmapApexStep (louApexEval m alpha pT accOld) accOld) (some (0, 0), false) with
    | mk s1 s2 =>
      rw [hs] at h
      cases s2 with
      | false => simp at h
      | true =>
        simp only [if_true, Option.map_eq_some_iff] at h
        obtain ⟨y, rfl, rfl⟩ := h
        rw [List.range_eq_range'] at hs
        rw [louVmapApex_loop hacc louVmapMaxIter 0 _ _ _ y suMaxIter (by decide) hs]
        simp only [Option.map_some, Option.some.injEq]
        exact (louVmap_hydro hA (pT - m.K * y.1) _).symm

/-- Outcome of the batched update by cases. -/
theorem louVmapReturn_cases {p : PType} (m : LouParams) (o : LouOptions) (old : VMState p)
    (inc : T2 p.dim) (A : Bool)
    (hA : A = true ↔ (LouTrialElastic m old inc ∨ o.isApexHandling = true ∧ LouNearApex m old inc)) :
    (open Classical in louVmapReturn m o (trial3D old inc) old.acc =
      (louVmapCone m o.isFixedYield (unkel6 (trial3D old inc)) old.acc A).map fun cone =>
        if LouTrialElastic m old inc then
          some ⟨trial3D old inc, louTrial m old inc, old.acc, false⟩
        else if o.isApexHandling = true ∧ LouNearApex m old inc then
          louVmapApex m (tr6 (louTrial m old inc) / 3) old.acc
        else cone) := by
  have h1 : mv6 (kel66 m.tangent) (trial3D old inc) = louTrial m old inc := mv6_iso _ _ _
  have h2 : ∑ i, unkel6 (louTrial m old inc) i i = tr6 (louTrial m old inc) := by
    have := tr6_kel6 (unkel6 (louTrial m old inc))
    rw [kel6_unkel6] at this
    exact this.symm
  have he := louElastic_iff m old inc
  have ha := louApexReturn_iff m old inc
  unfold louVmapReturn
  dsimp only
  rw [h1] at he ha ⊢
  rw [h2] at ha ⊢
  have h3 : 1 / 3 * tr6 (louTrial m old inc) = tr6 (louTrial m old inc) / 3 := by ring
  rw [h3] at ha ⊢
  obtain ⟨oA, oF⟩ := o
  simp only at hA ⊢
  have hAe : (decide (louElastic (louEffective (unkel6 (louTrial m old inc)) (m.a old.acc).1
      (m.b old.acc).1 (m.c old.acc).1 (m.d old.acc).1) (m.y old.acc).1) ||
      if oA = true then decide (louApexReturn (tr6 (louTrial m old inc) / 3) (m.a old.acc).1
        (m.b old.acc).1 (m.y old.acc).1) else false) = A := by
    rw [Bool.eq_iff_iff, hA, Bool.or_eq_true, decide_eq_true_iff, he]
    cases oA <;> simp [ha]
  rw [hAe]
  congr 1
  funext cone
  by_cases hc : LouTrialElastic m old inc
  · simp [he, hc]
  · by_cases hn : LouNearApex m old inc
    · cases oA <;> simp [he, ha, hc, hn]
    · cases oA <;> simp [he, ha, hc, hn]

/-- C93: a successful step of the batched model returns the state of the standard model, if the step
is elastic, outside the apex region, or in the apex region with the apex return enabled and the
parameters within the bounds of the batched model. -/
theorem C93_refines {p : PType} {m : LouParams} {o : LouOptions} (hA : Admissible m.E m.v)
    {inc : T2 p.dim} {old new : VMState p} (hacc : 0 ≤ old.acc)
    (hf : o.isFixedYield = true → FixedYield m)
    (hn : LouNearApex m old inc → LouTrialElastic m old inc ∨
      (o.isApexHandling = true ∧ ApexBounds m))
    (h : louVmapUpdate p m o inc old = .ok (.good new)) : louUpdate p m inc old = .ok (.good new) := by
  classical
  have htr : to3D p old.eStrain old.e33 + to3D p (mf p inc) 0 = trial3D old inc := rfl
  unfold louVmapUpdate at h
  unfold louUpdate
  simp only [htr] at h ⊢
  obtain ⟨r, hr, hst⟩ : ∃ r, louVmapReturn m o (trial3D old inc) old.acc = .ok (some r) ∧
      louState p (trial3D old inc) (old.strain - old.eStrain) (some r) = .good new := by
    cases hr : louVmapReturn m o (trial3D old inc) old.acc with
    | error e => rw [hr] at h; cases h
    | ok r =>
      rw [hr] at h
      cases r with
      | none => simp [Except.map, louState] at h
      | some r => exact ⟨r, rfl, Except.ok.inj h⟩
  suffices H : louReturn m (trial3D old inc) old.acc = .ok (some r) by
    rw [H]
    exact congrArg Except.ok hst
  rw [louVmapReturn_cases m o old inc _ (decide_eq_true_iff)] at hr
  rw [louReturn_cases]
  cases hc : louVmapCone m o.isFixedYield (unkel6 (trial3D old inc)) old.acc
      (decide (LouTrialElastic m old inc ∨ o.isApexHandling = true ∧ LouNearApex m old inc)) with
  | error e => rw [hc] at hr; cases hr
  | ok cone =>
    rw [hc] at hr
    simp only [Except.map, Except.ok.injEq] at hr
    by_cases hel : LouTrialElastic m old inc
    · rw [if_pos hel] at hr ⊢
      rw [hr]
    · rw [if_neg hel] at hr ⊢
      by_cases hna : LouNearApex m old inc
      · obtain ⟨ho, hb⟩ := (hn hna).resolve_left hel
        rw [if_pos ⟨ho, hna⟩] at hr
        rw [if_pos hna, louVmapApex_ok hA hb hacc hr]
      · rw [if_neg fun q => hna q.2] at hr
        rw [if_neg hna]
        subst hr
        rw [decide_eq_false (by tauto)] at hc
        exact louVmapCone_ok hf hacc hc

theorem louVmapUpdate_3D {p : PType} {m : LouParams} {o : LouOptions} (hA : Admissible m.E m.v)
    {inc : T2 p.dim} {old new : VMState p} (hacc : 0 ≤ old.acc)
    (hf : o.isFixedYield = true → FixedYield m)
    (h : louVmapUpdate p m o inc old = .ok (.good new)) :
    ∃ r, louVmapReturn m o (trial3D old inc) old.acc = .ok (some r) ∧ elastic3D new = r.eStrain ∧
      stress3D new = r.stress ∧ new.acc = r.acc ∧ new.isPlast = r.isPlast ∧
      r.stress = hooke6 (lame m.E m.v) (shear m.E m.v) r.eStrain ∧
      new.strain = old.strain + mf p inc ∧ new.isSuFail = false := by
  classical
  have htr : to3D p old.eStrain old.e33 + to3D p (mf p inc) 0 = trial3D old inc := rfl
  unfold louVmapUpdate at h
  simp only [htr] at h
  cases hr : louVmapReturn m o (trial3D old inc) old.acc with
  | error e => rw [hr] at h; cases h
  | ok r =>
    rw [hr] at h
    cases r with
    | none => simp [Except.map, louState] at h
    | some r =>
      simp only [Except.map, louState, Except.ok.injEq, VMVars.good.injEq] at h
      have hpl : Planar p r.eStrain ∧
          r.stress = hooke6 (lame m.E m.v) (shear m.E m.v) r.eStrain := by
        rw [louVmapReturn_cases m o old inc _ (decide_eq_true_iff)] at hr
        cases hc : louVmapCone m o.isFixedYield (unkel6 (trial3D old inc)) old.acc
            (decide (LouTrialElastic m old inc ∨ o.isApexHandling = true ∧ LouNearApex m old inc)) with
        | error e => rw [hc] at hr; cases hr
        | ok cone =>
          rw [hc] at hr
          simp only [Except.map, Except.ok.injEq] at hr
          split_ifs at hr with hel hn
          · obtain rfl := Option.some.inj hr
            exact ⟨planar_trial old inc, rfl⟩
          · unfold louVmapApex at hr
            simp only [Option.bind_eq_some_iff] at hr
            obtain ⟨alpha, -, hr⟩ := hr
            split_ifs at hr with hs
            simp only [Option.map_eq_some_iff] at hr
            obtain ⟨y, -, rfl⟩ := hr
            rw [louVmap_hydro hA]
            exact ⟨planar_kel6 (louShape_soid p _), louPlasticResult_stress _ _ _⟩
          · subst hr
            rw [decide_eq_false (by rintro (q | q); exacts [hel q, hn q])] at hc
            obtain ⟨x, q, hx, -, -, rfl⟩ := louCone_some (louShape_unkel6 (planar_trial old inc))
              (louVmapCone_ok hf hacc hc)
            exact ⟨planar_kel6 hx, louPlasticResult_stress _ _ _⟩
      subst h
      refine ⟨r, rfl, ?_, ?_, rfl, rfl, hpl.2, ?_, rfl⟩
      · exact to3D_to2D hpl.1
      · refine to3D_to2D ?_
        rw [hpl.2]
        exact planar_hooke6 _ _ hpl.1
      · show to2D p (trial3D old inc) + (old.strain - old.eStrain) = _
        rw [← htr, to2D_add, to2D_to3D, to2D_to3D]
        abel

/-- C93: in every successful step the total strain grows by the increment and the stress is Hooke's
law of the elastic strain. -/
theorem C93_step {p : PType} {m : LouParams} {o : LouOptions} (hA : Admissible m.E m.v)
    {inc : T2 p.dim} {old new : VMState p} (hacc : 0 ≤ old.acc)
    (hf : o.isFixedYield = true → FixedYield m)
    (h : louVmapUpdate p m o inc old = .ok (.good new)) :
    new.strain = old.strain + mf p inc ∧ new.isSuFail = false ∧
      stress3D new = hooke6 (lame m.E m.v) (shear m.E m.v) (elastic3D new) := by
  obtain ⟨r, -, h1, h2, -, -, h5, h6, h7⟩ := louVmapUpdate_3D hA hacc hf h
  exact ⟨h6, h7, by rw [h1, h2, h5]⟩

/-- C93: a plastic step which is not returned to the apex (in the apex region: with the apex return
disabled) returns to the yield surface along its gradient, with the hardening rule. -/
theorem C93_surface {p : PType} {m : LouParams} {o : LouOptions} (hA : Admissible m.E m.v)
    {inc : T2 p.dim} {old new : VMState p} (hacc : 0 ≤ old.acc)
    (hf : o.isFixedYield = true → FixedYield m)
    (hn : o.isApexHandling = true → ¬ LouNearApex m old inc)
    (h : louVmapUpdate p m o inc old = .ok (.good new)) (hp : new.isPlast = true) :
    ∃ g N, LouSurfaceReturn m old new inc g N := by
  classical
  obtain ⟨r, hr, h1, h2, h3, h4, -, h6, -⟩ := louVmapUpdate_3D hA hacc hf h
  rw [louVmapReturn_cases m o old inc _ (decide_eq_true_iff)] at hr
  cases hc : louVmapCone m o.isFixedYield (unkel6 (trial3D old inc)) old.acc
      (decide (LouTrialElastic m old inc ∨ o.isApexHandling = true ∧ LouNearApex m old inc)) with
  | error e => rw [hc] at hr; cases hr
  | ok cone =>
    rw [hc] at hr
    simp only [Except.map, Except.ok.injEq] at hr
    rw [if_neg fun q : _ ∧ _ => hn q.1 q.2] at hr
    by_cases hel : LouTrialElastic m old inc
    · rw [if_pos hel] at hr
      obtain rfl := Option.some.inj hr
      rw [hp] at h4
      cases h4
    · rw [if_neg hel] at hr
      rw [decide_eq_false (by rintro (q | q); exacts [hel q, hn q.1 q.2])] at hc
      subst hr
      exact lou_surface (louVmapCone_ok hf hacc hc) h6 h1 h2 h3

/-- C93: the batched update raises `RuntimeError` whenever the third invariant of the deviator of the
trial stress is zero, whether or not the step is elastic. -/
theorem C93_singular_raises {p : PType} {m : LouParams} {o : LouOptions} {inc : T2 p.dim}
    {old : VMState p} (h3 : devJ3 (unkel6 (louTrial m old inc)) = 0) :
    louVmapUpdate p m o inc old = .error .runtimeError := by
  classical
  have htr : to3D p old.eStrain old.e33 + to3D p (mf p inc) 0 = trial3D old inc := rfl
  unfold louVmapUpdate
  simp only [htr]
  rw [louVmapReturn_cases m o old inc _ (decide_eq_true_iff)]
  have hx : IsSym (⟨unkel6 (trial3D old inc), old.acc, 0⟩ : LouPoint).e := unkel6_isSym _
  have hS : devJ3 (louS m (louVec ⟨unkel6 (trial3D old inc), old.acc, 0⟩)) = 0 := by
    rw [louS_louVec m hx]
    have : hooke (lamOf m.E m.v) (miuOf m.E m.v) (unkel6 (trial3D old inc)) =
        unkel6 (louTrial m old inc) := by
      have e := hooke6_kel6 (lame m.E m.v) (shear m.E m.v) (unkel6 (trial3D old inc))
      rw [kel6_unkel6] at e
      rw [louTrial, e, unkel6_kel6 (hooke_isSym _ _ (unkel6_isSym _))]
      rfl
    rw [this, h3]
  have hctx := louCtx_error m hS
  rw [louPoint_louVec hx] at hctx
  have hev : louVmapEval m o.isFixedYield (unkel6 (trial3D old inc)) old.acc
      ⟨unkel6 (trial3D old inc), old.acc, 0⟩ = .error .runtimeError := by
    rw [louVmapEval, hctx]; rfl
  have hcone : ∀ A, louVmapCone m o.isFixedYield (unkel6 (trial3D old inc)) old.acc A =
      .error .runtimeError := by
    intro A
    unfold louVmapCone
    rw [List.range_eq_range', List.range'_succ, List.foldlM_cons]
    have : louVmapConeStep m o.isFixedYield (unkel6 (trial3D old inc)) old.acc A
        (some (⟨unkel6 (trial3D old inc), old.acc, 0⟩, 0), false) 0 = .error .runtimeError := by
      unfold louVmapConeStep
      simp only [hev]
      rfl
    rw [this]
    rfl
  rw [hcone]
  rfl

/-- The batched model has no result for elastic states which the standard model returns: a strain
increment of zero, or of pure shear however small, raises `RuntimeError` in the initial state for
every material, because the return to the surface is computed also for elastic samples and inverts
the deviator of the stress. -/
theorem C93_elastic_violated (p : PType) (m : LouParams) (o : LouOptions) {g : ℝ}
    (hy : 0 < (m.y 0).1) (ha : 0 ≤ (m.a 0).1)
    (hg : (m.a 0).1 * |2 * shear m.E m.v * g| ≤ (m.y 0).1) :
    louVmapUpdate p m o (pureShear p g) (vmInit p) = .error .runtimeError ∧
      ∃ new, louUpdate p m (pureShear p g) (vmInit p) = .ok (.good new) ∧ new.isPlast = false := by
  have hu := pureShear_trial p m g
  obtain ⟨h1, h2, h3⟩ := pureShear_inv _ _ hu
  refine ⟨C93_singular_raises h3, C90_elastic_success ?_⟩
  have hacc : (vmInit p).acc = 0 := rfl
  have hz : lzyAt m (vmInit p).acc (louTrial m (vmInit p) (pureShear p g)) =
      (m.a 0).1 * |2 * shear m.E m.v * g| := by
    rw [lzyAt, lzyStress, h1, h2, h3, hacc]
    have hs := cbrt_sqrt_cube (x := (2 * shear m.E m.v * g) ^ 2) (sq_nonneg _)
    rw [Real.sqrt_sq_eq_abs] at hs
    have e2 : ((2 * shear m.E m.v * g) ^ 2) ^ 3 - (m.c 0).1 * 0 ^ 2 =
      ((2 * shear m.E m.v * g) ^ 2) ^ 3 := by ring
    rw [e2, mul_zero, mul_zero, sub_zero, hs, zero_add]
  constructor
  · unfold LzyDefinedAt LzyDefined
    rw [h2, h3]
    have : 0 ≤ ((2 * shear m.E m.v * g) ^ 2) ^ 3 := by positivity
    constructor
    · simpa using this
    · simp only [mul_zero, sub_zero]; positivity
  · left
    rw [hz, hacc]
    refine ⟨hy.ne', ?_⟩
    have : ((m.a 0).1 * |2 * shear m.E m.v * g| - (m.y 0).1) / (m.y 0).1 ≤ 0 :=
      div_nonpos_of_nonpos_of_nonneg (by linarith) hy.le
    linarith [show (0 : ℝ) < 1e-6 by norm_num]

/-- the zero increment of the initial state, for the material of the examples of C90 -/
example : louVmapUpdate .plane louDemo ⟨true, false⟩ (pureShear .plane 0) (vmInit .plane) =
    .error .runtimeError := by
  refine (C93_elastic_violated .plane louDemo _ (by simp [louDemo]) (by simp [louDemo]) ?_).1
  simp [louDemo]

/-! ### Samples for which the return mapping is not used, and the von Mises limit -/

/-- A sample for which the return mapping is not used keeps its unknowns. -/
theorem louVmap_avoid {m : LouParams} {fixed : Bool} {eT : T2 3} {accOld : ℝ} {x : LouPoint}
    {r : LouEval} {d : Option (LouIx → ℝ)} (hr : louVmapEval m fixed eT accOld x = .ok (some r))
    (hs : louSolve r = .ok d) (k : ℕ) (l : List ℕ) (dn : ℝ) (c : Bool) :
    (k :: l).foldlM (louVmapConeStep m fixed eT accOld true) (some (x, dn), c) =
      .ok (some (x, 0), true) := by
  have hstep : ∀ dn c k, louVmapConeStep m fixed eT accOld true (some (x, dn), c) k =
      .ok (some (x, 0), true) := by
    intro dn c k
    unfold louVmapConeStep
    simp only [hr, Except.bind, hs, Except.map, louVmapConverged, if_true, louVmapAdvance]
  induction l generalizing dn c k with
  | nil =>
    rw [List.foldlM_cons, hstep]
    rfl
  | cons j l ih =>
    rw [List.foldlM_cons, hstep]
    exact ih j 0 true

/-- At a solution the masked loop stays. -/
theorem louVmap_at_root {m : LouParams} {fixed : Bool} {eT : T2 3} {acc0 : ℝ} {x : LouPoint}
    {J : Matrix LouIx LouIx ℝ} (he : louVmapEval m fixed eT acc0 x = .ok (some ⟨0, 0, 0, some J⟩))
    (hd : J.det ≠ 0) {k k' : ℕ} (hk : 0 < k) (l : List ℕ) (hl : ∀ j ∈ l, 0 < j) (hk' : 0 < k')
    (dn : ℝ) (c : Bool) :
    (k :: k' :: l).foldlM (louVmapConeStep m fixed eT acc0 false) (some (x, dn), c) =
      .ok (some (x, 0), true) := by
  have hc : (⟨0, 0, 0, some J⟩ : LouEval).convNorm eT acc0 < suTol := by
    have : (⟨0, 0, 0, some J⟩ : LouEval).convNorm eT acc0 = 0 := by
      simp [LouEval.convNorm, normT2]
    rw [this]
    exact suTol_pos
  have hres : (⟨0, 0, 0, some J⟩ : LouEval).residual = 0 := by
    funext k
    rcases k with k | k
    · simp [LouEval.residual, kel6_zero_T2]
    · fin_cases k <;> simp [LouEval.residual]
  have hsol : louSolve ⟨0, 0, 0, some J⟩ = .ok (some 0) :=
    louSolve_of rfl hd (by rw [hres]; simp)
  have hadd : x.add 0 = x := by
    obtain ⟨e, a, i⟩ := x
    simp only [LouPoint.add, Pi.zero_apply, add_zero]
    congr 1
    funext i j
    have := congrFun (congrFun unkel6_zero_V6 i) j
    show e i j + unkel6 (0 : V6) i j = _
    rw [this]
    simp
  have hsn : louVmapStepNorm eT acc0 0 = 0 := by
    simp [louVmapStepNorm]
  have hconv : ∀ (c : Bool) (k : ℕ) (dn : ℝ), 0 < k → dn < suTol →
      louVmapConeStep m fixed eT acc0 false (some (x, dn), c) k = .ok (some (x, 0), true) := by
    intro c k dn hk hdn
    unfold louVmapConeStep
    simp only [he, Except.bind, hsol, Except.map, louVmapConverged, Bool.false_eq_true, if_false]
    rw [decide_eq_true ⟨hc, hdn, hk⟩, louVmapAdvance, if_pos rfl]
  have hnot : ∀ (c : Bool) (k : ℕ) (dn : ℝ), ¬ dn < suTol →
      louVmapConeStep m fixed eT acc0 false (some (x, dn), c) k = .ok (some (x, 0), false) := by
    intro c k dn hdn
    unfold louVmapConeStep
    simp only [he, Except.bind, hsol, Except.map, louVmapConverged, Bool.false_eq_true, if_false]
    rw [decide_eq_false (fun h => hdn h.2.1), louVmapAdvance, if_neg (by simp)]
    simp only [Option.map_some, hadd, hsn]
  have hstay : ∀ (l : List ℕ), (∀ j ∈ l, 0 < j) → ∀ c,
      (k' :: l).foldlM (louVmapConeStep m fixed eT acc0 false) (some (x, 0), c) =
        .ok (some (x, 0), true) := by
    intro l hl c
    rw [List.foldlM_cons, hconv _ _ _ hk' suTol_pos]
    show l.foldlM _ _ = _
    induction l with
    | nil => rfl
    | cons j l ih =>
      rw [List.foldlM_cons, hconv _ _ _ (hl j (List.mem_cons_self ..)) suTol_pos]
      exact ih fun i hi => hl i (List.mem_cons_of_mem _ hi)
  rw [List.foldlM_cons]
  by_cases hdn : dn < suTol
  · rw [hconv _ _ _ hk hdn]
    exact hstay l hl true
  · rw [hnot _ _ _ hdn]
    exact hstay l hl false

theorem louVmap_avoid' {m : LouParams} {fixed : Bool} {eT : T2 3} {accOld : ℝ} {x : LouPoint}
    {r : LouEval} {J : Matrix LouIx LouIx ℝ} (hr : louVmapEval m fixed eT accOld x = .ok (some r))
    (hj : r.jac = some J) (hd : J.det ≠ 0) (k : ℕ) (l : List ℕ) (dn : ℝ) (c : Bool) :
    (k :: l).foldlM (louVmapConeStep m fixed eT accOld true) (some (x, dn), c) =
      .ok (some (x, 0), true) := by
  refine louVmap_avoid (d := some (J⁻¹.mulVec (-r.residual))) hr ?_ k l dn c
  unfold louSolve
  rw [hj]
  simp only [if_neg hd]

theorem vmLimit_fixed (E v s0 h : ℝ) : FixedYield (vonMisesLimit E v s0 h) :=
  fun _ => ⟨rfl, rfl, rfl, rfl⟩

/-- C93: with von Mises parameters and linear hardening every step whose trial stress has a third
invariant different from zero and whose trial pressure is outside the apex region succeeds with
exactly the state of the von Mises model, for every choice of the options. -/
theorem C93_von_mises {p : PType} {E v s0 h : ℝ} (hA : Admissible E v) (hh : 0 ≤ h)
    (hs : 2e-8 ≤ s0) (o : LouOptions) {inc : T2 p.dim} {old : VMState p} (hacc : 0 ≤ old.acc)
    (h3 : devJ3 (unkel6 (louTrial (vonMisesLimit E v s0 h) old inc)) ≠ 0)
    (hn : ¬ LouNearApex (vonMisesLimit E v s0 h) old inc) :
    louVmapUpdate p (vonMisesLimit E v s0 h) o inc old =
      .ok (vmUpdate p E v (linearHardening s0 h) inc old).1 := by
  classical
  have hs0 : 0 < s0 := by linarith [show (0:ℝ) < 2e-8 by norm_num]
  have htr : to3D p old.eStrain old.e33 + to3D p (mf p inc) 0 = trial3D old inc := rfl
  rw [← C91_von_mises_limit hA hh hs hacc hn (Or.inr h3)]
  unfold louVmapUpdate louUpdate
  simp only [htr]
  congr 1
  rw [louVmapReturn_cases _ o old inc _ (decide_eq_true_iff), louReturn_cases, if_neg hn]
  set m := vonMisesLimit E v s0 h with hm
  set eT : T2 3 := unkel6 (trial3D old inc) with heT
  have hT : IsSym eT := unkel6_isSym _
  have hS : hooke (lame E v) (shear E v) eT = unkel6 (louTrial m old inc) := by
    have e := hooke6_kel6 (lame E v) (shear E v) eT
    rw [heT, kel6_unkel6] at e
    show _ = unkel6 (hooke6 (lame E v) (shear E v) (trial3D old inc))
    rw [e, unkel6_kel6 (hooke_isSym _ _ hT)]
  have h3' : devJ3 (hooke (lame E v) (shear E v) eT) ≠ 0 := by rw [hS]; exact h3
  have hf : o.isFixedYield = true → FixedYield m := fun _ => vmLimit_fixed E v s0 h
  by_cases hel : LouTrialElastic m old inc
  · have hz0 : devJ3 (louS m (louVec ⟨eT, old.acc, 0⟩)) ≠ 0 := by
      rw [louS_louVec m (x := ⟨eT, old.acc, 0⟩) hT]; exact h3'
    have hev := vmLimit_eval (h := h) hs0 eT old.acc (x := ⟨eT, old.acc, 0⟩) hT h3'
    rw [← louVmapEval_eq (fixed := o.isFixedYield) hf] at hev
    have hdet := vmLimit_regular (x := ⟨eT, old.acc, 0⟩) hA hs0 hh le_rfl hz0
    have hcone : ∃ r, louVmapCone m o.isFixedYield eT old.acc true = .ok r := by
      unfold louVmapCone
      rw [List.range_eq_range', List.range'_succ, louVmap_avoid' hev rfl hdet]
      exact ⟨_, rfl⟩
    obtain ⟨r, hcone⟩ := hcone
    rw [decide_eq_true (Or.inl hel), hcone, if_pos hel]
    simp only [Except.map]
    rw [if_pos hel]
  · rw [decide_eq_false (by rintro (q | q); exacts [hel q, hn q.2]), if_neg hel]
    have hy : s0 + h * old.acc < √3 * √(devJ2 (hooke (lame E v) (shear E v) eT)) := by
      have hel' : ¬ TrialElastic E v (linearHardening s0 h) old inc := fun q =>
        hel ((vmLimit_elastic hh hs0 hacc).mpr q)
      have hrelu : relu old.acc = old.acc := max_eq_left hacc
      have hlaw : (linearHardening s0 h old.acc).1 = s0 + h * old.acc := by
        simp [linearHardening, hrelu]
      have hpos := mul_nonneg hh hacc
      obtain ⟨-, hq⟩ := trial_dev_large (by rw [hlaw]; linarith) hel'
      rw [hlaw] at hq
      rw [hS, ← vm6_devJ2]
      show s0 + h * old.acc < vm6 (hooke6 (lame E v) (shear E v) (trial3D old inc))
      nlinarith
    obtain ⟨r, d, J, e0, e1, e2, e3, e4⟩ := vmLimit_first hA hs0 hh hT hacc h3' hy
    have hcone' := vmLimit_cone hA hs0 hh hT hacc h3' hy
    have hcone : louVmapCone m o.isFixedYield eT old.acc false = louCone m eT old.acc := by
      unfold louVmapCone louCone
      rw [hcone']
      rw [← louVmapEval_eq (fixed := o.isFixedYield) hf] at e0 e3
      rw [List.range_eq_range', List.range'_succ, List.foldlM_cons]
      have hstep : ∃ dn, louVmapConeStep m o.isFixedYield eT old.acc false
          (some (⟨eT, old.acc, 0⟩, 0), false) 0 =
          .ok (some (vmLimitRoot E v s0 h eT old.acc, dn), false) := by
        refine ⟨louVmapStepNorm eT old.acc d, ?_⟩
        unfold louVmapConeStep
        simp only [e0, Except.bind, e1, Except.map, louVmapConverged, Bool.false_eq_true, if_false]
        rw [decide_eq_false (fun h => absurd h.2.2 (lt_irrefl 0)), louVmapAdvance, if_neg (by simp)]
        simp only [Option.map_some, e2]
      obtain ⟨dn, hstep⟩ := hstep
      rw [hstep]
      have hroot := louVmap_at_root e3 e4 (k := 1) (k' := 2) one_pos (List.range' 3 8)
        (fun j hj => by have := (List.mem_range'_1.mp hj).1; omega) two_pos dn false
      show Except.map _ ((List.range' 1 10).foldlM _ _) = _
      rw [show List.range' 1 10 = 1 :: 2 :: List.range' 3 8 from rfl, hroot]
      rfl
    rw [hcone]
    cases louCone m eT old.acc with
    | error e => rfl
    | ok c =>
      simp only [Except.map]
      rw [if_neg hel, if_neg fun q : _ ∧ _ => hn q.2]

/-- hypotheses of C93 are met: the plastic step of the example of C91 succeeds for all options, and
the standard model returns the same state -/
example (o : LouOptions) : ∃ new, louVmapUpdate .solid (vonMisesLimit 1 0 1 1) o (uniInc 3)
      (vmInit .solid) = .ok (.good new) ∧ new.isPlast = true ∧ new.acc = 4 / 5 ∧
    louUpdate .solid (vonMisesLimit 1 0 1 1) (uniInc 3) (vmInit .solid) = .ok (.good new) := by
  have ht : unkel6 (louTrial (vonMisesLimit 1 0 1 1) (vmInit .solid) (uniInc 3)) = uniaxial 3 := by
    have h : louTrial (vonMisesLimit 1 0 1 1) (vmInit .solid) (uniInc 3) = ![3, 0, 0, 0, 0, 0] := by
      funext k
      fin_cases k <;>
        simp [louTrial, vonMisesLimit, hooke6, lame, shear, trial3D, elastic3D, increment3D, vmInit,
          to3D, mf, kel6, uniInc, one6, tr6, ci, cj, kf]
    rw [h]
    funext i j
    fin_cases i <;> fin_cases j <;> simp [unkel6, pos6, kf, uniaxial]
  have h3 : devJ3 (unkel6 (louTrial (vonMisesLimit 1 0 1 1) (vmInit .solid) (uniInc 3))) ≠ 0 := by
    rw [ht]
    simp [devJ3, deviator, trace, uniaxial, Matrix.det_fin_three, Fin.sum_univ_three]
    norm_num
  have hn : ¬ LouNearApex (vonMisesLimit 1 0 1 1) (vmInit .solid) (uniInc 3) := by
    have htr : tr6 (louTrial (vonMisesLimit 1 0 1 1) (vmInit .solid) (uniInc 3)) = 3 := by
      have := tr6_kel6 (unkel6 (louTrial (vonMisesLimit 1 0 1 1) (vmInit .solid) (uniInc 3)))
      rw [kel6_unkel6] at this
      rw [this, ht]
      simp [trace, uniaxial, Fin.sum_univ_three]
    unfold LouNearApex
    have ha : ((vonMisesLimit 1 0 1 1).a (vmInit .solid).acc).1 = √3 := rfl
    have hb : ((vonMisesLimit 1 0 1 1).b (vmInit .solid).acc).1 = 0 := rfl
    have hy : ((vonMisesLimit 1 0 1 1).y (vmInit .solid).acc).1 = 1 := by
      simp [vonMisesLimit, linearHardening, relu, vmInit]
    rw [htr, ha, hb, hy, if_neg (by positivity)]
    have h4 : √3 ≤ 2 := by
      rw [Real.sqrt_le_left (by norm_num)]; norm_num
    have h5 : (0 : ℝ) < √3 := by positivity
    rw [abs_zero, max_eq_right (by norm_num), not_lt, show (3 : ℝ) / 3 = 1 by norm_num, mul_one_div,
      le_div_iff₀ (by positivity)]
    norm_num at h4 ⊢
    linarith
  have hu := C93_von_mises (p := .solid) admissible_one zero_le_one (by norm_num : (2e-8 : ℝ) ≤ 1) o
    (le_refl (0 : ℝ)) h3 hn
  obtain ⟨new, T, h', hp, h2, -, h4⟩ := C32_linear_exact admissible_one zero_le_one
    (by norm_num : (2e-8 : ℝ) ≤ 1) (le_refl (0 : ℝ)) uni_plastic
  have hacc : new.acc = 4 / 5 := by
    rw [h2, vm6_uni]; norm_num [vmInit, shear, abs_of_pos]
  rw [h'] at hu
  exact ⟨new, hu, hp, hacc, C93_refines admissible_one (le_refl (0 : ℝ)) (fun _ => vmLimit_fixed _ _ _ _)
    (fun q => absurd q hn) hu⟩

end Hooke
