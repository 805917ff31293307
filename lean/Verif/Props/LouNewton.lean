import Verif.Props.LouVonMises

/-! # C89: the iterations of the return to the Lou-Zhang-Yoon surface are Newton steps -/

noncomputable section

namespace Hooke

open Spec

/-- `z'` follows from `z` by a Newton step: at `z` the residual and its Jacobian are computed, and
the Jacobian maps the change of the unknowns to the negative residual. -/
def LouNewtonStep (m : LouParams) (eTrial : T2 3) (accOld : ℝ) (z z' : LouIx → ℝ) : Prop :=
  ∃ r J, louEval m eTrial accOld (louPoint z) = .ok (some r) ∧ r.jac = some J ∧ J.det ≠ 0 ∧
    J.mulVec (z' - z) = -r.residual

theorem louVec_add {x : LouPoint} (d : LouIx → ℝ) : louVec (x.add d) = louVec x + d := by
  funext i
  rcases i with k | i
  · have h := congrFun (kel6_unkel6 fun k => d (.inl k)) k
    simp only [kel6] at h
    simp only [louVec, LouPoint.add, Sum.elim_inl, Pi.add_apply, kel6]
    rw [← h]
    ring
  · fin_cases i <;> simp [louVec, LouPoint.add]

theorem louConeLoop_newton {m : LouParams} {eTrial : T2 3} {accOld : ℝ} :
    ∀ (fuel nr : ℕ) (x : LouPoint) (dn : ℝ) {y : LouPoint}, IsSym x.e →
      louConeLoop m eTrial accOld fuel nr x dn = .ok (some y) →
      ∃ (n : ℕ) (z : ℕ → LouIx → ℝ), n ≤ fuel ∧ (nr = 0 → 1 ≤ n) ∧ z 0 = louVec x ∧
        z n = louVec y ∧ IsSym y.e ∧
        (∀ k, k < n → LouNewtonStep m eTrial accOld (z k) (z (k + 1))) ∧
        (∀ k, k + 1 = n → louStepNorm eTrial accOld (z (k + 1) - z k) < suTol) ∧
        (n = 0 → dn < suTol) := by
  intro fuel
  induction fuel with
  | zero =>
    intro nr x dn y hx h
    unfold louConeLoop at h
    cases hr : louEval m eTrial accOld x with
    | error e => rw [hr] at h; cases h
    | ok r =>
      rw [hr] at h
      cases r with
      | none => cases h
      | some r =>
        simp only [Except.bind] at h
        split_ifs at h with hc
        · obtain rfl := Option.some.inj (Except.ok.inj h)
          exact ⟨0, fun _ => louVec x, le_rfl, fun h0 => absurd hc.2.2 (by omega), rfl, rfl, hx,
            fun k hk => absurd hk (by omega), fun k hk => absurd hk (by omega), fun _ => hc.2.1⟩
        · cases h
  | succ f ih =>
    intro nr x dn y hx h
    unfold louConeLoop at h
    cases hr : louEval m eTrial accOld x with
    | error e => rw [hr] at h; cases h
    | ok r =>
      rw [hr] at h
      cases r with
      | none => cases h
      | some r =>
        simp only [Except.bind] at h
        split_ifs at h with hc
        · obtain rfl := Option.some.inj (Except.ok.inj h)
          exact ⟨0, fun _ => louVec x, Nat.zero_le _, fun h0 => absurd hc.2.2 (by omega), rfl, rfl,
            hx, fun k hk => absurd hk (by omega), fun k hk => absurd hk (by omega), fun _ => hc.2.1⟩
        · cases hj : r.jac with
          | none => simp [louSolve, hj] at h
          | some J =>
            simp only [louSolve, hj] at h
            by_cases hd : J.det = 0
            · simp [hd] at h
            · simp only [if_neg hd] at h
              have hs : IsSym (x.add (J⁻¹.mulVec (-r.residual))).e := by
                intro i j
                simp only [LouPoint.add]
                rw [hx i j, unkel6_isSym _ i j]
              obtain ⟨n, z, h1, -, h3, h4, h5, h6, h7, h8⟩ := ih _ _ _ hs h
              have hz : z 0 - louVec x = J⁻¹.mulVec (-r.residual) := by
                rw [h3, louVec_add, add_sub_cancel_left]
              refine ⟨n + 1, fun k => Nat.casesOn k (louVec x) z, by omega, fun _ => by omega, rfl,
                h4, h5, ?_, ?_, fun h0 => by omega⟩
              · intro k hk
                cases k with
                | zero =>
                  refine ⟨r, J, by rw [← hr]; exact congrArg _ (louPoint_louVec hx), hj, hd, ?_⟩
                  show J.mulVec (z 0 - louVec x) = _
                  rw [hz, Matrix.mulVec_mulVec,
                    Matrix.mul_nonsing_inv _ (isUnit_iff_ne_zero.mpr hd), Matrix.one_mulVec]
                | succ k => exact h6 k (by omega)
              · intro k hk
                cases k with
                | zero =>
                  show louStepNorm eTrial accOld (z 0 - louVec x) < suTol
                  rw [hz]
                  exact h8 (by omega)
                | succ k => exact h7 k (by omega)

/-- C89: the elastic strain, the accumulated plastic strain and the plastic multiplier of a
successful return to the yield surface are those after 1 to 20 Newton steps from the trial elastic
strain, the old accumulated plastic strain and zero; the last step is shorter than the
tolerance. -/
theorem C89_newton {p : PType} {m : LouParams} {inc : T2 p.dim} {old new : VMState p}
    (h : louUpdate p m inc old = .ok (.good new)) (hp : new.isPlast = true)
    (hn : ¬ LouNearApex m old inc) :
    ∃ (n : ℕ) (z : ℕ → LouIx → ℝ), 1 ≤ n ∧ n ≤ 20 ∧
      z 0 = Sum.elim (trial3D old inc) ![old.acc, 0] ∧
      (∀ k, k < n → LouNewtonStep m (unkel6 (trial3D old inc)) old.acc (z k) (z (k + 1))) ∧
      louStepNorm (unkel6 (trial3D old inc)) old.acc (z n - z (n - 1)) < 1e-6 ∧
      (∀ k, elastic3D new k = z n (.inl k)) ∧ new.acc = z n (.inr 0) := by
  obtain ⟨r, hr, h1, h2, h3, h4, h5, -⟩ := louUpdate_3D h
  have hc : ¬ LouTrialElastic m old inc := by
    intro hc
    have := (C90_elastic_step h).1.mpr hc
    rw [hp] at this
    cases this
  rw [louReturn_cases, if_neg hc, if_neg hn] at hr
  unfold louCone at hr
  cases hl : louConeLoop m (unkel6 (trial3D old inc)) old.acc suMaxIter 0
      ⟨unkel6 (trial3D old inc), old.acc, 0⟩ 0 with
  | error e => rw [hl] at hr; cases hr
  | ok y =>
    rw [hl] at hr
    cases y with
    | none => simp [Except.map] at hr
    | some y =>
      simp only [Except.map, Except.ok.injEq, Option.map_some, Option.some.injEq] at hr
      obtain ⟨n, z, g1, g2, g3, g4, -, g6, g7, -⟩ :=
        louConeLoop_newton _ _ ⟨unkel6 (trial3D old inc), old.acc, 0⟩ _ (unkel6_isSym _) hl
      have hn1 := g2 rfl
      refine ⟨n, z, hn1, g1, ?_, g6, ?_, fun k => ?_, ?_⟩
      · rw [g3, louVec]
        congr 1
        exact kel6_unkel6 _
      · have := g7 (n - 1) (by omega)
        rwa [show n - 1 + 1 = n by omega] at this
      · rw [h1, ← hr, g4]; rfl
      · rw [h3, ← hr, g4]; rfl

/-- hypotheses of C89_newton are met -/
example : ∃ new n, ∃ z : ℕ → LouIx → ℝ, louUpdate .solid (vonMisesLimit 1 0 1 1) (uniInc 3)
    (vmInit .solid) = .ok (.good new) ∧ 1 ≤ n ∧ n ≤ 20 ∧ z n (.inr 0) = 4 / 5 := by
  obtain ⟨hn, new, hu, hp, ha, -⟩ := vmLimit_uni
  obtain ⟨n, z, h1, h2, -, -, -, -, h7⟩ := C89_newton hu hp hn
  exact ⟨new, n, z, hu, h1, h2, by rw [← h7, ha]⟩

end Hooke
