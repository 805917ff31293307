import Verif.Lemmas.LouRotateNewton
import Verif.Props.LouVMAP
import Verif.Props.Objectivity

/-!
# C148: the Lou-Zhang-Yoon model does not depend on the choice of the axes
-/

noncomputable section

namespace Hooke

open Spec

theorem rotR1 (Q : T2 3) (eT : T2 3) (x : LouPoint) (flow : T2 3) :
    louR1 (rotL Q eT) (rotPoint Q x) (rotL Q flow) = rotL Q (louR1 eT x flow) := by
  have e : ∀ (eT : T2 3) (x : LouPoint) (flow : T2 3), louR1 eT x flow = x.e - eT + x.inc • flow :=
    fun _ _ _ => rfl
  rw [e, e, map_add, map_sub, map_smul]
  rfl

theorem rotR2 {Q : T2 3} (h : IsOrthogonal Q) (assoc : Bool) (acc : ℝ) (x : LouPoint) (flow : T2 3) :
    louR2 assoc acc (rotPoint Q x) (rotL Q flow) = louR2 assoc acc x flow := by
  simp only [louR2, rotL_normT2 h]
  rfl

theorem louR1_isSym {eT : T2 3} {x : LouPoint} {flow : T2 3} (h1 : IsSym eT) (h2 : IsSym x.e)
    (h3 : IsSym flow) : IsSym (louR1 eT x flow) :=
  symSpace.add_mem (symSpace.sub_mem h2 h1) (symSpace.smul_mem x.inc h3)

theorem louPoint_isSym (z : LouIx → ℝ) : IsSym (louPoint z).e := unkel6_isSym fun k => z (.inl k)

/-- Outcomes of an evaluation of the residual for rotated unknowns. -/
def RotOutcome (Q : T2 3) (o o' : Py (Option LouEval)) : Prop :=
  (o = .error .runtimeError ∧ o' = .error .runtimeError) ∨ (o = .ok none ∧ o' = .ok none) ∨
    ∃ r r', o = .ok (some r) ∧ o' = .ok (some r') ∧ RotEval Q r r'

theorem louJacFinite_rot {Q : T2 3} (h : IsOrthogonal Q) {k : LouCtx} {g' : LouGrad} (H : RotGrad Q k.g g')
    (m : LouParams) : louJacFinite m { k with g := g' } ↔ louJacFinite m k := by
  unfold louJacFinite
  rw [rot_flow H, rotL_normT2 h]

theorem evalWith_rot {Q : T2 3} (h : IsOrthogonal Q) (m : LouParams) {eT : T2 3} (hT : IsSym eT) (acc : ℝ)
    (z : LouIx → ℝ) (jac : LouPoint → LouCtx → Matrix LouIx LouIx ℝ)
    (hj : ∀ {k : LouCtx} {g' : LouGrad}, RotGrad Q k.g g' → ∀ x y,
      (jac (rotPoint Q x) { k with g := g' }).mulVec (rotZ Q y) = rotZ Q ((jac x k).mulVec y))
    (f : T2 3 → LouPoint → LouCtx → Option LouEval)
    (hf : f = fun eT x k => if k.finite (m.y 0).1 then
      some { r1 := louR1 eT x k.flow
             r2 := louR2 m.assoc acc x k.flow
             r3 := louR3 k.effective (m.y x.acc).1 (m.y 0).1
             jac := if louJacFinite m k then some (jac x k) else none }
      else none) :
    RotOutcome Q ((louCtx m (louPoint z)).map (f eT (louPoint z)))
      ((louCtx m (louPoint (rotZ Q z))).map (f (rotL Q eT) (louPoint (rotZ Q z)))) := by
  subst hf
  by_cases h3 : devJ3 (louS m z) = 0
  · have h3' : devJ3 (louS m (rotZ Q z)) = 0 := by rw [louS_rotZ h, rotL_devJ3 h, h3]
    rw [louCtx_error m h3, louCtx_error m h3']
    exact .inl ⟨rfl, rfl⟩
  · have h3' : devJ3 (louS m (rotZ Q z)) ≠ 0 := by rwa [louS_rotZ h, rotL_devJ3 h]
    rw [louCtx_ok m h3, louCtx_ok m h3', louK_rotZ h, louPoint_rotZ]
    have H : RotGrad Q (louK m z).g (louGradOf (rotL Q (louS m z))) := rotGrad h (louS_isSym m z) h3
    generalize hk : louK m z = k at H ⊢
    generalize louGradOf (rotL Q (louS m z)) = g' at H ⊢
    have hfin : ({ k with g := g' } : LouCtx).finite (m.y 0).1 ↔ k.finite (m.y 0).1 := Iff.rfl
    by_cases hfi : k.finite (m.y 0).1
    · refine .inr (.inr ⟨_, _, congrArg Except.ok (if_pos hfi), congrArg Except.ok (if_pos (hfin.mpr hfi)), ?_⟩)
      refine ⟨?_, ?_, rfl, louR1_isSym hT (louPoint_isSym z) (rotFlow_isSym H), ?_⟩
      · dsimp only
        rw [rot_flow H, rotR1]
      · dsimp only
        rw [rot_flow H, rotR2 h]
      · dsimp only
        by_cases hjf : louJacFinite m k
        · rw [if_pos hjf, if_pos ((louJacFinite_rot h H m).mpr hjf)]
          exact .some (hj H _)
        · rw [if_neg hjf, if_neg fun hc => hjf ((louJacFinite_rot h H m).mp hc)]
          exact .none
    · exact .inr (.inl ⟨congrArg Except.ok (if_neg hfi), congrArg Except.ok (if_neg fun hc => hfi (hfin.mp hc))⟩)

theorem louEval_rot {Q : T2 3} (h : IsOrthogonal Q) (m : LouParams) {eT : T2 3} (hT : IsSym eT) (acc : ℝ)
    (z : LouIx → ℝ) : RotOutcome Q (louEval m eT acc (louPoint z))
      (louEval m (rotL Q eT) acc (louPoint (rotZ Q z))) :=
  evalWith_rot h m hT acc z (louJacobian m) (fun H x y => jacobian_rot h H m x y)
    (fun eT x k => louAssemble m eT acc x k) rfl

theorem louVmapEval_rot {Q : T2 3} (h : IsOrthogonal Q) (m : LouParams) (fixed : Bool) {eT : T2 3}
    (hT : IsSym eT) (acc : ℝ) (z : LouIx → ℝ) : RotOutcome Q (louVmapEval m fixed eT acc (louPoint z))
      (louVmapEval m fixed (rotL Q eT) acc (louPoint (rotZ Q z))) :=
  evalWith_rot h m hT acc z (louVmapJacobian m fixed) (fun H x y => vmapJacobian_rot h H m fixed x y) _ rfl

theorem rotZ_norm {Q : T2 3} (h : IsOrthogonal Q) (d : LouIx → ℝ) (c : ℝ) :
    ∑ i : Fin 6, (rotZ Q d (.inl i) / c) ^ 2 = ∑ i : Fin 6, (d (.inl i) / c) ^ 2 := by
  have e := rotKel_inner h (fun k => d (.inl k)) fun k => d (.inl k)
  have e1 : ∀ z : LouIx → ℝ, ∑ i : Fin 6, (z (.inl i) / c) ^ 2 = (∑ i, z (.inl i) * z (.inl i)) / c ^ 2 := by
    intro z
    rw [Finset.sum_div]
    exact Finset.sum_congr rfl fun i _ => by rw [div_pow, sq]
  rw [e1, e1]
  exact congrArg (· / c ^ 2) e

theorem rotZ_norm1 {Q : T2 3} (h : IsOrthogonal Q) (d : LouIx → ℝ) :
    ∑ i : Fin 6, (rotZ Q d (.inl i)) ^ 2 = ∑ i : Fin 6, (d (.inl i)) ^ 2 := by
  have := rotZ_norm h d 1
  simpa only [div_one] using this

theorem louStepNorm_rot {Q : T2 3} (h : IsOrthogonal Q) (eT : T2 3) (acc : ℝ) (d : LouIx → ℝ) :
    louStepNorm (rotL Q eT) acc (rotZ Q d) = louStepNorm eT acc d := by
  unfold louStepNorm
  simp only [rotL_normT2 h]
  congr 2
  split
  · exact rotZ_norm h d _
  · exact rotZ_norm1 h d

theorem louVmapStepNorm_rot {Q : T2 3} (h : IsOrthogonal Q) (eT : T2 3) (acc : ℝ) (d : LouIx → ℝ) :
    louVmapStepNorm (rotL Q eT) acc (rotZ Q d) = louVmapStepNorm eT acc d := by
  unfold louVmapStepNorm
  simp only [rotL_normT2 h]
  congr 2
  split
  · exact rotZ_norm h d _
  · exact rotZ_norm1 h d

theorem louPoint_add (z d : LouIx → ℝ) : (louPoint z).add d = louPoint (z + d) := by
  simp only [louPoint, LouPoint.add, Pi.add_apply, LouPoint.mk.injEq, and_true]
  funext i j
  simp only [unkel6]
  ring

theorem louConeLoop_rot {Q : T2 3} (h : IsOrthogonal Q) (m : LouParams) {eT : T2 3} (hT : IsSym eT)
    (acc : ℝ) (fuel : ℕ) : ∀ (n : ℕ) (z : LouIx → ℝ) (dn : ℝ),
    louConeLoop m (rotL Q eT) acc fuel n (louPoint (rotZ Q z)) dn =
      (louConeLoop m eT acc fuel n (louPoint z) dn).map (Option.map (rotPoint Q)) := by
  induction fuel with
  | zero =>
    intro n z dn
    unfold louConeLoop
    rcases louEval_rot h m hT acc z with ⟨e, e'⟩ | ⟨e, e'⟩ | ⟨r, r', e, e', H⟩
    · rw [e, e']; rfl
    · rw [e, e']; rfl
    · rw [e, e']
      simp only [Except.bind, H.convNorm h]
      split
      · rw [louPoint_rotZ]; rfl
      · rfl
  | succ fuel ih =>
    intro n z dn
    unfold louConeLoop
    rcases louEval_rot h m hT acc z with ⟨e, e'⟩ | ⟨e, e'⟩ | ⟨r, r', e, e', H⟩
    · rw [e, e']; rfl
    · rw [e, e']; rfl
    · rw [e, e']
      simp only [Except.bind, H.convNorm h, louSolve_rot h H]
      split
      · rw [louPoint_rotZ]; rfl
      · cases louSolve r with
        | error e => rfl
        | ok d =>
          cases d with
          | none => rfl
          | some d =>
            simp only [Except.map, Option.map_some]
            rw [louStepNorm_rot h, louPoint_add, ← rotZ_add, ih, louPoint_add]
            rfl

/-- A rotated 3D result. -/
def rotReturn (Q : T2 3) (r : LouReturn) : LouReturn :=
  { r with eStrain := rotKel Q r.eStrain, stress := rotKel Q r.stress }

theorem louPlasticResult_rot {Q : T2 3} (h : IsOrthogonal Q) (m : LouParams) {e : T2 3} (he : IsSym e)
    (acc : ℝ) : louPlasticResult m (rotL Q e) acc = rotReturn Q (louPlasticResult m e acc) := by
  simp only [louPlasticResult, rotReturn, LouParams.tangent, mv6_iso, kel6_rotL Q he, rotKel_hooke h]

theorem louStart {e : T2 3} (he : IsSym e) (acc : ℝ) : ∃ z, (⟨e, acc, 0⟩ : LouPoint) = louPoint z ∧
    ∀ Q, (⟨rotL Q e, acc, 0⟩ : LouPoint) = louPoint (rotZ Q z) := by
  have h := louPoint_louVec (x := ⟨e, acc, 0⟩) he
  refine ⟨_, h.symm, fun Q => ?_⟩
  rw [louPoint_rotZ, h]
  rfl

theorem louConeLoop_isSym {m : LouParams} {eT : T2 3} {acc : ℝ} (fuel : ℕ) : ∀ (n : ℕ) (z : LouIx → ℝ)
    (dn : ℝ) (x : LouPoint), louConeLoop m eT acc fuel n (louPoint z) dn = .ok (some x) → IsSym x.e := by
  have key : ∀ z, IsSym (louPoint z).e := louPoint_isSym
  induction fuel with
  | zero =>
    intro n z dn x hx
    unfold louConeLoop at hx
    cases he : louEval m eT acc (louPoint z) with
    | error e => rw [he] at hx; cases hx
    | ok r =>
      rw [he] at hx
      cases r with
      | none => cases hx
      | some r =>
        simp only [Except.bind] at hx
        split at hx
        · cases hx; exact key z
        · cases hx
  | succ fuel ih =>
    intro n z dn x hx
    unfold louConeLoop at hx
    cases he : louEval m eT acc (louPoint z) with
    | error e => rw [he] at hx; cases hx
    | ok r =>
      rw [he] at hx
      cases r with
      | none => cases hx
      | some r =>
        simp only [Except.bind] at hx
        split at hx
        · cases hx; exact key z
        · cases hs : louSolve r with
          | error e => rw [hs] at hx; cases hx
          | ok d =>
            rw [hs] at hx
            cases d with
            | none => cases hx
            | some d =>
              simp only [louPoint_add] at hx
              exact ih _ _ _ _ hx

theorem louCone_rot {Q : T2 3} (h : IsOrthogonal Q) (m : LouParams) {eT : T2 3} (hT : IsSym eT) (acc : ℝ) :
    louCone m (rotL Q eT) acc = (louCone m eT acc).map (Option.map (rotReturn Q)) := by
  unfold louCone
  obtain ⟨z, e1, e2⟩ := louStart hT acc
  rw [e1, e2, louConeLoop_rot h m hT]
  have hs := louConeLoop_isSym (m := m) (eT := eT) (acc := acc) suMaxIter 0 z 0
  cases hc : louConeLoop m eT acc suMaxIter 0 (louPoint z) 0 with
  | error e => rfl
  | ok o =>
    cases o with
    | none => rfl
    | some x =>
      simp only [Except.map, Option.map_some]
      rw [← louPlasticResult_rot h m (hs x hc)]
      rfl

theorem louApex_rot {Q : T2 3} (h : IsOrthogonal Q) (m : LouParams) (pT acc : ℝ) :
    (louApex m pT acc).map (rotReturn Q) = louApex m pT acc := by
  unfold louApex
  cases louAlpha (m.a 0).1 (m.b 0).1 with
  | none => rfl
  | some alpha =>
    simp only [Option.bind_some]
    cases louApexLoop (louApexEval m alpha pT acc) acc suMaxIter 0 0 0 with
    | none => rfl
    | some x =>
      simp only [Option.map_some, Option.some.injEq]
      have e : ∀ c : ℝ, rotReturn Q (louPlasticResult m (fun i j => c * (getIdOperators 3).soid i j)
          (acc + alpha * x)) = louPlasticResult m (fun i j => c * (getIdOperators 3).soid i j) (acc + alpha * x) := by
        intro c
        have e1 : (fun i j => c * (getIdOperators 3).soid i j) = rotL Q (c • (getIdOperators 3).soid) := by
          rw [map_smul, rotL_soid h]
          rfl
        have hs : IsSym (c • (getIdOperators 3).soid) := symSpace.smul_mem c soid_isSym
        conv_rhs => rw [e1, louPlasticResult_rot h m hs]
        rfl
      exact e _

theorem louEffective_rot {Q : T2 3} (h : IsOrthogonal Q) {s : T2 3} (hs : IsSym s) (a b c d : ℝ) :
    louEffective (rotL Q s) a b c d = louEffective s a b c d := by
  obtain ⟨e1, e2, e3⟩ := C88_invariants hs
  obtain ⟨f1, f2, f3⟩ := C88_invariants (rotL_isSym (Q := Q) hs)
  unfold louEffective
  dsimp only
  rw [e1, e2, e3, f1, f2, f3, rotL_devJ2 h, rotL_devJ3 h, rotL_apply, rotate_trace h]

theorem louTrial_rot {Q : T2 3} (h : IsOrthogonal Q) (m : LouParams) (e : V6) :
    mv6 (kel66 m.tangent) (rotKel Q e) = rotKel Q (mv6 (kel66 m.tangent) e) := by
  simp only [LouParams.tangent, mv6_iso, rotKel_hooke h]

theorem louReturn_rot {Q : T2 3} (h : IsOrthogonal Q) (m : LouParams) (e : V6) (acc : ℝ) :
    louReturn m (rotKel Q e) acc = (louReturn m e acc).map (Option.map (rotReturn Q)) := by
  have htr : ∀ s : T2 3, ∑ i, rotL Q s i i = ∑ i, s i i := fun s => rotate_trace h
  unfold louReturn
  simp only [louTrial_rot h, unkel6_rotKel, louEffective_rot h (unkel6_isSym _), htr]
  split
  · rfl
  · split
    · simp only [Except.map, louApex_rot h]
    · exact louCone_rot h m (unkel6_isSym e) acc

theorem louState_rot {p : PType} {Q : T2 p.dim} (e : V6) (pOld : Vmf p) (o : Option LouReturn) :
    louState p (rotKel (rot3 p Q) e) (rotMf p Q pOld) (o.map (rotReturn (rot3 p Q))) =
      rotVMVars p Q (louState p e pOld o) := by
  cases o with
  | none => simp only [louState, rotVMVars, Option.map_some, Option.map_none, to2D_rot, rotMf_add]
  | some r =>
    simp only [louState, rotVMVars, rotVM, Option.map_some, rotReturn, to2D_rot, get33_rot, rotMf_add]

theorem louUpdate_rot {p : PType} {Q : T2 p.dim} (h : IsOrthogonal Q) (m : LouParams) {inc : T2 p.dim}
    (hs : IsSymP p inc) (old : VMState p) :
    louUpdate p m (Spec.rotate Q inc) (rotVM p Q old) = (louUpdate p m inc old).map (rotVMVars p Q) := by
  unfold louUpdate
  simp only [rotVM, trial_rot p Q hs, louReturn_rot (rot3_orthogonal h), ← rotMf_sub]
  cases louReturn m (to3D p old.eStrain old.e33 + to3D p (mf p inc) 0) old.acc with
  | error e => rfl
  | ok o => exact congrArg Except.ok (louState_rot _ _ o)

/-- The state of the batched loop for given vectors of unknowns. -/
def maskOf (s : LouMask (LouIx → ℝ)) : LouMask LouPoint := (s.1.map fun x => (louPoint x.1, x.2), s.2)

/-- The same with rotated unknowns. -/
def rotMask (Q : T2 3) (s : LouMask (LouIx → ℝ)) : LouMask LouPoint :=
  (s.1.map fun x => (louPoint (rotZ Q x.1), x.2), s.2)

theorem louVmapConeStep_rot {Q : T2 3} (h : IsOrthogonal Q) (m : LouParams) (fixed : Bool) {eT : T2 3}
    (hT : IsSym eT) (acc : ℝ) (avoid : Bool) (s : LouMask (LouIx → ℝ)) (n : ℕ) :
    (∃ e, louVmapConeStep m fixed eT acc avoid (maskOf s) n = .error e ∧
      louVmapConeStep m fixed (rotL Q eT) acc avoid (rotMask Q s) n = .error e) ∨
    ∃ s', louVmapConeStep m fixed eT acc avoid (maskOf s) n = .ok (maskOf s') ∧
      louVmapConeStep m fixed (rotL Q eT) acc avoid (rotMask Q s) n = .ok (rotMask Q s') := by
  obtain ⟨o, c⟩ := s
  cases o with
  | none => exact .inr ⟨(none, avoid), rfl, rfl⟩
  | some x =>
    obtain ⟨z, dn⟩ := x
    unfold louVmapConeStep
    simp only [maskOf, rotMask, Option.map_some]
    rcases louVmapEval_rot h m fixed hT acc z with ⟨e, e'⟩ | ⟨e, e'⟩ | ⟨r, r', e, e', H⟩
    · rw [e, e']
      exact .inl ⟨_, rfl, rfl⟩
    · rw [e, e']
      cases avoid with
      | true => exact .inr ⟨(some (z, 0), true), rfl, rfl⟩
      | false => exact .inr ⟨(none, false), rfl, rfl⟩
    · rw [e, e']
      simp only [Except.bind, louSolve_rot h H]
      have hc : louVmapConverged (rotL Q eT) acc avoid r' dn n = louVmapConverged eT acc avoid r dn n := by
        simp only [louVmapConverged, H.convNorm h]
      rw [hc]
      cases louSolve r with
      | error e => exact .inl ⟨_, rfl, rfl⟩
      | ok d =>
        refine .inr ?_
        simp only [Except.map, Except.ok.injEq]
        generalize louVmapConverged eT acc avoid r dn n = conv
        cases conv with
        | true => exact ⟨(some (z, 0), true), rfl, rfl⟩
        | false =>
          cases d with
          | none => exact ⟨(none, false), rfl, rfl⟩
          | some d =>
            refine ⟨(some (z + d, louVmapStepNorm eT acc d), false), ?_, ?_⟩
            · simp only [louVmapAdvance, Bool.false_eq_true, if_false, Option.map_some, louPoint_add]
            · simp only [louVmapAdvance, Bool.false_eq_true, if_false, Option.map_some, louPoint_add, rotZ_add,
                louVmapStepNorm_rot h]

theorem louVmapConeLoop_rot {Q : T2 3} (h : IsOrthogonal Q) (m : LouParams) (fixed : Bool) {eT : T2 3}
    (hT : IsSym eT) (acc : ℝ) (avoid : Bool) (l : List ℕ) : ∀ s : LouMask (LouIx → ℝ),
    (∃ e, l.foldlM (louVmapConeStep m fixed eT acc avoid) (maskOf s) = .error e ∧
      l.foldlM (louVmapConeStep m fixed (rotL Q eT) acc avoid) (rotMask Q s) = .error e) ∨
    ∃ s', l.foldlM (louVmapConeStep m fixed eT acc avoid) (maskOf s) = .ok (maskOf s') ∧
      l.foldlM (louVmapConeStep m fixed (rotL Q eT) acc avoid) (rotMask Q s) = .ok (rotMask Q s') := by
  induction l with
  | nil => exact fun s => .inr ⟨s, rfl, rfl⟩
  | cons n l ih =>
    intro s
    rw [List.foldlM_cons, List.foldlM_cons]
    rcases louVmapConeStep_rot h m fixed hT acc avoid s n with ⟨e, e1, e2⟩ | ⟨s', e1, e2⟩
    · rw [e1, e2]
      exact .inl ⟨e, rfl, rfl⟩
    · rw [e1, e2]
      exact ih s'

theorem louVmapCone_rot {Q : T2 3} (h : IsOrthogonal Q) (m : LouParams) (fixed : Bool) {eT : T2 3}
    (hT : IsSym eT) (acc : ℝ) (avoid : Bool) :
    louVmapCone m fixed (rotL Q eT) acc avoid =
      (louVmapCone m fixed eT acc avoid).map (Option.map (rotReturn Q)) := by
  unfold louVmapCone
  obtain ⟨z, e1, e2⟩ := louStart hT acc
  rw [e1, e2]
  rcases louVmapConeLoop_rot h m fixed hT acc avoid (List.range (louVmapMaxIter + 1))
    (some (z, 0), false) with ⟨e, f1, f2⟩ | ⟨⟨o, c⟩, f1, f2⟩
  · simp only [maskOf, rotMask, Option.map_some] at f1 f2
    rw [f1, f2]
    rfl
  · simp only [maskOf, rotMask, Option.map_some] at f1 f2
    rw [f1, f2]
    simp only [Except.map, Except.ok.injEq]
    cases c with
    | false => rfl
    | true =>
      cases o with
      | none => rfl
      | some x =>
        simp only [if_true, Option.map_some, Option.some.injEq]
        rw [louPoint_rotZ, ← louPlasticResult_rot h m (louPoint_isSym x.1)]
        rfl

theorem louVmapApex_rot {Q : T2 3} (h : IsOrthogonal Q) (m : LouParams) (pT acc : ℝ) :
    (louVmapApex m pT acc).map (rotReturn Q) = louVmapApex m pT acc := by
  have e : ∀ c : ℝ, rotKel Q (fun k => c * kel6 (getIdOperators 3).soid k) =
      fun k => c * kel6 (getIdOperators 3).soid k := by
    intro c
    rw [rotKel_mul, ← kel6_rotL Q soid_isSym, rotL_soid h]
  unfold louVmapApex
  cases louVmapAlpha (m.a 0).1 (m.b 0).1 with
  | none => rfl
  | some alpha =>
    simp only [Option.bind_some]
    split
    · rw [Option.map_map]
      refine congrFun (congrArg _ (funext fun x => ?_)) _
      simp only [Function.comp_apply, rotReturn, e]
    · rfl

theorem louVmapReturn_rot {Q : T2 3} (h : IsOrthogonal Q) (m : LouParams) (o : LouOptions) (e : V6) (acc : ℝ) :
    louVmapReturn m o (rotKel Q e) acc = (louVmapReturn m o e acc).map (Option.map (rotReturn Q)) := by
  have htr : ∀ s : T2 3, ∑ i, rotL Q s i i = ∑ i, s i i := fun s => rotate_trace h
  unfold louVmapReturn
  simp only [louTrial_rot h, unkel6_rotKel, louEffective_rot h (unkel6_isSym _), htr,
    louVmapCone_rot h m _ (unkel6_isSym e)]
  generalize louVmapCone m o.isFixedYield (unkel6 e) acc _ = c
  cases c with
  | error e => rfl
  | ok c =>
    simp only [Except.map, Except.ok.injEq]
    split
    · rfl
    · generalize (if o.isApexHandling = true then _ else _ : Bool) = b
      cases b with
      | true => exact (louVmapApex_rot h m _ _).symm
      | false => rfl

theorem louVmapUpdate_rot {p : PType} {Q : T2 p.dim} (h : IsOrthogonal Q) (m : LouParams) (o : LouOptions)
    {inc : T2 p.dim} (hs : IsSymP p inc) (old : VMState p) :
    louVmapUpdate p m o (Spec.rotate Q inc) (rotVM p Q old) =
      (louVmapUpdate p m o inc old).map (rotVMVars p Q) := by
  unfold louVmapUpdate
  simp only [rotVM, trial_rot p Q hs, louVmapReturn_rot (rot3_orthogonal h), ← rotMf_sub]
  cases louVmapReturn m o (to3D p old.eStrain old.e33 + to3D p (mf p inc) 0) old.acc with
  | error e => rfl
  | ok o => exact congrArg Except.ok (louState_rot _ _ o)

theorem foldlM_rot {α β : Type*} {f : α → β → Py α} {r : α → α} {q : β → β} {P : β → Prop}
    (h : ∀ a b, P b → f (r a) (q b) = (f a b).map r) (l : List β) (hP : ∀ b ∈ l, P b) (a : α) :
    (l.map q).foldlM f (r a) = (l.foldlM f a).map r := by
  induction l generalizing a with
  | nil => rfl
  | cons b l ih =>
    rw [List.map_cons, List.foldlM_cons, List.foldlM_cons, h a b (hP b List.mem_cons_self)]
    cases f a b with
    | error e => rfl
    | ok a' => exact ih (fun c hc => hP c (List.mem_cons_of_mem _ hc)) a'

/-- **C148 (histories).** Rotating or mirroring every strain increment of a history of the Lou-Zhang-Yoon
model rotates the whole response: the rotated states are returned, the same steps fail to converge, and the
same steps raise an error. -/
theorem C148_history {p : PType} {Q : T2 p.dim} (h : IsOrthogonal Q) (m : LouParams)
    (incs : List (T2 p.dim)) (hs : ∀ inc ∈ incs, IsSymP p inc) :
    louRun p m (incs.map (Spec.rotate Q)) = (louRun p m incs).map (rotVMVars p Q) := by
  have h0 : VMVars.good (vmInit p) = rotVMVars p Q (.good (vmInit p)) := by rw [rotVMVars, rotVM_init]
  unfold louRun
  conv_lhs => rw [h0]
  refine foldlM_rot (P := IsSymP p) (fun st inc hi => ?_) incs hs _
  cases st with
  | good s => exact louUpdate_rot h m hi s
  | nan s => rfl

/-- **C148 (batched).** The same for a step of the batched model from any state, for every choice of the
options of the model. -/
theorem C148_batched {p : PType} {Q : T2 p.dim} (h : IsOrthogonal Q) (m : LouParams) (o : LouOptions)
    {inc : T2 p.dim} (hs : IsSymP p inc) (old : VMState p) :
    louVmapUpdate p m o (Spec.rotate Q inc) (rotVM p Q old) =
      (louVmapUpdate p m o inc old).map (rotVMVars p Q) :=
  louVmapUpdate_rot h m o hs old

/-- **C148 (no spurious shear).** Strains without shear give stresses and elastic strains without shear, for
every history which raises no error. -/
theorem C148_no_shear (m : LouParams) (incs : List (T2 3))
    (hd : ∀ inc ∈ incs, ∀ i j, i ≠ j → inc i j = 0) {s : VMState .solid}
    (h : louRun .solid m incs = .ok (.good s)) (i j : Fin 3) (hij : i ≠ j) :
    unmf .solid s.stress i j = 0 ∧ unmf .solid s.eStrain i j = 0 := by
  have hdiag : ∀ t : T2 3, (∀ i j, i ≠ j → t i j = 0) → ∀ q : Fin 3 → ℝ, (∀ i, q i * q i = 1) →
      Spec.rotate (fun a b => if a = b then q a else 0) t = t := by
    intro t ht q hq
    funext a b
    simp only [Spec.rotate, ite_mul, zero_mul, mul_ite, mul_zero, Finset.sum_ite_eq, Finset.mem_univ, if_true]
    by_cases hab : a = b
    · subst hab
      linear_combination t a a * hq a
    · rw [ht a b hab]
      ring
  have hrot : ∀ (q : Fin 3 → ℝ) (x : V6) (a b : Fin 3), unkel6 (rotMf .solid
      (fun a b => if a = b then q a else 0) x) a b = q a * q b * unkel6 x a b := by
    intro q x a b
    have e := unkel6_rotKel (fun a b => if a = b then q a else 0) x
    have e2 := congrFun (congrFun e a) b
    refine e2.trans ?_
    rw [rotL_apply]
    simp only [Spec.rotate, ite_mul, zero_mul, mul_ite, mul_zero, Finset.sum_ite_eq, Finset.mem_univ, if_true]
    ring
  let q : Fin 3 → ℝ := fun a => if a = i then -1 else 1
  have hq : ∀ a, q a * q a = 1 := fun a => by
    simp only [q]
    split <;> norm_num
  have hQ : IsOrthogonal (fun a b : Fin 3 => if a = b then q a else 0) := by
    intro a b
    simp only [mul_ite, mul_zero, ite_mul, zero_mul, Finset.sum_ite_eq, Finset.mem_univ, if_true]
    by_cases hab : a = b
    · subst hab
      simp [hq]
    · simp [hab, Ne.symm hab]
  have hm : incs.map (Spec.rotate fun a b : Fin 3 => if a = b then q a else 0) = incs := by
    refine (List.map_congr_left fun t ht => hdiag t (hd t ht) q hq).trans ?_
    exact List.map_id _
  have hsym : ∀ inc ∈ incs, IsSymP .solid inc := fun t ht a b => by
    by_cases hab : a = b
    · rw [hab]
    · rw [hd t ht a b hab, hd t ht b a (Ne.symm hab)]
  have key := C148_history (p := .solid) hQ m incs hsym
  have e1 : louRun .solid m (incs.map (Spec.rotate fun a b : Fin 3 => if a = b then q a else 0)) =
      .ok (.good s) := (congrArg _ hm).trans h
  rw [h] at key
  have e2 := Except.ok.inj (e1.symm.trans key)
  simp only [rotVMVars, VMVars.good.injEq] at e2
  have f1 := congrArg VMState.stress e2
  have f2 := congrArg VMState.eStrain e2
  have hn : ∀ x : V6, x = rotMf .solid (fun a b : Fin 3 => if a = b then q a else 0) x →
      unkel6 x i j = 0 := by
    intro x hx
    have := hrot q x i j
    rw [← hx] at this
    have qi : q i = -1 := if_pos rfl
    have qj : q j = 1 := if_neg (Ne.symm hij)
    rw [qi, qj] at this
    linarith
  exact ⟨hn _ f1, hn _ f2⟩

/-- A plastic step in every direction: the uniaxial strain three, along any axis. -/
example {Q : T2 3} (h : IsOrthogonal Q) : ∃ new, louUpdate .solid (vonMisesLimit 1 0 1 1)
    (Spec.rotate Q (uniInc 3)) (vmInit .solid) = .ok (.good new) ∧ new.isPlast = true ∧ new.acc = 4 / 5 := by
  obtain ⟨new, h1, h2, h3, -⟩ := vmLimit_uni.2
  have hs : IsSymP .solid (uniInc 3) := by
    intro i j
    fin_cases i <;> fin_cases j <;> rfl
  have := louUpdate_rot (p := .solid) h (vonMisesLimit 1 0 1 1) hs (vmInit .solid)
  rw [rotVM_init, h1] at this
  exact ⟨_, this, h2, h3⟩

/-- The same case as a history without shear. -/
example : ∃ s, louRun .solid (vonMisesLimit 1 0 1 1) [uniInc 3] = .ok (.good s) ∧ s.isPlast = true ∧
    ∀ i j : Fin 3, i ≠ j → unmf .solid s.stress i j = 0 := by
  obtain ⟨new, h1, h2, -⟩ := vmLimit_uni.2
  have h : louRun .solid (vonMisesLimit 1 0 1 1) [uniInc 3] = .ok (.good new) := by
    simp only [louRun, List.foldlM_cons, List.foldlM_nil]
    exact (congrArg (· >>= pure) h1).trans rfl
  refine ⟨new, h, h2, fun i j hij => (C148_no_shear _ _ (fun inc hi a b hab => ?_) h i j hij).1⟩
  rw [List.mem_singleton.1 hi]
  unfold uniInc
  exact if_neg fun ⟨ha, hb⟩ => hab (ha.trans hb.symm)

end Hooke
