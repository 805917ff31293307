import Verif.Spec.ResponseDataset
import Verif.Props.RecurrentForwardCases

/-!
# C102: response data sets of a constitutive model
-/

noncomputable section

namespace Hooke

open Spec

variable {n : ℕ} {σ : Type}

theorem npBuild_aux {n : ℕ} {v : List ℝ} : ∀ (l : List Comp) (k : ℕ) (t0 : Tensor),
    (∀ c ∈ l, c.i < n ∧ c.j < n) → l.length + k ≤ v.length →
    l.Pairwise (fun c c' => ∀ i j, c.Rep i j → ¬ c'.Rep i j) →
    ∃ t, (l.zipIdx k).foldlM (fun t ck => do
        let x ← orRaise v[ck.2]? .indexError
        raiseIf (n ≤ ck.1.i ∨ n ≤ ck.1.j) .indexError
        return if ck.1.i = ck.1.j then t.set [ck.1.i, ck.1.j] x
          else (t.set [ck.1.i, ck.1.j] x).set [ck.1.j, ck.1.i] x) t0 = (.ok t : Py Tensor) ∧
      ∀ i j, ((∀ c ∈ l, ¬ c.Rep i j) → t.val [i, j] = t0.val [i, j]) ∧
        ∀ p (hp : p < l.length), l[p].Rep i j → t.val [i, j] = v.getD (k + p) 0 := by
  intro l
  induction l with
  | nil => intro k t0 _ _ _; exact ⟨t0, rfl, fun i j => ⟨fun _ => rfl, fun p hp => by simp at hp⟩⟩
  | cons c l ih =>
    intro k t0 hc hl hpw
    simp only [List.length_cons] at hl
    obtain ⟨hci, hcj⟩ := hc c (by simp)
    have hx : orRaise v[k]? .indexError = .ok (v.getD k 0) := by
      rw [orRaise_ok, List.getD_eq_getElem?_getD, List.getElem?_eq_getElem (by omega)]; rfl
    have hr : raiseIf (n ≤ c.i ∨ n ≤ c.j) PyErr.indexError = .ok () := raiseIf_ok.2 (by omega)
    obtain ⟨t, h1, h2⟩ := ih (k + 1) (if c.i = c.j then t0.set [c.i, c.j] (v.getD k 0)
      else (t0.set [c.i, c.j] (v.getD k 0)).set [c.j, c.i] (v.getD k 0))
      (fun c' h => hc c' (by simp [h])) (by omega) (List.pairwise_cons.1 hpw).2
    refine ⟨t, ?_, fun i j => ⟨fun h => ?_, fun p hp hrep => ?_⟩⟩
    · rw [List.zipIdx_cons, List.foldlM_cons]
      simp only [hx, hr, bind, Except.bind, pure, Except.pure]
      simp only [bind, Except.bind, pure, Except.pure] at h1
      exact h1
    · rw [(h2 i j).1 fun c' h' => h c' (by simp [h'])]
      have hn : ¬ c.Rep i j := h c (by simp)
      simp only [Comp.Rep, not_or, not_and] at hn
      have h3 : [i, j] ≠ [c.i, c.j] := by
        intro e; simp only [List.cons.injEq, and_true] at e; exact hn.1 e.1.symm e.2.symm
      have h4 : [i, j] ≠ [c.j, c.i] := by
        intro e; simp only [List.cons.injEq, and_true] at e; exact hn.2 e.2.symm e.1.symm
      split <;> simp [Tensor.set, h3, h4]
    · cases p with
      | zero =>
        simp only [List.getElem_cons_zero] at hrep
        rw [(h2 i j).1 fun c' h' => (List.pairwise_cons.1 hpw).1 c' h' i j hrep]
        rcases hrep with ⟨rfl, rfl⟩ | ⟨rfl, rfl⟩ <;> split <;>
          simp_all [Tensor.set]
      | succ p =>
        simp only [List.getElem_cons_succ] at hrep
        rw [(h2 i j).2 p (by simpa using hp) hrep]
        congr 1; omega

theorem completeSym_pairwise {co : List Comp} (h : CompleteSym n co) :
    co.Pairwise (fun c c' => ∀ i j, c.Rep i j → ¬ c'.Rep i j) := by
  refine (List.pairwise_iff_getElem).2 fun a b ha hb hab i j h1 h2 => ?_
  have h3 := h.rep_unique (List.getElem_mem ha) (List.getElem_mem hb) h1 h2
  have := (List.nodup_iff_injective_getElem.1 h.nodup) (a₁ := ⟨a, ha⟩) (a₂ := ⟨b, hb⟩) h3
  simp only [Fin.mk.injEq] at this
  omega

theorem completeSym_bound {co : List Comp} (h : CompleteSym n co) : ∀ c ∈ co, c.i < n ∧ c.j < n := by
  intro c hc
  obtain ⟨a, b, h1, h2, h3, h4, rfl⟩ := h.pair c hc
  simp only [Comp.i, Comp.j, List.getD_cons_zero, List.getD_cons_succ]
  omega

theorem npBuild_symTensor {co : List Comp} (h : CompleteSym n co) {v : List ℝ}
    (hv : co.length ≤ v.length) :
    ∃ t, npBuildTensor n co v = .ok t ∧ ∀ i j : Fin n, t.val [i, j] = symTensor n co v i j := by
  obtain ⟨t, h1, h2⟩ := npBuild_aux (n := n) (v := v) co 0 (Tensor.zeros [n, n]) (completeSym_bound h)
    (by omega) (completeSym_pairwise h)
  refine ⟨t, h1, fun i j => ?_⟩
  obtain ⟨c, hc, hr⟩ := h.exists_rep i.2 j.2
  have hlt := List.idxOf_lt_length_iff.2 hc
  have h3 := (h2 i j).2 (co.idxOf c) hlt (by rwa [List.getElem_idxOf])
  rw [h3, symTensor, findIdx_rep h hc hr, Nat.zero_add]

theorem genIncrement_eq {co : List Comp} (h : CompleteSym n co) {sp : List (List ℝ)} {t : ℕ}
    (ht : t + 1 < sp.length) (hsp : ∀ r ∈ sp, co.length ≤ r.length) :
    genIncrement n co sp (t + 1) =
      .ok (symTensor n co (rowAt sp (t + 1)) - symTensor n co (rowAt sp t)) := by
  have hrow : ∀ u, u < sp.length → sp[u]? = some (rowAt sp u) ∧ co.length ≤ (rowAt sp u).length := by
    intro u hu
    have : rowAt sp u = sp[u] := by
      rw [rowAt, List.getD_eq_getElem?_getD, List.getElem?_eq_getElem hu]; rfl
    rw [this]
    exact ⟨List.getElem?_eq_getElem hu, hsp _ (List.getElem_mem hu)⟩
  obtain ⟨h1, h2⟩ := hrow t (by omega)
  obtain ⟨h3, h4⟩ := hrow (t + 1) ht
  obtain ⟨a, h5, h6⟩ := npBuild_symTensor h h2
  obtain ⟨b, h7, h8⟩ := npBuild_symTensor h h4
  simp only [genIncrement, Nat.add_sub_cancel, h1, h3, orRaise, h5, h7, bind, Except.bind, pure,
    Except.pure, h6, h8]
  rfl

theorem lkelvinComps {co : List Comp} (h : CompleteSym n co) {m : Tensor} (hm : m.shape = [co.length]) :
    ∃ t, getTensorFromMf m n co = .ok t ∧ storeTensorComps co t = kelvinComps co m := by
  obtain ⟨t, h1, -, h3⟩ := getTensorFromMf_sym' h hm
  refine ⟨t, h1, ?_⟩
  rw [storeTensorComps_eq]
  refine List.map_congr_left fun c hc => ?_
  rw [h3 c hc _ _ (Or.inl ⟨rfl, rfl⟩), kFactor]
  by_cases e : c.i = c.j <;> simp [e]
  ring

theorem genFeature_eq {co : List Comp} {features : List (String × ℕ)} {M : RcModel n σ}
    (h : GoodSetting co features M) (s : σ) {f : String × ℕ} (hf : f ∈ features)
    (rows : List (List ℝ)) :
    genFeature n co M s (f, some rows) =
      .ok (f, some (rows ++ [featureRow (recurrentOf co features M false) s f])) := by
  obtain ⟨v, hv⟩ := h.present s f hf
  simp only [genFeature, hv]
  by_cases e : StrainName f.1
  · obtain ⟨h1, h2⟩ := h.sized.strain s f hf e
    obtain ⟨t, h3, h4⟩ := lkelvinComps h.comps (h2 v hv)
    have h5 : assignRow .valueError f.2 (kelvinComps co v) = .ok (kelvinComps co v) :=
      assignRow_self (by simp [kelvinComps, h1])
    simp only [(isStrainVar_iff _).2 e, if_true, h3, h4, h5, bind, Except.bind, pure, Except.pure,
      featureRow, recurrentOf, hv, if_pos e]
  · have h5 : assignRow .valueError f.2 v.entries = .ok v.entries :=
      assignRow_self (h.sized.other s f hf e v hv)
    simp only [mt (isStrainVar_iff _).1 e, h5, bind, Except.bind, pure, Except.pure,
      featureRow, recurrentOf, hv, if_neg e]
    rfl

/-- The variables of the time loop after `m` steps with the states `st`. -/
def accOf (co : List Comp) (features : List (String × ℕ)) (M : RcModel n σ) (st : ℕ → σ) (m : ℕ) :
    GenAcc σ :=
  ⟨st m, List.replicate co.length 0 :: (List.range m).map fun t => kelvinComps co (M.stressMf (st (t + 1))),
    features.map fun f => (f, some (List.replicate f.2 0 :: (List.range m).map fun t =>
      featureRow (recurrentOf co features M false) (st (t + 1)) f)), false⟩

theorem accOf_congr {co : List Comp} {features : List (String × ℕ)} {M : RcModel n σ} {st st' : ℕ → σ}
    {m : ℕ} (h : ∀ t ≤ m, st t = st' t) : accOf co features M st m = accOf co features M st' m := by
  have h1 : ∀ {β : Type} (g : σ → β), (List.range m).map (fun t => g (st (t + 1))) =
      (List.range m).map fun t => g (st' (t + 1)) := by
    intro β g
    refine List.map_congr_left fun t ht => ?_
    have := List.mem_range.1 ht
    rw [h (t + 1) (by omega)]
  simp only [accOf, h m (le_refl _), h1 fun s => kelvinComps co (M.stressMf s)]
  congr 1
  refine List.map_congr_left fun f _ => ?_
  rw [h1 fun s => featureRow (recurrentOf co features M false) s f]

theorem genStep_eq {co : List Comp} {features : List (String × ℕ)} {M : RcModel n σ}
    (h : GoodSetting co features M) {sp : List (List ℝ)} (hsp : ∀ r ∈ sp, co.length ≤ r.length)
    (st : ℕ → σ) {m : ℕ} (hm : m + 1 < sp.length) {a : GenAcc σ} :
    genStep n co M sp (accOf co features M st m) (m + 1) = .ok a ↔
      ∃ s, M.update (symTensor n co (rowAt sp (m + 1)) - symTensor n co (rowAt sp m)) (st m) = .ok s ∧
        ((M.suFail s = true ∧ a = { accOf co features M st m with fail := true }) ∨
          (M.suFail s = false ∧ a = accOf co features M (Function.update st (m + 1) s) (m + 1))) := by
  have hfl : (accOf co features M st m).fail = false := rfl
  have hst : (accOf co features M st m).state = st m := rfl
  simp only [genStep, hfl, Bool.false_eq_true, if_false, bind_ok_iff, genIncrement_eq h.comps hm hsp,
    Except.ok.injEq, exists_eq_left', hst]
  refine exists_congr fun s => and_congr_right fun hs => ?_
  cases hf : M.suFail s with
  | true =>
    simp only [if_true, pure, Except.pure, Except.ok.injEq, true_and, Bool.true_eq_false, false_and,
      or_false]
    exact eq_comm
  | false =>
    simp only [Bool.false_eq_true, if_false, false_and, true_and, false_or]
    obtain ⟨t, h1, h2⟩ := lkelvinComps h.comps (h.sized.stress s)
    have h3 : (accOf co features M st m).feats.mapM (genFeature n co M s) =
        .ok (accOf co features M (Function.update st (m + 1) s) (m + 1)).feats := by
      simp only [accOf, List.mapM_map]
      refine mapM_of_forall fun f hf => ?_
      rw [Function.comp_apply, genFeature_eq h s hf, List.range_succ, List.map_append]
      simp only [List.map_cons, List.map_nil, Function.update_self, List.cons_append]
      congr 5
      refine List.map_congr_left fun t ht => ?_
      have := List.mem_range.1 ht
      rw [Function.update_of_ne (by omega)]
    simp only [bind_ok_iff, h1, h2, h3, Except.ok.injEq, exists_eq_left', pure, Except.pure]
    rw [eq_comm]
    refine Eq.congr_right ?_
    simp only [accOf, Function.update_self, List.range_succ, List.map_append, List.map_cons, List.map_nil,
      List.cons_append]
    congr 3
    refine List.map_congr_left fun t ht => ?_
    have := List.mem_range.1 ht
    rw [Function.update_of_ne (by omega)]

theorem genFold_ok {co : List Comp} {features : List (String × ℕ)} {M : RcModel n σ}
    (h : GoodSetting co features M) {sp : List (List ℝ)} (hsp : ∀ r ∈ sp, co.length ≤ r.length) (m : ℕ)
    (hm : m < sp.length) {a0 a : GenAcc σ} (ha0 : a0 = accOf co features M (fun _ => M.init) 0) :
    (List.range m).foldlM (fun acc t => genStep n co M sp acc (t + 1)) a0 = .ok a ↔
      (∃ st, Trajectory M co (rowAt sp) (m + 1) st ∧ (∀ t, 0 < t → t ≤ m → M.suFail (st t) = false) ∧
        a = accOf co features M st m) ∨
      ∃ st t, t ≤ m ∧ FailsAt co M sp st t ∧
        a = { accOf co features M st (t - 1) with fail := true } := by
  induction m generalizing a with
  | zero =>
    simp only [List.range_zero, List.foldlM_nil, pure, Except.pure, Except.ok.injEq]
    subst ha0
    constructor
    · rintro rfl
      exact Or.inl ⟨fun _ => M.init, ⟨rfl, fun t ht => by omega⟩, fun t h1 h2 => by omega, rfl⟩
    · rintro (⟨st, h1, -, rfl⟩ | ⟨st, t, h1, h2, -⟩)
      · refine accOf_congr fun t ht => ?_
        obtain rfl : t = 0 := by omega
        exact h1.init.symm
      · have := h2.1; omega
  | succ m ih =>
    rw [foldlM_range_succ, bind_ok_iff]
    constructor
    · rintro ⟨b, h1, h2⟩
      rcases (ih (by omega)).1 h1 with ⟨st, h3, h4, rfl⟩ | ⟨st, t, h3, h4, rfl⟩
      · obtain ⟨s, h5, h6⟩ := (genStep_eq h hsp st hm).1 h2
        have htr : Trajectory M co (rowAt sp) (m + 1 + 1) (Function.update st (m + 1) s) := by
          refine ⟨?_, fun t ht => ?_⟩
          · rw [Function.update_of_ne (by omega)]; exact h3.init
          · by_cases e : t = m
            · subst e
              rw [Function.update_self, Function.update_of_ne (by omega)]; exact h5
            · rw [Function.update_of_ne (by omega), Function.update_of_ne (by omega)]
              exact h3.step t (by omega)
        rcases h6 with ⟨h6, rfl⟩ | ⟨h6, rfl⟩
        · refine Or.inr ⟨Function.update st (m + 1) s, m + 1, le_refl _, ⟨by omega, hm, htr, ?_, ?_⟩, ?_⟩
          · rw [Function.update_self]; exact h6
          · intro t h7 h8
            rw [Function.update_of_ne (by omega)]; exact h4 t h7 (by omega)
          · rw [Nat.add_sub_cancel, accOf_congr fun t ht => ?_]
            rw [Function.update_of_ne (by omega)]
        · refine Or.inl ⟨_, htr, fun t h7 h8 => ?_, rfl⟩
          by_cases e : t = m + 1
          · subst e; rw [Function.update_self]; exact h6
          · rw [Function.update_of_ne e]; exact h4 t h7 (by omega)
      · simp only [genStep, if_true, Except.ok.injEq] at h2
        exact Or.inr ⟨st, t, by omega, h4, h2.symm⟩
    · rintro (⟨st, h1, h2, rfl⟩ | ⟨st, t, h1, h2, rfl⟩)
      · refine ⟨_, (ih (by omega)).2 (Or.inl ⟨st, ⟨h1.init, fun t ht => h1.step t (by omega)⟩,
          fun t h3 h4 => h2 t h3 (by omega), rfl⟩), (genStep_eq h hsp st hm).2
          ⟨st (m + 1), h1.step m (by omega), Or.inr ⟨h2 (m + 1) (by omega) (le_refl _), ?_⟩⟩⟩
        rw [Function.update_eq_self]
      · by_cases e : t ≤ m
        · exact ⟨_, (ih (by omega)).2 (Or.inr ⟨st, t, e, h2, rfl⟩), by simp [genStep]⟩
        · obtain rfl : t = m + 1 := by omega
          obtain ⟨h3, h4, h5, h6, h7⟩ := h2
          refine ⟨_, (ih (by omega)).2 (Or.inl ⟨st, ⟨h5.init, fun t ht => h5.step t (by omega)⟩,
            fun t h8 h9 => h7 t h8 (by omega), rfl⟩), (genStep_eq h hsp st hm).2
            ⟨st (m + 1), h5.step m (by omega), Or.inl ⟨h6, rfl⟩⟩⟩

theorem padRows_full {T k : ℕ} {rows : List (List ℝ)} (h : rows.length = T) : padRows T k rows = rows := by
  simp [padRows, h]

theorem cons_range_map {β : Type} (T : ℕ) (z : β) (g : ℕ → β) :
    z :: (List.range T).map (fun t => g (t + 1)) =
      (List.range (T + 1)).map fun t => if t = 0 then z else g t := by
  rw [List.range_succ_eq_map, List.map_cons, List.map_map]
  simp [Function.comp_def]

theorem genPath_fold {co : List Comp} {features : List (String × ℕ)} {M : RcModel n σ}
    {sp : List (List ℝ)} (hne : sp ≠ []) {r : ResponsePath} {b : Bool} :
    genStressPath n co M features sp.length sp = .ok (r, b) ↔
      ∃ a, (List.range (sp.length - 1)).foldlM (fun acc t => genStep n co M sp acc (t + 1))
          (accOf co features M (fun _ => M.init) 0) = .ok a ∧
        r = ⟨sp, padRows sp.length co.length a.stress, a.feats.filterMap fun f =>
          f.2.map fun rows => (f.1.1, padRows sp.length f.1.2 rows)⟩ ∧ b = a.fail := by
  have hT : sp.length ≠ 0 := by simpa using hne
  have h1 : List.range' 1 (sp.length - 1) = (List.range (sp.length - 1)).map fun t => t + 1 := by
    rw [List.range'_eq_map_range]
    exact List.map_congr_left fun t _ => by omega
  simp only [genStressPath, if_neg hT, h1, List.foldlM_map, bind_ok_iff, pure, Except.pure, Except.ok.injEq,
    Prod.mk.injEq]
  have h2 : accOf co features M (fun _ => M.init) 0 = ⟨M.init, [List.replicate co.length 0],
      features.map fun f => (f, some [List.replicate f.2 0]), false⟩ := by
    simp [accOf]
  rw [h2]
  refine exists_congr fun a => and_congr_right fun _ => ?_
  exact ⟨fun h => ⟨h.1.symm, h.2.symm⟩, fun h => ⟨h.1.symm, h.2.symm⟩⟩

/-- C102a: the computation of a response path (of at least one time) reports success exactly if no
state update fails, and then returns the strain path, the stresses and the requested state variables of
the successive states. -/
theorem C102_path {co : List Comp} {features : List (String × ℕ)} {M : RcModel n σ}
    (h : GoodSetting co features M) {sp : List (List ℝ)} (hne : sp ≠ [])
    (hsp : ∀ r ∈ sp, co.length ≤ r.length) {r : ResponsePath} :
    genStressPath n co M features sp.length sp = .ok (r, false) ↔
      ∃ st, Succeeds co M sp st ∧ r = responseOf co features M sp st := by
  have hT : 0 < sp.length := List.length_pos_iff.2 hne
  rw [genPath_fold hne]
  have hresp : ∀ st, responseOf co features M sp st = ⟨sp, padRows sp.length co.length
      (accOf co features M st (sp.length - 1)).stress,
      (accOf co features M st (sp.length - 1)).feats.filterMap fun f =>
          f.2.map fun rows => (f.1.1, padRows sp.length f.1.2 rows)⟩ := by
    intro st
    have hl : sp.length = sp.length - 1 + 1 := by omega
    simp only [accOf, responseOf, List.filterMap_map]
    rw [padRows_full (by simp; omega), cons_range_map (sp.length - 1) (List.replicate co.length 0)
      fun t => kelvinComps co (M.stressMf (st t)), ← hl]
    congr 1
    rw [← List.filterMap_eq_map]
    refine List.filterMap_congr fun f _ => ?_
    simp only [Function.comp_apply, Option.map_some]
    rw [padRows_full (by simp; omega), cons_range_map (sp.length - 1) (List.replicate f.2 0)
      fun t => featureRow (recurrentOf co features M false) (st t) f, ← hl]
  constructor
  · rintro ⟨a, h1, rfl, h2⟩
    rcases (genFold_ok h hsp _ (by omega) rfl).1 h1 with ⟨st, h3, h4, rfl⟩ | ⟨st, t, h3, h4, rfl⟩
    · refine ⟨st, ⟨?_, fun t h5 h6 => h4 t h5 (by omega)⟩, (hresp st).symm⟩
      exact ⟨h3.init, fun t ht => h3.step t (by omega)⟩
    · exact absurd h2 (by simp)
  · rintro ⟨st, ⟨h1, h2⟩, rfl⟩
    refine ⟨accOf co features M st (sp.length - 1), (genFold_ok h hsp _ (by omega) rfl).2
      (Or.inl ⟨st, ⟨h1.init, fun t ht => h1.step t (by omega)⟩, fun t h5 h6 => h2 t h5 (by omega), rfl⟩),
      hresp st, rfl⟩

/-- C102b: it reports failure exactly if a state update fails and those before it do not. -/
theorem C102_path_fails {co : List Comp} {features : List (String × ℕ)} {M : RcModel n σ}
    (h : GoodSetting co features M) {sp : List (List ℝ)} (hne : sp ≠ [])
    (hsp : ∀ r ∈ sp, co.length ≤ r.length) :
    (∃ r, genStressPath n co M features sp.length sp = .ok (r, true)) ↔ ∃ st t, FailsAt co M sp st t := by
  have hT : 0 < sp.length := List.length_pos_iff.2 hne
  simp only [genPath_fold hne]
  constructor
  · rintro ⟨r, a, h1, -, h2⟩
    rcases (genFold_ok h hsp _ (by omega) rfl).1 h1 with ⟨st, h3, h4, rfl⟩ | ⟨st, t, h3, h4, rfl⟩
    · exact absurd h2 (by simp [accOf])
    · exact ⟨st, t, h4⟩
  · rintro ⟨st, t, h1⟩
    exact ⟨_, _, (genFold_ok h hsp _ (by omega) rfl).2 (Or.inr ⟨st, t, by have := h1.2.1; omega, h1, rfl⟩),
      rfl, rfl⟩

theorem recurrentOf_compatible {co : List Comp} {features : List (String × ℕ)} {M : RcModel n σ}
    (h : GoodSetting co features M) (check : Bool) : Compatible (recurrentOf co features M check) :=
  ⟨rfl, h.comps, h.sized, rfl⟩

theorem pathOf_batchOf {co : List Comp} {k : ℕ} {sp : List (List ℝ)} (hk : ∀ r ∈ sp, r.length = k) {t : ℕ}
    (ht : t < sp.length) : symTensor n co (pathOf (batchOf k sp) 0 t) = symTensor n co (rowAt sp t) := by
  have h1 : (rowAt sp t).length = k := by
    rw [rowAt, List.getD_eq_getElem?_getD, List.getElem?_eq_getElem ht]
    exact hk _ (List.getElem_mem ht)
  have h2 : pathOf (batchOf k sp) 0 t = rowAt sp t := by
    refine List.ext_getElem (by simp [pathOf, batchOf, h1]) fun i h3 h4 => ?_
    simp [pathOf, batchOf, h4]
  rw [h2]

/-- C102c: the recurrent constitutive model with the same constitutive model, given the strain path of a
generated sample, returns the stresses and the state variables of the sample. -/
theorem C102_reproduces {co : List Comp} {features : List (String × ℕ)} {M : RcModel n σ}
    (h : GoodSetting co features M) {sp : List (List ℝ)} (hne : sp ≠ [])
    (hsp : ∀ r ∈ sp, r.length = co.length) {r : ResponsePath}
    (hr : genStressPath n co M features sp.length sp = .ok (r, false)) (check : Bool) :
    ∃ y, rcForward (recurrentOf co features M check) (batchOf co.length r.strain) = .ok y ∧
      ∀ t < sp.length, ∀ k, y.val [t, 0, k] =
        (r.stress.getD t [] ++ r.states.flatMap fun f => f.2.getD t []).getD k 0 := by
  obtain ⟨st, ⟨h1, h2⟩, rfl⟩ := (C102_path h hne fun r hr => (hsp r hr).ge).1 hr
  have hC := recurrentOf_compatible h check
  have htr : Trajectory M co (pathOf (batchOf co.length sp) 0) sp.length st := by
    refine ⟨h1.init, fun t ht => ?_⟩
    rw [pathOf_batchOf hsp ht, pathOf_batchOf hsp (by omega)]
    exact h1.step t ht
  have hx : (batchOf co.length sp).shape = [sp.length, 1, co.length] := rfl
  obtain ⟨y, hy⟩ := (C101_returns hC hx (le_refl _)).2 fun i hi => by
    obtain rfl : i = 0 := by omega
    exact ⟨st, htr, fun _ t h3 h4 => h2 t h3 h4⟩
  obtain ⟨h3, h4⟩ := (C101_response hC hx (le_refl _) hy).2 0 (by norm_num) st htr
  refine ⟨y, hy, fun t ht k => ?_⟩
  have hs : (responseOf co features M sp st).stress.getD t [] =
      if t = 0 then List.replicate co.length 0 else kelvinComps co (M.stressMf (st t)) := by
    simp [responseOf, ht]
  have hf : ((responseOf co features M sp st).states.flatMap fun f => f.2.getD t []) =
      features.flatMap fun f => if t = 0 then List.replicate f.2 0
        else featureRow (recurrentOf co features M false) (st t) f := by
    simp only [responseOf, List.flatMap_map]
    refine List.flatMap_congr fun f _ => ?_
    simp [ht]
  rw [hs, hf]
  rcases Nat.eq_zero_or_pos t with rfl | h0
  · rw [h3]
    simp only [if_true]
    have hz : ∀ x ∈ List.replicate co.length (0 : ℝ) ++ features.flatMap fun f => List.replicate f.2 0,
        x = 0 := by
      intro x hx
      simp only [List.mem_append, List.mem_replicate, List.mem_flatMap] at hx
      rcases hx with hx | ⟨f, -, hx⟩
      · exact hx.2
      · exact hx.2
    rw [List.getD_eq_getElem?_getD]
    cases hg : (List.replicate co.length (0 : ℝ) ++ features.flatMap fun f => List.replicate f.2 0)[k]? with
    | none => rfl
    | some x => exact (hz x (List.mem_of_getElem? hg)).symm
  · rw [h4 t h0 ht]
    simp only [h0.ne', if_false]
    rfl

theorem genSample_ok {co : List Comp} {features : List (String × ℕ)} {M : RcModel n σ}
    {draws : ℕ → List (List ℝ)} (k j : ℕ) {r : ResponsePath} {j' : ℕ} :
    genSample n co M features draws k j = .ok (r, j') ↔ j < j' ∧ j' ≤ j + k ∧
      genStressPath n co M features (draws (j' - 1)).length (draws (j' - 1)) = .ok (r, false) ∧
      ∀ i, j ≤ i → i < j' - 1 →
        ∃ r', genStressPath n co M features (draws i).length (draws i) = .ok (r', true) := by
  induction k generalizing j with
  | zero =>
    constructor
    · intro h
      obtain ⟨a, -, h⟩ := bind_ok h
      cases h
    · rintro ⟨h1, h2, -⟩
      omega
  | succ k ih =>
    rw [genSample, bind_ok_iff]
    constructor
    · rintro ⟨⟨r0, b⟩, h1, h2⟩
      cases b with
      | false =>
        simp only [Bool.false_eq_true, if_false, Except.ok.injEq, Prod.mk.injEq] at h2
        obtain ⟨rfl, rfl⟩ := h2
        exact ⟨by omega, by omega, h1, fun i _ _ => by omega⟩
      | true =>
        simp only [if_true] at h2
        obtain ⟨h3, h4, h5, h6⟩ := (ih (j + 1)).1 h2
        refine ⟨by omega, by omega, h5, fun i h7 h8 => ?_⟩
        by_cases e : i = j
        · subst e; exact ⟨r0, h1⟩
        · exact h6 i (by omega) h8
    · rintro ⟨h1, h2, h3, h4⟩
      by_cases e : j' = j + 1
      · subst e
        exact ⟨_, h3, rfl⟩
      · obtain ⟨r', h5⟩ := h4 j (le_refl _) (by omega)
        refine ⟨_, h5, ?_⟩
        simp only [if_true]
        exact (ih (j + 1)).2 ⟨by omega, by omega, h3, fun i h6 h7 => h4 i (by omega) h7⟩

theorem sampled_iff {co : List Comp} {features : List (String × ℕ)} {M : RcModel n σ}
    (h : GoodSetting co features M) {draws : ℕ → List (List ℝ)} (hne : ∀ j, draws j ≠ [])
    (hd : ∀ j, ∀ r ∈ draws j, co.length ≤ r.length) {a b : ℕ} {r : ResponsePath} :
    genSample n co M features draws 10 a = .ok (r, b) ↔ Sampled co features M draws a b r := by
  rw [genSample_ok, Sampled, C102_path h (hne _) (hd _)]
  simp only [C102_path_fails h (hne _) (hd _)]

/-- C102d: the generation of a data set returns exactly if every sample, in turn, has a path without
failure among the next ten strain paths; the samples are the responses of these paths, in order. -/
theorem C102_samples {co : List Comp} {features : List (String × ℕ)} {M : RcModel n σ}
    (h : GoodSetting co features M) {draws : ℕ → List (List ℝ)} (hne : ∀ j, draws j ≠ [])
    (hd : ∀ j, ∀ r ∈ draws j, co.length ≤ r.length) {nPath : ℕ} {l : List ResponsePath} :
    generateResponseDataset n co M features draws nPath = .ok l ↔
      nPath ≠ 0 ∧ l.length = nPath ∧ ∃ used : ℕ → ℕ, used 0 = 0 ∧
        ∀ i (hi : i < l.length), Sampled co features M draws (used i) (used (i + 1)) l[i] := by
  have key : ∀ m (r : List ResponsePath × ℕ),
      (List.range m).foldlM (fun (acc : List ResponsePath × ℕ) _ => do
        let s ← genSample n co M features draws 10 acc.2
        return (acc.1 ++ [s.1], s.2)) ([], 0) = .ok r ↔
      r.1.length = m ∧ ∃ used : ℕ → ℕ, used 0 = 0 ∧ used m = r.2 ∧
        ∀ i (hi : i < r.1.length), Sampled co features M draws (used i) (used (i + 1)) r.1[i] := by
    intro m
    induction m with
    | zero =>
      rintro ⟨l, j⟩
      simp only [List.range_zero, List.foldlM_nil, pure, Except.pure, Except.ok.injEq, Prod.mk.injEq]
      constructor
      · rintro ⟨rfl, rfl⟩
        exact ⟨rfl, fun _ => 0, rfl, rfl, fun i hi => by simp at hi⟩
      · rintro ⟨h1, used, h2, h3, -⟩
        exact ⟨(List.length_eq_zero_iff.1 h1).symm, by rw [← h2, h3]⟩
    | succ m ih =>
      rintro ⟨l, j⟩
      rw [foldlM_range_succ, bind_ok_iff]
      constructor
      · rintro ⟨⟨l0, j0⟩, h1, h2⟩
        obtain ⟨⟨r, j1⟩, h3, h4⟩ := bind_ok h2
        simp only [pure, Except.pure, Except.ok.injEq, Prod.mk.injEq] at h4
        obtain ⟨rfl, rfl⟩ := h4
        obtain ⟨h5, used, h6, h7, h8⟩ := (ih _).1 h1
        dsimp only at h5 h7 h8
        refine ⟨by simp [h5], Function.update used (m + 1) j1, ?_, ?_, ?_⟩
        · rw [Function.update_of_ne (by omega)]; exact h6
        · rw [Function.update_self]
        · intro i hi
          simp only [List.length_append, List.length_cons, List.length_nil] at hi
          by_cases e : i = m
          · subst e
            rw [Function.update_self, Function.update_of_ne (by omega), h7]
            have : (l0 ++ [r])[i] = r := by simp [h5]
            rw [this]
            exact (sampled_iff h hne hd).1 h3
          · rw [Function.update_of_ne (by omega), Function.update_of_ne (by omega)]
            have hi' : i < l0.length := by omega
            have : (l0 ++ [r])[i] = l0[i] := List.getElem_append_left hi'
            rw [this]
            exact h8 i hi'
      · rintro ⟨h1, used, h2, h3, h4⟩
        dsimp only at h1 h3 h4
        obtain ⟨l0, r, rfl⟩ : ∃ l0 r, l = l0 ++ [r] :=
          ⟨l.dropLast, l.getLast (by intro e; rw [e] at h1; simp at h1), (List.dropLast_concat_getLast _).symm⟩
        simp only [List.length_append, List.length_cons, List.length_nil, Nat.add_right_cancel_iff] at h1
        refine ⟨(l0, used m), (ih _).2 ⟨h1, used, h2, rfl, fun i hi => ?_⟩, ?_⟩
        · have := h4 i (by simp; dsimp only at hi; omega)
          rwa [List.getElem_append_left hi] at this
        · have h5 := h4 m (by simp [h1])
          have h6 : (l0 ++ [r])[m]'(by simp [h1]) = r := by simp [← h1]
          rw [h6, h3] at h5
          rw [bind_ok_iff]
          exact ⟨(r, j), (sampled_iff h hne hd).2 h5, rfl⟩
  simp only [generateResponseDataset, bind_ok_iff, raiseIf_ok, pure, Except.pure, Except.ok.injEq]
  constructor
  · rintro ⟨⟨l', j⟩, h1, -, h2, rfl⟩
    obtain ⟨h3, used, h4, -, h5⟩ := (key _ _).1 h1
    exact ⟨h2, h3, used, h4, h5⟩
  · rintro ⟨h1, h2, used, h3, h4⟩
    exact ⟨(l, used nPath), (key _ _).2 ⟨h2, used, h3, rfl, h4⟩, (), h1, rfl⟩

/-! ### Faults -/

theorem slider_good : GoodSetting sliderNet.co sliderNet.features sliderNet.model := by
  refine ⟨sliderNet_compatible.comps, sliderNet_compatible.sized, ?_⟩
  intro s f hf
  obtain rfl : f = ("acc_p_strain", 1) := by simpa [sliderNet] using hf
  exact ⟨_, rfl⟩

theorem slider_rows (x : ℝ) : ∀ r ∈ [[0], [x]], sliderNet.co.length ≤ r.length := by
  intro r hr
  simp only [List.mem_cons, List.not_mem_nil, or_false] at hr
  rcases hr with rfl | rfl <;> simp [sliderNet]

theorem slider_trajectory (x : ℝ) : Trajectory sliderNet.model sliderNet.co (rowAt [[0], [x]]) 2
    fun t => if t = 0 then (0, 0) else (x, |x|) := by
  refine ⟨rfl, fun t ht => ?_⟩
  obtain rfl : t = 0 := by omega
  simp [sliderNet, symTensor, rowAt, Comp.i, Comp.j, List.findIdx_cons]

/-- A data set of two samples, the first after one failed path. -/
example : ∃ l, generateResponseDataset 1 sliderNet.co sliderNet.model sliderNet.features
    (fun j => if j = 0 then [[0], [6]] else [[0], [1]]) 2 = .ok l := by
  refine ⟨List.replicate 2 (responseOf sliderNet.co sliderNet.features sliderNet.model [[0], [1]]
    fun t => if t = 0 then (0, 0) else (1, |1|)), ?_⟩
  rw [C102_samples slider_good (by intro j; split <;> simp)
    (by intro j; split; exacts [slider_rows 6, slider_rows 1])]
  refine ⟨by norm_num, by simp, fun i => if i = 0 then 0 else i + 1, rfl, fun i hi => ?_⟩
  have hs : Succeeds sliderNet.co sliderNet.model [[0], [1]] fun t => if t = 0 then (0, 0) else (1, |1|) :=
    ⟨slider_trajectory 1, fun t h1 _ => by simp [sliderNet, h1.ne']⟩
  simp only [List.length_replicate] at hi
  simp only [List.getElem_replicate]
  interval_cases i
  · refine ⟨by norm_num, by norm_num, ⟨_, hs, rfl⟩, fun j h1 h2 => ?_⟩
    obtain rfl : j = 0 := by simp at h2; omega
    refine ⟨fun t => if t = 0 then (0, 0) else (6, |6|), 1, by norm_num, by norm_num,
      slider_trajectory 6, ?_, fun s h3 h4 => by omega⟩
    simp [sliderNet]; norm_num
  · refine ⟨by norm_num, by norm_num, ⟨_, hs, rfl⟩, fun j h1 h2 => ?_⟩
    simp at h1 h2
    omega

/-- If ten paths fail and the next one does not, the generation raises the error that the number of
trials was reached without success. -/
theorem C102_last_trial_violated : ∃ (draws : ℕ → List (List ℝ)) (r : ResponsePath),
    GoodSetting sliderNet.co sliderNet.features sliderNet.model ∧ (∀ j, (draws j).length = 2) ∧
    genStressPath 1 sliderNet.co sliderNet.model sliderNet.features (draws 10).length (draws 10) =
      .ok (r, false) ∧
    generateResponseDataset 1 sliderNet.co sliderNet.model sliderNet.features draws 1 =
      .error .runtimeError := by
  have hG := slider_good
  let draws : ℕ → List (List ℝ) := fun j => if j < 10 then [[0], [6]] else [[0], [1]]
  have hsp := slider_rows
  have htr := slider_trajectory
  have hfail : ∃ r, genStressPath 1 sliderNet.co sliderNet.model sliderNet.features [[0], [(6 : ℝ)]].length
      [[0], [6]] = .ok (r, true) := by
    refine (C102_path_fails hG (by simp) (hsp 6)).2
      ⟨fun t => if t = 0 then (0, 0) else (6, |6|), 1, by norm_num, by norm_num, htr 6, ?_, ?_⟩
    · simp [sliderNet]; norm_num
    · intro s h1 h2; omega
  have hok : ∃ r, genStressPath 1 sliderNet.co sliderNet.model sliderNet.features [[0], [(1 : ℝ)]].length
      [[0], [1]] = .ok (r, false) := by
    refine ⟨_, (C102_path hG (by simp) (hsp 1)).2
      ⟨fun t => if t = 0 then (0, 0) else (1, |1|), ⟨htr 1, ?_⟩, rfl⟩⟩
    intro t h1 h2
    simp [sliderNet, h1.ne']
  obtain ⟨r', hf'⟩ := hfail
  obtain ⟨r, hr⟩ := hok
  refine ⟨draws, r, hG, fun j => ?_, hr, ?_⟩
  · simp only [draws]; split <;> rfl
  · have key : ∀ k ≤ 10, genSample 1 sliderNet.co sliderNet.model sliderNet.features draws k (10 - k) =
        .error .runtimeError := by
      intro k
      induction k with
      | zero =>
        intro _
        rw [genSample]
        have : draws (10 - 0) = [[0], [1]] := rfl
        rw [this, hr]
        rfl
      | succ k ih =>
        intro hk
        rw [genSample]
        have : draws (10 - (k + 1)) = [[0], [6]] := by
          simp only [draws]; rw [if_pos (by omega)]
        rw [this, hf']
        have h10 : 10 - (k + 1) + 1 = 10 - k := by omega
        rw [h10]
        exact ih (by omega)
    simp only [generateResponseDataset, List.range_one, List.foldlM_cons]
    have := key 10 (le_refl _)
    rw [show 10 - 10 = 0 from rfl] at this
    rw [this]
    rfl

/-- A requested variable that the state does not hold is missing in every sample of at least two
times, where the recurrent model has zeros (`C101_missing_features_violated`). -/
theorem C102_missing_features_violated (p : PType) {d : Props} {E v : ℝ} (hE : d .E = some E)
    (hv : d .v = some v) {a b : List ℝ} {sp : List (List ℝ)}
    (hsp : ∀ r ∈ a :: b :: sp, (symOrder p.dim).length ≤ r.length) :
    ∃ r, genStressPath p.dim (symOrder p.dim) (elasticRc p d) [("acc_p_strain", 1)]
        (a :: b :: sp).length (a :: b :: sp) = .ok (r, false) ∧ r.states = [] := by
  have key : ∀ m ≤ sp.length, ∃ s' st, (List.range (m + 1)).foldlM
      (fun acc t => genStep p.dim (symOrder p.dim) (elasticRc p d) (a :: b :: sp) acc (t + 1))
      (accOf (symOrder p.dim) [("acc_p_strain", 1)] (elasticRc p d) (fun _ => (elasticRc p d).init) 0) =
        .ok ⟨s', st, [(("acc_p_strain", 1), none)], false⟩ := by
    have hstep : ∀ (acc : GenAcc (ElasticState p)) t, t ≤ sp.length → acc.fail = false →
        (∃ o, acc.feats = [(("acc_p_strain", 1), o)]) →
        ∃ s' st, genStep p.dim (symOrder p.dim) (elasticRc p d) (a :: b :: sp) acc (t + 1) =
          .ok ⟨s', st, [(("acc_p_strain", 1), none)], false⟩ := by
      intro acc t ht hf ⟨o, ho⟩
      obtain ⟨s', h1, h2⟩ := elastic_update_ok p hE hv (symTensor p.dim (symOrder p.dim)
        (rowAt (a :: b :: sp) (t + 1)) - symTensor p.dim (symOrder p.dim) (rowAt (a :: b :: sp) t)) acc.state
      obtain ⟨m, h3, -⟩ := lkelvinComps (symOrder_complete p)
        ((elasticNet_compatible p d false).sized.stress s')
      have h3' : getTensorFromMf ((elasticRc p d).stressMf s') p.dim (symOrder p.dim) = .ok m := h3
      have h4 : (elasticRc p d).var "acc_p_strain" s' = none := by simp [elasticRc]
      refine ⟨s', acc.stress ++ [storeTensorComps (symOrder p.dim) m], ?_⟩
      simp only [genStep, hf, Bool.false_eq_true, if_false,
        genIncrement_eq (symOrder_complete p) (show t + 1 < (a :: b :: sp).length by simp; omega) hsp, h1, h2,
        h3', ho, List.mapM_cons, List.mapM_nil, genFeature, h4, bind, Except.bind, pure, Except.pure]
    intro m
    induction m with
    | zero =>
      intro _
      rw [foldlM_range_succ]
      obtain ⟨s', st, h1⟩ := hstep (accOf (symOrder p.dim) [("acc_p_strain", 1)] (elasticRc p d)
        (fun _ => (elasticRc p d).init) 0) 0 (by omega) rfl ⟨_, rfl⟩
      exact ⟨s', st, h1⟩
    | succ m ih =>
      intro hm
      obtain ⟨s', st, h1⟩ := ih (by omega)
      rw [foldlM_range_succ, h1]
      exact hstep ⟨s', st, [(("acc_p_strain", 1), none)], false⟩ (m + 1) hm rfl ⟨_, rfl⟩
  obtain ⟨s', st, h1⟩ := key sp.length (le_refl _)
  refine ⟨_, (genPath_fold (by simp)).2 ⟨_, h1, rfl, rfl⟩, rfl⟩

/-- No samples requested: the average time per path is a division by zero. -/
theorem C102_empty_violated (co : List Comp) (features : List (String × ℕ)) (M : RcModel n σ)
    (draws : ℕ → List (List ℝ)) :
    generateResponseDataset n co M features draws 0 = .error .zeroDivision := rfl

/-- A data set of one sample of the elastic model. -/
example : GoodSetting (symOrder PType.plane.dim) [("e_strain_mf", 3)] (elasticRc .plane demoProps) := by
  refine ⟨symOrder_complete .plane, (elasticNet_compatible .plane demoProps true).sized, ?_⟩
  intro s f hf
  obtain rfl : f = ("e_strain_mf", 3) := by simpa using hf
  exact ⟨_, rfl⟩

end Hooke
