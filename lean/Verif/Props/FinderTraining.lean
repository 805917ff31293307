import Verif.Spec.FinderTraining
import Verif.Props.CompositeParameters
import Verif.Lemmas.TrainingLoop

/-!
# C119: training of the material model finder
-/

namespace Hooke

open Spec

variable {σ : Type}

/-! ### The stopping criterion -/

theorem changeOf_eq (prev next : ℝ) : changeOf prev next = Spec.change prev next := by
  unfold changeOf Spec.change
  rw [abs_abs, abs_div, abs_abs]

theorem changesOf_length (h : List ℝ) : (changesOf h).length = h.length - 1 := by
  simp [changesOf]

theorem changesOf_range (n : ℕ) (v : ℕ → ℝ) :
    changesOf ((List.range (n + 1)).map v)
      = (List.range n).map fun i => Spec.change (v i) (v (i + 1)) := by
  apply List.ext_getElem
  · simp [changesOf]
  · intro i h1 h2
    simp [changesOf, changeOf_eq]

/-- **C119.** The criterion for one parameter: with a positive trigger, a history of `n + 1` values is
converged exactly when it has more than `trigger` values and its last `trigger` changes are below the
tolerance. -/
theorem paramConverged_iff (c : StopCriterion) (ht : 0 < c.trigger) (n : ℕ) (v : ℕ → ℝ) :
    paramConverged c ((List.range (n + 1)).map v) = true ↔
      c.trigger < n + 1 ∧ ∀ i < n, n ≤ i + c.trigger → Spec.change (v i) (v (i + 1)) < c.tol := by
  unfold paramConverged
  rw [changesOf_range]
  simp only [List.length_map, List.length_range]
  by_cases h1 : c.trigger < n + 1
  · rw [if_pos (by omega), if_pos h1]
    simp only [decide_eq_true_eq, lastEntries, if_neg ht.ne', List.length_map, List.length_range]
    refine ⟨fun h => ⟨h1, fun i hi hi' => ?_⟩, fun h r hr => ?_⟩
    · refine h _ (List.mem_iff_getElem.2 ⟨i - (n - c.trigger), by simp; omega, ?_⟩)
      have : n - c.trigger + (i - (n - c.trigger)) = i := by omega
      simp [this]
    · obtain ⟨j, hj, rfl⟩ := List.mem_iff_getElem.1 hr
      simp only [List.length_drop, List.length_map, List.length_range] at hj
      simp only [List.getElem_drop, List.getElem_map, List.getElem_range]
      exact h.2 _ (by omega) (by omega)
  · have : ¬ c.trigger < n + 1 := h1
    rw [if_neg this]
    simp [h1]

theorem checkConvergence_eq (c : StopCriterion) (keys : List String) (hk : keys ≠ [])
    (v : String → ℕ → ℝ) (n : ℕ) :
    ∃ status b, checkConvergence c (keys.map fun k => (k, (List.range (n + 1)).map (v k)))
        = .ok (b, status) ∧ (b = true ↔ c.minLen < n + 1 ∧
          ∀ k ∈ keys, paramConverged c ((List.range (n + 1)).map (v k)) = true) ∧
      status = keys.map fun k => (k, paramStatus c ((List.range (n + 1)).map (v k))) := by
  have hm : (keys.map fun k => (k, (List.range (n + 1)).map (v k))).mapM
      (fun p => (do
        raiseIf (p.2 = []) .indexError
        .ok (p.1, paramStatus c p.2) : Py (String × Bool × Option ℝ × Option ℝ)))
      = .ok (keys.map fun k => (k, paramStatus c ((List.range (n + 1)).map (v k)))) := by
    rw [List.mapM_map]
    refine mapM_of_forall fun k _ => ?_
    have : ¬ (List.range (n + 1)).map (v k) = [] := by simp
    simp only [Function.comp, (raiseIf_ok (u := ())).mpr this, bind, Except.bind]
  obtain ⟨k0, hk0⟩ : ∃ k0, (keys.map fun k => (k, (List.range (n + 1)).map (v k))).getLast?
      = some (k0, (List.range (n + 1)).map (v k0)) := by
    refine ⟨keys.getLast hk, ?_⟩
    rw [List.getLast?_map, List.getLast?_eq_getLast_of_ne_nil hk]
    rfl
  refine ⟨_, ((keys.map fun k => (k, (List.range (n + 1)).map (v k))).all
    (fun p => paramConverged c p.2) && decide (c.minLen < ((List.range (n + 1)).map (v k0)).length)),
    ?_, ?_, rfl⟩
  · unfold checkConvergence
    rw [hm]
    simp only [bind, Except.bind, hk0, orRaise]
  · simp [List.all_map, and_comm]

/-- **C119.** For histories of the same number `n + 1` of epochs and a positive trigger, the criterion
holds exactly when more than `minLen` and `trigger` values have been recorded and none of the last
`trigger` changes of any parameter reaches the tolerance. -/
theorem C119_criterion (c : StopCriterion) (ht : 0 < c.trigger) (keys : List String) (hk : keys ≠ [])
    (v : String → ℕ → ℝ) (n : ℕ) :
    ∃ status b, checkConvergence c (keys.map fun k => (k, (List.range (n + 1)).map (v k)))
        = .ok (b, status) ∧ (b = true ↔ ConvergedAt c keys v n) ∧ status.keys = keys := by
  obtain ⟨status, b, h1, h2, h3⟩ := checkConvergence_eq c keys hk v n
  refine ⟨status, b, h1, h2.trans ?_, ?_⟩
  · unfold ConvergedAt
    constructor
    · rintro ⟨h4, h5⟩
      obtain ⟨k, hk'⟩ := List.exists_mem_of_ne_nil _ hk
      exact ⟨h4, ((paramConverged_iff c ht n _).1 (h5 k hk')).1, fun key hkey =>
        ((paramConverged_iff c ht n _).1 (h5 key hkey)).2⟩
    · rintro ⟨h4, h5, h6⟩
      exact ⟨h4, fun key hkey => (paramConverged_iff c ht n _).2 ⟨h5, h6 key hkey⟩⟩
  · rw [h3]
    simp [KDict.keys, Function.comp_def]

/-- **C119.** The reported status of a parameter with at least two values: the last change in absolute
terms, and relative to the previous value if that exceeds `1e-8`. -/
theorem C119_status (c : StopCriterion) (n : ℕ) (v : ℕ → ℝ) :
    paramStatus c ((List.range (n + 2)).map v)
      = (paramConverged c ((List.range (n + 2)).map v), some |v (n + 1) - v n|,
        open Classical in if 1e-8 < |v n| then some (|v (n + 1) - v n| / |v n|) else none) ∧
    paramStatus c [v 0] = (false, none, none) := by
  constructor
  · unfold paramStatus
    have e1 : ((List.range (n + 2)).map v)[(List.range (n + 2)).length - 2]? = some (v n) := by simp
    have e2 : ((List.range (n + 2)).map v)[(List.range (n + 2)).length - 1]? = some (v (n + 1)) := by
      simp
    rw [if_pos (by simp)]
    simp only [List.length_map, e1, e2, Option.getD_some, changeOf_eq, Spec.change]
    split_ifs with h
    · rfl
    · rfl
  · simp [paramStatus]

/-! ### Recording -/

theorem appendValues_hist (keys : List String) (hn : keys.Nodup) (h : String → List ℝ)
    (items : PyDict ℝ) (hi : items.keys = keys) :
    appendValues (keys.map fun k => (k, h k)) items
      = .ok (keys.map fun k => (k, h k ++ [(items.get? k).getD 0])) := by
  subst hi
  have key : ∀ (a b : PyDict ℝ), items = a ++ b →
      b.foldlM (fun h p => (do
        let l ← orRaise (h.get? p.1) .keyError
        .ok (h.put p.1 (l ++ [p.2])) : Py (PyDict (List ℝ))))
        ((a.keys.map fun k => (k, h k ++ [(items.get? k).getD 0])) ++ b.keys.map fun k => (k, h k))
      = .ok (items.keys.map fun k => (k, h k ++ [(items.get? k).getD 0])) := by
    intro a b
    induction b generalizing a with
    | nil =>
      rintro rfl
      simp [KDict.keys, pure, Except.pure]
    | cons p b ih =>
      intro he
      have hnk : items.keys = a.keys ++ p.1 :: KDict.keys b := by rw [he]; simp [KDict.keys]
      have hp : p.1 ∉ a.keys := by
        intro hm
        rw [hnk] at hn
        exact (List.nodup_append.1 hn).2.2 _ hm _ List.mem_cons_self rfl
      have hv : items.get? p.1 = some p.2 := get?_of_mem items hn _ _ (by rw [he]; simp)
      have hpre : ∀ (g : String → List ℝ) (l : List String) (r : PyDict (List ℝ)), p.1 ∉ l →
          KDict.get? (l.map (fun k => (k, g k)) ++ r) p.1 = r.get? p.1 ∧
          ∀ x, KDict.put (l.map (fun k => (k, g k)) ++ r) p.1 x
            = l.map (fun k => (k, g k)) ++ r.put p.1 x := by
        intro g l r
        induction l with
        | nil => intro _; exact ⟨rfl, fun _ => rfl⟩
        | cons k l ihl =>
          intro hnl
          rw [List.mem_cons, not_or] at hnl
          obtain ⟨i1, i2⟩ := ihl hnl.2
          refine ⟨?_, fun x => ?_⟩
          · rw [List.map_cons, List.cons_append, KDict.get?, if_neg (Ne.symm hnl.1)]
            exact i1
          · rw [List.map_cons, List.cons_append, KDict.put, if_neg (Ne.symm hnl.1), i2 x]
            rfl
      obtain ⟨g1, g2⟩ := hpre (fun k => h k ++ [(items.get? k).getD 0]) a.keys
        (KDict.keys (p :: b) |>.map fun k => (k, h k)) hp
      have hb : (KDict.keys (p :: b) |>.map fun k => (k, h k))
          = (p.1, h p.1) :: (KDict.keys b).map fun k => (k, h k) := rfl
      rw [List.foldlM_cons, g1, hb]
      rw [hb] at g2
      simp only [KDict.get?, if_true, orRaise, bind, Except.bind, g2, KDict.put]
      have := ih (a ++ [p]) (by rw [he]; simp)
      simp only [bind, Except.bind, orRaise] at this
      rw [← this]
      congr 1
      simp [KDict.keys, hv]
  exact key [] items rfl

theorem foldlM_keys (keys : List String) (hn : keys.Nodup) (h g : String → List ℝ)
    (f : PyDict (List ℝ) → String → Py (PyDict (List ℝ)))
    (hf : ∀ d k, k ∈ keys → d.get? k = some (h k) → f d k = .ok (d.put k (g k))) :
    keys.foldlM f (keys.map fun k => (k, h k)) = .ok (keys.map fun k => (k, g k)) := by
  have key : ∀ a b, keys = a ++ b →
      b.foldlM f ((a.map fun k => (k, g k)) ++ b.map fun k => (k, h k))
      = .ok (keys.map fun k => (k, g k)) := by
    intro a b
    induction b generalizing a with
    | nil =>
      rintro rfl
      simp [pure, Except.pure]
    | cons p b ih =>
      intro he
      have hp : p ∉ a := by
        intro hm
        rw [he] at hn
        exact (List.nodup_append.1 hn).2.2 _ hm _ List.mem_cons_self rfl
      have hpre : ∀ (l : List String) (r : PyDict (List ℝ)), p ∉ l →
          KDict.get? (l.map (fun k => (k, g k)) ++ r) p = r.get? p ∧
          ∀ x, KDict.put (l.map (fun k => (k, g k)) ++ r) p x
            = l.map (fun k => (k, g k)) ++ r.put p x := by
        intro l r
        induction l with
        | nil => intro _; exact ⟨rfl, fun _ => rfl⟩
        | cons k l ihl =>
          intro hnl
          rw [List.mem_cons, not_or] at hnl
          obtain ⟨i1, i2⟩ := ihl hnl.2
          refine ⟨?_, fun x => ?_⟩
          · rw [List.map_cons, List.cons_append, KDict.get?, if_neg (Ne.symm hnl.1)]
            exact i1
          · rw [List.map_cons, List.cons_append, KDict.put, if_neg (Ne.symm hnl.1), i2 x]
            rfl
      obtain ⟨g1, g2⟩ := hpre a ((p :: b).map fun k => (k, h k)) hp
      rw [List.foldlM_cons, hf _ p (by rw [he]; simp) (by rw [g1]; simp [KDict.get?]), g2]
      have := ih (a ++ [p]) (by rw [he]; simp)
      simp only [bind, Except.bind]
      rw [← this]
      congr 1
      simp [KDict.put]
  simpa using key [] keys rfl

theorem mean_singleton (x : Fl) : Fl.mean [x] = x := by
  rcases x with x | s | _ <;> simp [Fl.mean, Fl.sum, Fl.add, Fl.div, Fl.infTimes, not_lt.2 (zero_le_one' ℝ)]

/-! ### The loop -/

/-- What a training from the trajectory `m` is assumed to do. -/
structure TrainingOf (cfg : FinderCfg σ) (m0 : σ) (m : ℕ → σ) (keys : List String)
    (ph : ℕ → PyDict ℝ) : Prop where
  traj : TrainingStates cfg m0 m
  params : cfg.isExplicit = true → Parameters cfg m keys ph
  noParams : cfg.isExplicit = false → keys = []
  nodup : keys.Nodup
  finite : StartsFinite fun e => cfg.loss (m e)
  save : cfg.saveEvery ≠ some 0
  nonempty : cfg.isExplicit = true → cfg.stopping.isSome = true → keys ≠ []
  trigger : ∀ c, cfg.stopping = some c → 0 < c.trigger

/-- The parameters have converged at an epoch. -/
def ConvAt (cfg : FinderCfg σ) (keys : List String) (ph : ℕ → PyDict ℝ) (e : ℕ) : Prop :=
  cfg.isExplicit = true ∧ ∃ c, cfg.stopping = some c ∧ ConvergedAt c keys (valueAfter ph) e

/-- The histories after `e` epochs. -/
noncomputable def histAfter (keys : List String) (ph : ℕ → PyDict ℝ) (e : ℕ) : PyDict (List ℝ) :=
  keys.map fun k => (k, (List.range e).map (valueAfter ph k))

/-- The state after `e` epochs, apart from the best and saved ones. -/
structure FinderInv (cfg : FinderCfg σ) (m : ℕ → σ) (keys : List String) (ph : ℕ → PyDict ℝ) (e : ℕ)
    (S : FinderState σ) : Prop where
  model : S.model = m e
  lossSteps : S.lossSteps = (List.range e).map fun i => cfg.loss (m i)
  losses : S.losses = (List.range e).map fun i => cfg.loss (m i)
  histSteps : S.histSteps = histAfter keys ph e
  histEpochs : S.histEpochs = histAfter keys ph e
  step : S.step = e
  best : ∀ n, e = n + 1 → ∃ j, LastBest (fun i => cfg.loss (m i)) n j ∧ S.best = some (j, m (j + 1)) ∧
    S.bestParams = if cfg.isExplicit then some (ph (j + 1)) else none
  noBest : e = 0 → S.bestParams = none
  saved : ∀ k x, (k, x) ∈ S.saved ↔ k < e ∧ SavedAt cfg.saveEvery k ∧ x = m (k + 1)

theorem recordStep_ok {cfg : FinderCfg σ} {m0 : σ} {m : ℕ → σ} {keys : List String}
    {ph : ℕ → PyDict ℝ} (T : TrainingOf cfg m0 m keys ph) (e : ℕ) (S : FinderState σ)
    (hm : S.model = m (e + 1)) (hh : S.histSteps = histAfter keys ph e) :
    recordStep cfg S = .ok { S with histSteps := histAfter keys ph (e + 1) } := by
  unfold recordStep
  cases hx : cfg.isExplicit with
  | false =>
    have hk := T.noParams hx
    subst hk
    obtain ⟨_, _, _, _, _, _, _, _, _, _, _⟩ := S
    simp only [histAfter, List.map_nil] at hh ⊢
    subst hh
    rfl
  | true =>
    obtain ⟨h1, h2⟩ := T.params hx (e + 1)
    have h3 := appendValues_hist keys T.nodup (fun k => (List.range e).map (valueAfter ph k))
      (ph (e + 1)) h2
    simp only [if_true, hm, h1, hh, bind, Except.bind, histAfter, h3]
    simp only [List.range_succ, List.map_append, List.map_cons, List.map_nil, valueAfter]

theorem recordEpoch_ok {cfg : FinderCfg σ} {m0 : σ} {m : ℕ → σ} {keys : List String}
    {ph : ℕ → PyDict ℝ} (T : TrainingOf cfg m0 m keys ph) (e : ℕ) (S : FinderState σ)
    (hs : S.histSteps = histAfter keys ph (e + 1)) (hh : S.histEpochs = histAfter keys ph e) :
    recordEpoch cfg keys e S = .ok { S with histEpochs := histAfter keys ph (e + 1) } := by
  unfold recordEpoch
  cases hx : cfg.isExplicit with
  | false =>
    have hk := T.noParams hx
    subst hk
    obtain ⟨_, _, _, _, _, _, _, _, _, _, _⟩ := S
    simp only [histAfter, List.map_nil] at hh ⊢
    subst hh
    rfl
  | true =>
    have hkeys : KDict.keys (histAfter keys ph (e + 1)) = keys := by
      simp [histAfter, KDict.keys, Function.comp_def]
    have h3 := foldlM_keys keys T.nodup (fun k => (List.range e).map (valueAfter ph k))
      (fun k => (List.range (e + 1)).map (valueAfter ph k))
      (fun h key => do
        let e' ← orRaise (h.get? key) .keyError
        let s ← orRaise (S.histSteps.get? key) .keyError
        .ok (h.put key (e' ++ [meanR (s.drop e)]))) (by
        intro d k hk hd
        have hg : S.histSteps.get? k = some ((List.range (e + 1)).map (valueAfter ph k)) := by
          rw [hs]
          exact get?_of_mem _ (by rw [hkeys]; exact T.nodup) _ _ (List.mem_map.2 ⟨k, hk, rfl⟩)
        have hdrop : ((List.range (e + 1)).map (valueAfter ph k)).drop e = [valueAfter ph k e] := by
          rw [List.range_succ, List.map_append, List.drop_left' (by simp)]
          rfl
        have hmean : meanR [valueAfter ph k e] = valueAfter ph k e := by simp [meanR]
        simp only [hd, hg, orRaise, bind, Except.bind, hdrop, hmean]
        rw [List.range_succ, List.map_append]
        rfl)
    simp only [if_true]
    rw [hh]
    unfold histAfter
    rw [h3]
    rfl

/-- One epoch keeps the invariant; the flag is set exactly when the parameters have converged. -/
theorem finderEpoch_ok {cfg : FinderCfg σ} {m0 : σ} {m : ℕ → σ} {keys : List String}
    {ph : ℕ → PyDict ℝ} (T : TrainingOf cfg m0 m keys ph) (e : ℕ) (S : FinderState σ)
    (hI : FinderInv cfg m keys ph e S) (hE : S.epoch = e) (hst : S.stop = false) :
    ∃ S', finderEpoch cfg keys S = .ok S' ∧ FinderInv cfg m keys ph (e + 1) S' ∧ S'.epoch = e ∧
      (S'.stop = true ↔ ConvAt cfg keys ph e) := by
  have hu : finderUpdate cfg S.epoch S.model = .ok (m (e + 1)) := by
    rw [hE, hI.model]
    exact T.traj.2 e
  set loss : ℕ → Fl := fun i => cfg.loss (m i) with hloss
  have hlossS : cfg.loss S.model = loss e := by rw [hI.model]
  have hls : S.lossSteps ++ [cfg.loss S.model] = (List.range (e + 1)).map loss := by
    rw [hI.lossSteps, hlossS, List.range_succ, List.map_append]
    rfl
  have havg : Fl.mean ((S.lossSteps ++ [cfg.loss S.model]).drop S.step) = loss e := by
    rw [hI.step, hI.lossSteps, List.drop_left' (by simp), mean_singleton, hlossS]
  have hlosses : S.losses ++ [loss e] = (List.range (e + 1)).map loss := by
    rw [hI.losses, List.range_succ, List.map_append]
    rfl
  unfold finderEpoch
  rw [hu]
  simp only [bind, Except.bind]
  have r1 := recordStep_ok T e { S with model := m (e + 1), lossSteps := S.lossSteps ++ [cfg.loss S.model] }
    rfl hI.histSteps
  rw [r1]
  simp only [havg]
  have r2 := recordEpoch_ok T e
    { S with model := m (e + 1), lossSteps := S.lossSteps ++ [cfg.loss S.model],
             histSteps := histAfter keys ph (e + 1), step := S.step + 1, losses := S.losses ++ [loss e] }
    rfl hI.histEpochs
  rw [hI.step] at r2 ⊢
  rw [r2]
  simp only []
  -- saving every epochs
  obtain ⟨sv, hsv, hsvm⟩ : ∃ sv, finderSaveEvery cfg
      { S with model := m (e + 1), lossSteps := S.lossSteps ++ [cfg.loss S.model],
               histSteps := histAfter keys ph (e + 1), histEpochs := histAfter keys ph (e + 1),
               step := e + 1, losses := S.losses ++ [loss e] }
      = .ok
      { S with model := m (e + 1), lossSteps := S.lossSteps ++ [cfg.loss S.model],
               histSteps := histAfter keys ph (e + 1), histEpochs := histAfter keys ph (e + 1),
               step := e + 1, losses := S.losses ++ [loss e], saved := sv } ∧
      ∀ k x, (k, x) ∈ sv ↔ k < e + 1 ∧ SavedAt cfg.saveEvery k ∧ x = m (k + 1) := by
    unfold finderSaveEvery
    have hne := T.save
    have hold := hI.saved
    cases hse : cfg.saveEvery with
    | none =>
      rw [hse] at hold
      refine ⟨S.saved, rfl, fun k x => (hold k x).trans ?_⟩
      simp [SavedAt]
    | some q =>
      rw [hse] at hne hold
      cases q with
      | zero => exact absurd rfl hne
      | succ q =>
        simp only [hE]
        by_cases hq : e % (q + 1) = 0
        · refine ⟨S.saved ++ [(e, m (e + 1))], by rw [if_pos hq], fun k x => ?_⟩
          rw [List.mem_append, hold k x, List.mem_singleton, Prod.mk.injEq]
          constructor
          · rintro (⟨h1, h2, h3⟩ | ⟨rfl, rfl⟩)
            · exact ⟨by omega, h2, h3⟩
            · exact ⟨by omega, hq, rfl⟩
          · rintro ⟨h1, h2, rfl⟩
            by_cases hke : k = e
            · subst hke; exact .inr ⟨rfl, rfl⟩
            · exact .inl ⟨by omega, h2, rfl⟩
        · refine ⟨S.saved, by rw [if_neg hq], fun k x => (hold k x).trans ?_⟩
          constructor
          · rintro ⟨h1, h2, h3⟩
            exact ⟨by omega, h2, h3⟩
          · rintro ⟨h1, h2, rfl⟩
            have hke : k ≠ e := by rintro rfl; exact hq h2
            exact ⟨by omega, h2, rfl⟩
  rw [hsv]
  simp only []
  -- saving the best state
  obtain ⟨b, bp, hb, hbest⟩ : ∃ b bp, finderSaveBest cfg (loss e)
      { S with model := m (e + 1), lossSteps := S.lossSteps ++ [cfg.loss S.model],
               histSteps := histAfter keys ph (e + 1), histEpochs := histAfter keys ph (e + 1),
               step := e + 1, losses := S.losses ++ [loss e], saved := sv }
      = .ok
      { S with model := m (e + 1), lossSteps := S.lossSteps ++ [cfg.loss S.model],
               histSteps := histAfter keys ph (e + 1), histEpochs := histAfter keys ph (e + 1),
               step := e + 1, losses := S.losses ++ [loss e], saved := sv, best := b, bestParams := bp } ∧
      ∃ j, LastBest loss e j ∧ b = some (j, m (j + 1)) ∧
        bp = if cfg.isExplicit then some (ph (j + 1)) else none := by
    obtain ⟨μ, hμ, hmin⟩ := pyMin_range T.finite e
    have hle := le_min_iff T.finite hmin
    unfold finderSaveBest
    simp only [hlosses, hE]
    have hμ' : pyMin ((List.range (e + 1)).map loss) = .ok (.fin μ) := hμ
    rw [hμ']
    simp only [bind, Except.bind]
    by_cases hl : loss e = .fin μ
    · have hl' : Fl.le (loss e) (.fin μ) := hle.2 hl
      simp only [if_pos hl']
      cases hx : cfg.isExplicit with
      | false =>
        have hbp : S.bestParams = none := by
          cases e with
          | zero => exact hI.noBest rfl
          | succ e => obtain ⟨j, -, -, h3⟩ := hI.best e rfl; rw [h3, hx]; rfl
        exact ⟨some (e, m (e + 1)), S.bestParams, rfl, e, lastBest_of_min hmin hl, rfl, by simp [hbp]⟩
      | true =>
        obtain ⟨h1, h2⟩ := T.params hx (e + 1)
        exact ⟨some (e, m (e + 1)), some (ph (e + 1)), by simp only [h1, if_true], e,
          lastBest_of_min hmin hl, rfl, rfl⟩
    · have hl' : ¬ Fl.le (loss e) (.fin μ) := fun h => hl (hle.1 h)
      simp only [if_neg hl']
      refine ⟨S.best, S.bestParams, rfl, ?_⟩
      cases e with
      | zero =>
        obtain ⟨i, hi, hi'⟩ := hmin.1
        obtain rfl : i = 0 := by omega
        exact absurd hi' hl
      | succ e =>
        obtain ⟨j, hj, h2, h3⟩ := hI.best e rfl
        exact ⟨j, lastBest_succ hmin hl hj, h2, h3⟩
  rw [hb]
  simp only []
  -- the criterion
  have hinv : ∀ st, FinderInv cfg m keys ph (e + 1)
      { S with model := m (e + 1), lossSteps := S.lossSteps ++ [cfg.loss S.model],
               histSteps := histAfter keys ph (e + 1), histEpochs := histAfter keys ph (e + 1),
               step := e + 1, losses := S.losses ++ [loss e], saved := sv, best := b, bestParams := bp,
               stop := st } := fun st =>
    { model := rfl
      lossSteps := hls
      losses := hlosses
      histSteps := rfl
      histEpochs := rfl
      step := rfl
      best := fun n hn => by
        obtain rfl : e = n := by omega
        exact hbest
      noBest := fun h => by omega
      saved := hsvm }
  unfold finderCheck
  cases hx : cfg.isExplicit with
  | false =>
    refine ⟨_, rfl, ?_, hE, ?_⟩
    · simpa only [hst] using hinv S.stop
    · simp [ConvAt, hx, hst]
  | true =>
    cases hs : cfg.stopping with
    | none =>
      refine ⟨_, rfl, ?_, hE, ?_⟩
      · simpa only [hst] using hinv S.stop
      · simp [ConvAt, hs, hst]
    | some c =>
      obtain ⟨status, r, h1, h2, -⟩ := C119_criterion c (T.trigger c hs) keys
        (T.nonempty hx (by rw [hs]; rfl)) (valueAfter ph) e
      have h1' : checkConvergence c (histAfter keys ph (e + 1)) = .ok (r, status) := h1
      simp only [h1']
      refine ⟨_, rfl, hinv r, hE, ?_⟩
      simp only [ConvAt, hx, hs, Option.some.injEq, true_and, exists_eq_left']
      exact h2

theorem finderLoop_ok {cfg : FinderCfg σ} {m0 : σ} {m : ℕ → σ} {keys : List String}
    {ph : ℕ → PyDict ℝ} (T : TrainingOf cfg m0 m keys ph) (rem e : ℕ) (S : FinderState σ)
    (hI : FinderInv cfg m keys ph e S) (hE : S.epoch = e) (hst : S.stop = false)
    (hbefore : ∀ i < e, ¬ ConvAt cfg keys ph i) :
    ∃ S', finderLoop cfg keys rem S = .ok S' ∧ FinderInv cfg m keys ph (S'.epoch + 1) S' ∧
      StopsAfter (e + rem) (ConvAt cfg keys ph) S'.epoch := by
  induction rem generalizing e S with
  | zero =>
    obtain ⟨S', h1, h2, h3, h4⟩ := finderEpoch_ok T e S hI hE hst
    exact ⟨S', h1, by rw [h3]; exact h2, by rw [h3]; exact ⟨le_rfl, .inl rfl, hbefore⟩⟩
  | succ rem ih =>
    obtain ⟨S', h1, h2, h3, h4⟩ := finderEpoch_ok T e S hI hE hst
    unfold finderLoop
    rw [h1]
    simp only [bind, Except.bind]
    cases hs : S'.stop with
    | true =>
      refine ⟨S', by simp, by rw [h3]; exact h2, ?_⟩
      rw [h3]
      exact ⟨by omega, .inr (h4.1 hs), hbefore⟩
    | false =>
      have hnc : ¬ ConvAt cfg keys ph e := fun h => by rw [h4.2 h] at hs; cases hs
      obtain ⟨S'', g1, g2, g3⟩ := ih (e + 1) { S' with epoch := S'.epoch + 1 }
        ⟨h2.model, h2.lossSteps, h2.losses, h2.histSteps, h2.histEpochs, h2.step, h2.best, h2.noBest,
          h2.saved⟩ (by simp [h3]) hs (by
          intro i hi
          rcases Nat.lt_succ_iff_lt_or_eq.1 hi with h | rfl
          · exact hbefore i h
          · exact hnc)
      rw [hs] at g1
      refine ⟨S'', by simpa using g1, g2, ?_⟩
      rwa [show e + (rem + 1) = e + 1 + rem by omega]

/-- **C119.** A training of the material model finder ends.  It runs the epochs `0, …, E`, where `E` is
`n_max_epochs` or the first epoch at which the parameters have converged.  The loss recorded for an
epoch is the loss of the state before its step; the value recorded for a parameter is its value after
the step, with bounds and constraints enforced.  The last saved best state is the one after the step of
the last epoch with the smallest loss, and the best parameters are those of that state; the states of
the epochs are saved as requested and at the end.  The first epoch with the smallest loss is returned
with its loss, unless `n_max_epochs` is zero. -/
theorem C119_training {cfg : FinderCfg σ} {m0 : σ} {m : ℕ → σ} {keys : List String}
    {ph : ℕ → PyDict ℝ} (T : TrainingOf cfg m0 m keys ph) :
    ∃ S E, finderTrain cfg m0 = .ok S ∧ S.epoch = E ∧
      StopsAfter cfg.nMax (fun e => cfg.isExplicit = true ∧ ∃ c, cfg.stopping = some c ∧
        ConvergedAt c keys (valueAfter ph) e) E ∧
      S.losses = (List.range (E + 1)).map (fun e => cfg.loss (m e)) ∧
      S.histEpochs = keys.map (fun k => (k, (List.range (E + 1)).map (valueAfter ph k))) ∧
      S.model = m (E + 1) ∧
      (∃ j, LastBest (fun e => cfg.loss (m e)) E j ∧ S.best = some (j, m (j + 1)) ∧
        S.bestParams = if cfg.isExplicit then some (ph (j + 1)) else none) ∧
      (∀ k x, (k, x) ∈ S.saved ↔
        x = m (k + 1) ∧ (k = E ∨ (k ≤ E ∧ SavedAt cfg.saveEvery k))) ∧
      ∃ k, FirstBest (fun e => cfg.loss (m e)) E k ∧
        finderReturn cfg S = if E = 0 then .error .zeroDivision
          else .ok (S.bestParams, cfg.loss (m k), k) := by
  have hkeys : initialKeys cfg (m 0) = .ok keys := by
    unfold initialKeys
    cases hx : cfg.isExplicit with
    | false => rw [T.noParams hx]; rfl
    | true =>
      obtain ⟨h1, h2⟩ := T.params hx 0
      simp only [if_true, h1, bind, Except.bind, h2]
  obtain ⟨S, h1, h2, h3⟩ := finderLoop_ok T cfg.nMax 0
    ⟨m 0, [], [], keys.map fun k => (k, []), keys.map fun k => (k, []), none, none, [], false, 0, 0⟩
    { model := rfl
      lossSteps := rfl
      losses := rfl
      histSteps := rfl
      histEpochs := rfl
      step := rfl
      best := fun n hn => by omega
      noBest := fun _ => rfl
      saved := by simp } rfl rfl (by simp)
  rw [Nat.zero_add] at h3
  obtain ⟨j, hj, hb, hbp⟩ := h2.best S.epoch rfl
  obtain ⟨μ, hμ, hmin⟩ := pyMin_range T.finite S.epoch
  obtain ⟨k, hk, hkl, hklt⟩ := firstBest_exists hmin
  refine ⟨{ S with saved := S.saved ++ [(S.epoch, S.model)] }, S.epoch, ?_, rfl, h3, h2.losses,
    h2.histEpochs, h2.model, ⟨j, hj, hb, hbp⟩, fun k x => ?_, k, ⟨μ, hmin, hk, hkl, hklt⟩, ?_⟩
  · unfold finderTrain
    rw [T.traj.1]
    simp only [bind, Except.bind, hkeys, h1]
  · rw [List.mem_append, List.mem_singleton, Prod.mk.injEq, h2.saved, h2.model]
    constructor
    · rintro (⟨a, b, c⟩ | ⟨rfl, rfl⟩)
      · exact ⟨c, .inr ⟨by omega, b⟩⟩
      · exact ⟨rfl, .inl rfl⟩
    · rintro ⟨rfl, rfl | ⟨a, b⟩⟩
      · exact .inr ⟨rfl, rfl⟩
      · exact .inl ⟨by omega, b, rfl⟩
  · unfold finderReturn
    have hno : ¬ (cfg.isExplicit = true ∧ S.bestParams = none) := by
      rintro ⟨hx, hnone⟩
      rw [hbp, hx] at hnone
      cases hnone
    rw [(raiseIf_ok (u := ())).mpr hno]
    have hidx := lossIndex_range (loss := fun e => cfg.loss (m e)) hk hkl hklt
    simp only [bind, Except.bind]
    rw [h2.losses, hμ]
    simp only [hidx]
    by_cases h0 : S.epoch = 0
    · rw [if_pos h0]
      simp [raiseIf, h0]
    · rw [if_neg h0, (raiseIf_ok (u := ())).mpr h0]
      have : cfg.loss (m k) = .fin μ := hkl
      rw [this]

/-! ### Bounds -/

/-- Material models whose explicit parameters are in states of a training and have distinct labels. -/
structure Specimen (ms : MatModels) : Prop where
  trained : ∀ p ∈ explicitModels ms, Trained p.2
  named : Named ms
  distinct : (labelsOf (explicitModels ms)).Nodup

/-- Every collected parameter lies in the bounds under its label. -/
def InBounds (bounds : PyDict (ℝ × ℝ)) (key : String) (x : ℝ) : Prop :=
  ∃ lo hi, bounds.get? key = some (lo, hi) ∧ lo ≤ x ∧ x ≤ hi

theorem map_mapState_id (ms : MatModels) : ms.map (fun km => (km.1, km.2.mapState id)) = ms := by
  have hs : ∀ m : SubModel, m.mapState id = m := by intro m; cases m <;> rfl
  have : ∀ km : String × MatModel, (km.1, km.2.mapState id) = km := by
    rintro ⟨k, m⟩
    cases m with
    | hybrid hy =>
      simp only [MatModel.mapState]
      have : hy.models.map (SubModel.mapState id) = hy.models := by
        conv_rhs => rw [← List.map_id hy.models]
        exact List.map_congr_left fun m _ => hs m
      rw [this]
    | single m => simp only [MatModel.mapState, hs]
  conv_rhs => rw [← List.map_id ms]
  exact List.map_congr_left fun km _ => this km

theorem named_map (f : LearnState → LearnState) {ms : MatModels} (hn : Named ms) :
    Named (ms.map fun km => (km.1, km.2.mapState f)) := by
  intro k hy hm
  obtain ⟨⟨k', m⟩, hkm, he⟩ := List.mem_map.1 hm
  cases m with
  | single m => simp [MatModel.mapState] at he
  | hybrid hy0 =>
    simp only [MatModel.mapState, Prod.mk.injEq, MatModel.hybrid.injEq] at he
    obtain ⟨rfl, rfl⟩ := he
    simpa using hn _ _ hkm

/-- Bounds and constraints keep a specimen; afterwards all parameters are in their bounds. -/
theorem specimen_bound {cfg : FinderCfg MatModels} (hx : cfg.isExplicit = true)
    (ho : cfg.ops = finderOps .ok) {ms : MatModels} (h : Specimen ms) :
    ∃ ms', boundParams cfg ms = .ok ms' ∧ Specimen ms' ∧ finderBounds ms' = finderBounds ms ∧
      ∃ phys, finderDetached ms' = .ok phys ∧ phys.keys = (finderBounds ms).keys ∧
        ∀ key x, phys.get? key = some x → InBounds (finderBounds ms) key x := by
  obtain ⟨ms', phys, phys', h1, -, h3, -, h5, h6, h7, h8, h9⟩ := C118_enforce ms h.trained h.named h.distinct
  have he : finderEnforce ms = .ok (ms.map fun km => (km.1, km.2.mapState clamped)) := by
    rw [finderEnforce_eq]
    exact finder_mapM enforceBounds clamped ms h.named fun p hp => (clamped_facts (h.trained p hp)).1
  rw [h1, Except.ok.injEq] at he
  have hn' : Named ms' := by rw [he]; exact named_map clamped h.named
  have hlab : labelsOf (explicitModels ms') = labelsOf (explicitModels ms) := by
    rw [he, explicitModels_map]
    unfold labelsOf
    rw [List.flatMap_map]
    exact List.flatMap_congr fun p hp => by rw [(clamped_facts (h.trained p hp)).2.2.2.2.1]
  have hc : finderConstrain .ok ms' = .ok ms' := by
    rw [finder_mapM .ok id ms' hn' fun p _ => rfl, map_mapState_id]
  obtain ⟨phys0, c1, c2, -⟩ := C118_labels ms h.trained
  rw [h5, Except.ok.injEq] at c1
  subst c1
  refine ⟨ms', ?_, ⟨h3, hn', by rw [hlab]; exact h.distinct⟩, h7, phys', h6, by rw [h8, c2], ?_⟩
  · unfold boundParams
    rw [if_pos hx, ho]
    simp only [finderOps, h1, bind, Except.bind, hc]
  · intro key y hy
    have hk : key ∈ phys.keys := by
      rw [← h8]
      exact KDict.mem_keys_iff.2 ⟨y, hy⟩
    obtain ⟨x, hxx⟩ := KDict.mem_keys_iff.1 hk
    obtain ⟨lo, hi, y', b1, b2, b3, b4, -⟩ := h9 key x hxx
    rw [hy, Option.some.injEq] at b2
    subst b2
    exact ⟨lo, hi, b1, b3, b4⟩

/-- **C119.** Whatever the optimiser does to the stored values: if it keeps the parameters and their
bounds, and the material models have no constraints, the training runs, and every value in the history
of a parameter, the best parameters, and the parameters of the final state lie in the bounds of the
parameters. -/
theorem C119_bounds (cfg : FinderCfg MatModels) (m0 : MatModels) (hx : cfg.isExplicit = true)
    (ho : cfg.ops = finderOps .ok) (h0 : Specimen m0)
    (hopt : ∀ e ms, Specimen ms → Specimen (cfg.opt e ms) ∧
      finderBounds (cfg.opt e ms) = finderBounds ms)
    (hloss : ∀ ms, boundParams cfg m0 = .ok ms → ∃ x, cfg.loss ms = .fin x)
    (hinf : ∀ ms, cfg.loss ms ≠ .inf true) (hs : cfg.saveEvery ≠ some 0)
    (hne : finderBounds m0 ≠ []) (ht : ∀ c, cfg.stopping = some c → 0 < c.trigger) :
    ∃ S, finderTrain cfg m0 = .ok S ∧
      S.histEpochs.keys = (finderBounds m0).keys ∧
      (∀ key h, S.histEpochs.get? key = some h → h.length = S.losses.length ∧
        ∀ x ∈ h, InBounds (finderBounds m0) key x) ∧
      (∃ best, S.bestParams = some best ∧ best.keys = (finderBounds m0).keys ∧
        ∀ key x, best.get? key = some x → InBounds (finderBounds m0) key x) ∧
      ∃ last, finderDetached S.model = .ok last ∧
        ∀ key x, last.get? key = some x → InBounds (finderBounds m0) key x := by
  let G : Type := { ms : MatModels // Specimen ms ∧ finderBounds ms = finderBounds m0 }
  have key : ∀ g : G, ∃ g' : G, boundParams cfg g.1 = .ok g'.1 ∧ ∃ phys, finderDetached g'.1 = .ok phys ∧
      phys.keys = (finderBounds m0).keys ∧
      ∀ key x, phys.get? key = some x → InBounds (finderBounds m0) key x := by
    rintro ⟨ms, g1, g2⟩
    obtain ⟨ms', a1, a2, a3, phys, a4, a5, a6⟩ := specimen_bound hx ho g1
    rw [g2] at a3 a5 a6
    exact ⟨⟨ms', a2, a3⟩, a1, phys, a4, a5, a6⟩
  choose F hF P hP hK hB using key
  let M : ℕ → G := fun e => Nat.rec (F ⟨m0, h0, rfl⟩)
    (fun e g => F ⟨cfg.opt e g.1, (hopt e g.1 g.2.1).1, ((hopt e g.1 g.2.1).2.trans g.2.2)⟩) e
  let A : ℕ → G := fun e => match e with
    | 0 => ⟨m0, h0, rfl⟩
    | e + 1 => ⟨cfg.opt e (M e).1, (hopt e (M e).1 (M e).2.1).1,
        ((hopt e (M e).1 (M e).2.1).2.trans (M e).2.2)⟩
  have hMA : ∀ e, finderDetached (M e).1 = .ok (P (A e)) := by
    intro e
    cases e with
    | zero => exact hP _
    | succ e => exact hP (A (e + 1))
  have hdet : cfg.ops.detached = finderDetached := by rw [ho]; rfl
  have T : TrainingOf cfg m0 (fun e => (M e).1) (finderBounds m0).keys (fun e => P (A e)) :=
    { traj := ⟨hF ⟨m0, h0, rfl⟩, fun e => hF (A (e + 1))⟩
      params := fun _ e => ⟨by rw [hdet]; exact hMA e, hK (A e)⟩
      noParams := fun h => by rw [hx] at h; cases h
      nodup := by
        rw [(C118_parameters m0 h0.trained h0.distinct).choose_spec.2.2.1]
        exact h0.distinct
      finite := ⟨hloss _ (hF ⟨m0, h0, rfl⟩), fun i => hinf _⟩
      save := hs
      nonempty := fun _ _ h => hne (List.map_eq_nil_iff.1 h)
      trigger := ht }
  obtain ⟨S, E, t1, -, -, t3, t4, t5, ⟨j, -, -, t6⟩, -, -⟩ := C119_training T
  have hval : ∀ k ∈ (finderBounds m0).keys, ∀ e,
      InBounds (finderBounds m0) k (valueAfter (fun e => P (A e)) k e) := by
    intro k hk e
    rw [← hK (A (e + 1))] at hk
    obtain ⟨x, hxx⟩ := KDict.mem_keys_iff.1 hk
    unfold valueAfter
    rw [hxx]
    exact hB _ _ _ hxx
  refine ⟨S, t1, by rw [t4]; simp [KDict.keys, Function.comp_def], fun k h hk => ?_,
    ⟨P (A (j + 1)), by rw [t6, if_pos hx], hK _, hB _⟩, P (A (E + 1)), ?_, hB _⟩
  · rw [t4] at hk
    have hm := mem_of_get? hk
    obtain ⟨k', hk', he⟩ := List.mem_map.1 hm
    rw [Prod.mk.injEq] at he
    obtain ⟨rfl, rfl⟩ := he
    refine ⟨by rw [t3]; simp, fun x hx' => ?_⟩
    obtain ⟨e, -, rfl⟩ := List.mem_map.1 hx'
    exact hval _ hk' e
  · rw [t5]
    exact hMA (E + 1)

/-! ### Histories of the other trainings -/

theorem lossHistory_aux (epochs : List (List ℝ)) (steps means : List ℝ) :
    (epochs.foldl historyEpoch (steps, means, steps.length)).2.1 = means ++ epochs.map meanR := by
  induction epochs generalizing steps means with
  | nil => simp
  | cons v vs ih =>
    have : historyEpoch (steps, means, steps.length) v
        = (steps ++ v, means ++ [meanR v], (steps ++ v).length) := by
      simp [historyEpoch]
    rw [List.foldl_cons, this, ih]
    simp

/-- **C119.** The loss recorded for each epoch is the mean of the losses of its steps. -/
theorem C119_loss_history (epochs : List (List ℝ)) : lossHistory epochs = epochs.map meanR := by
  have := lossHistory_aux epochs [] []
  simpa [lossHistory] using this

end Hooke
