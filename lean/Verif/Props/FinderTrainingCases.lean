import Verif.Props.FinderTraining
import Verif.Props.CompositeParametersCases

/-!
# C119: cases and violations
-/

namespace Hooke

open Spec

/-- A training of one number `x`, the parameter `E`, with the given loss and optimiser. -/
noncomputable def numberCfg (nMax : ℕ) (isExplicit : Bool) (stopping : Option StopCriterion)
    (loss : ℝ → Fl) (opt : ℕ → ℝ → ℝ) : FinderCfg ℝ :=
  ⟨nMax, isExplicit, none, stopping, loss, opt, ⟨.ok, .ok, fun x => .ok [("E", x)]⟩⟩

theorem numberCfg_bound (nMax : ℕ) (b : Bool) (st : Option StopCriterion) (loss : ℝ → Fl)
    (opt : ℕ → ℝ → ℝ) (x : ℝ) : boundParams (numberCfg nMax b st loss opt) x = .ok x := by
  cases b <;> rfl

/-- The hypotheses of `C119_training` for a number `x` that is halved in each epoch. -/
theorem numberCfg_training (nMax : ℕ) (st : Option StopCriterion) (loss : ℝ → Fl)
    (opt : ℕ → ℝ → ℝ) (m : ℕ → ℝ) (hm : ∀ e, m (e + 1) = opt e (m e))
    (hl : StartsFinite fun e => loss (m e)) (ht : ∀ c, st = some c → 0 < c.trigger) :
    TrainingOf (numberCfg nMax true st loss opt) (m 0) m ["E"] fun e => [("E", m e)] where
  traj := ⟨numberCfg_bound .., fun e => by
    unfold finderUpdate
    rw [numberCfg_bound, hm e]
    rfl⟩
  params := fun _ _ => ⟨rfl, rfl⟩
  noParams := fun h => by cases h
  nodup := by simp
  finite := hl
  save := by simp [numberCfg]
  nonempty := fun _ _ => by simp
  trigger := ht

/-- The stopping criterion for a number that is halved in each epoch, with an absolute value of one at
the start: the relative change is always a half. -/
example (nMax : ℕ) (c : StopCriterion) (hc : 0 < c.trigger) :
    ∃ S, finderTrain (numberCfg nMax true (some c) (fun x => .fin (x ^ 2)) fun _ x => x / 2) 1 = .ok S ∧
      S.losses.length ≤ nMax + 1 ∧ S.bestParams = some [("E", S.model)] := by
  have T := numberCfg_training nMax (some c) (fun x => .fin (x ^ 2)) (fun _ x => x / 2)
    (fun e => (1 / 2) ^ e) (fun e => by show ((1 : ℝ) / 2) ^ (e + 1) = (1 / 2) ^ e / 2; ring)
    ⟨⟨_, rfl⟩, fun i h => by cases h⟩ (fun c' h => by cases h; exact hc)
  rw [pow_zero] at T
  obtain ⟨S, E, h1, h2, h3, h4, -, h5, ⟨j, hj, -, h6⟩, -⟩ := C119_training T
  refine ⟨S, h1, by
    have : E ≤ nMax := h3.1
    rw [h4]
    simpa using this, ?_⟩
  have hjE : j = E := by
    obtain ⟨μ, hμ, hle, hlj, -⟩ := hj
    by_contra hne
    have := hμ.2 E le_rfl _ rfl
    simp only [numberCfg, Fl.fin.injEq] at hlj
    rw [← hlj] at this
    have hlt : ((1 : ℝ) / 2) ^ E < (1 / 2) ^ j :=
      pow_lt_pow_right_of_lt_one₀ (by norm_num) (by norm_num) (by omega)
    have hp : (0 : ℝ) < (1 / 2) ^ E := by positivity
    nlinarith
  rw [h6, hjE, h5]
  rfl

/-- **C119 is violated for the best state.** The loss of an epoch is that of the state before the
step, but the state and the parameters after the step are saved as the best ones: for a number with
loss `|x - 1|` that starts at `1` and is moved to `2`, the best loss is zero, the state `2` with loss
one is saved, and `2` is the best value of the parameter. -/
theorem C119_best_violated :
    ∃ S, finderTrain (numberCfg 1 true none (fun x => .fin |x - 1|) fun _ _ => 2) 1 = .ok S ∧
      finderReturn (numberCfg 1 true none (fun x => .fin |x - 1|) fun _ _ => 2) S
        = .ok (some [("E", 2)], .fin 0, 0) ∧
      S.best = some (0, 2) ∧ (numberCfg 1 true none (fun x => .fin |x - 1|) fun _ _ => 2).loss 2 = .fin 1 := by
  have T := numberCfg_training 1 none (fun x => .fin |x - 1|) (fun _ _ => 2)
    (fun e => if e = 0 then 1 else 2) (fun e => by simp) ⟨⟨_, rfl⟩, fun i h => by cases h⟩ (by simp)
  obtain ⟨S, E, h1, h2, h3, h4, -, h5, ⟨j, hj, hb, h6⟩, -, k, hk, h7⟩ := C119_training T
  have hE : E = 1 := by
    rcases h3.2.1 with h | ⟨-, c, hc, -⟩
    · exact h
    · cases hc
  have hmin : ∀ i, LastBest (fun e : ℕ => (numberCfg 1 true none (fun x => .fin |x - 1|)
      fun _ _ => 2).loss (if e = 0 then 1 else 2)) 1 i ∨ FirstBest (fun e : ℕ => (numberCfg 1 true none
        (fun x => .fin |x - 1|) fun _ _ => 2).loss (if e = 0 then 1 else 2)) 1 i → i = 0 := by
    intro i hi
    obtain ⟨μ, hμ, hi1, hiμ⟩ : ∃ μ, IsMinLoss (fun e : ℕ => (numberCfg 1 true none
        (fun x => .fin |x - 1|) fun _ _ => 2).loss (if e = 0 then 1 else 2)) 1 μ ∧ i ≤ 1 ∧
        (numberCfg 1 true none (fun x => .fin |x - 1|) fun _ _ => 2).loss (if i = 0 then 1 else 2)
          = .fin μ := by
      rcases hi with ⟨μ, a, b, c, -⟩ | ⟨μ, a, b, c, -⟩ <;> exact ⟨μ, a, b, c⟩
    by_contra hne
    have h1 := hμ.2 0 (by norm_num) _ rfl
    simp only [numberCfg, if_neg hne, Fl.fin.injEq] at hiμ
    rw [← hiμ] at h1
    norm_num at h1
  rw [hE] at hj hk
  have hj0 := hmin j (.inl hj)
  have hk0 := hmin k (.inr hk)
  subst hE hj0 hk0
  refine ⟨S, ?_, ?_, ?_, ?_⟩
  · simpa using h1
  · rw [h7, if_neg (by norm_num), h6]
    simp [numberCfg]
  · rw [hb]
    simp
  · simp only [numberCfg]
    norm_num

/-- **C119 is violated for a first loss that is not a number.** If the first loss is NaN, every
comparison with the smallest loss fails: no best state is saved, and the best parameters are never
assigned, whatever the later losses. -/
theorem C119_nan_violated (opt : ℕ → ℝ → ℝ) (nMax : ℕ) :
    ∃ S, finderTrain (numberCfg nMax true none (fun x => if x = 0 then .nan else .fin x) opt) 0 = .ok S ∧
      S.best = none ∧
      finderReturn (numberCfg nMax true none (fun x => if x = 0 then .nan else .fin x) opt) S
        = .error .unboundLocal := by
  set cfg := numberCfg nMax true none (fun x => if x = 0 then .nan else .fin x) opt with hcfg
  have epoch : ∀ S : FinderState ℝ, S.losses.length = S.step → S.lossSteps.length = S.step →
      (S.step = 0 → S.model = 0) → (S.losses ≠ [] → S.losses.head? = some .nan) →
      (∃ h, S.histSteps = [("E", h)]) → (∃ h, S.histEpochs = [("E", h)]) →
      S.best = none → S.bestParams = none → S.stop = false →
      ∃ S', finderEpoch cfg ["E"] S = .ok S' ∧ S'.losses.length = S'.step ∧
        S'.lossSteps.length = S'.step ∧ (S'.step = 0 → S'.model = 0) ∧
        (S'.losses ≠ [] → S'.losses.head? = some .nan) ∧ (∃ h, S'.histSteps = [("E", h)]) ∧
        (∃ h, S'.histEpochs = [("E", h)]) ∧ S'.best = none ∧ S'.bestParams = none ∧ S'.stop = false := by
    rintro S a b c d ⟨hs, hhs⟩ ⟨he, hhe⟩ f g k
    have hu : finderUpdate cfg S.epoch S.model = .ok (opt S.epoch S.model) := by
      unfold finderUpdate
      rw [hcfg, numberCfg_bound]
      rfl
    have havg : Fl.mean ((S.lossSteps ++ [cfg.loss S.model]).drop S.step) = cfg.loss S.model := by
      rw [List.drop_left' b, mean_singleton]
    have hhead : (S.losses ++ [cfg.loss S.model]).head? = some .nan := by
      cases hl : S.losses with
      | nil =>
        rw [hl] at a
        simp only [List.length_nil] at a
        rw [c a.symm]
        simp [hcfg, numberCfg]
      | cons y ys =>
        have := d (by rw [hl]; simp)
        rw [hl] at this
        simpa using this
    have hmin : pyMin (S.losses ++ [cfg.loss S.model]) = .ok .nan := by
      cases hl : S.losses ++ [cfg.loss S.model] with
      | nil => rw [hl] at hhead; cases hhead
      | cons y ys =>
        rw [hl] at hhead
        simp only [List.head?_cons, Option.some.injEq] at hhead
        subst hhead
        unfold pyMin
        have : ∀ l : List Fl, l.foldl (fun m x => open Classical in if Fl.lt x m then x else m) Fl.nan
            = Fl.nan := by
          intro l
          induction l with
          | nil => rfl
          | cons z zs ih =>
            have hz : ¬ Fl.lt z .nan := by cases z <;> simp [Fl.lt]
            rw [List.foldl_cons, if_neg hz, ih]
        exact congrArg Except.ok (this ys)
    unfold finderEpoch
    rw [hu]
    have hx : cfg.isExplicit = true := rfl
    have hse : cfg.saveEvery = none := rfl
    have hst : cfg.stopping = none := rfl
    have hle : ¬ Fl.le (cfg.loss S.model) .nan := by
      cases cfg.loss S.model <;> simp [Fl.le]
    have hdet : ∀ x, cfg.ops.detached x = .ok [("E", x)] := fun _ => rfl
    simp only [bind, Except.bind, recordStep, hx, if_true, hdet, appendValues, List.foldlM_cons,
      List.foldlM_nil, hhs, KDict.get?, orRaise, KDict.put, pure, Except.pure, recordEpoch, hhe,
      finderSaveEvery, hse, finderSaveBest, havg, hmin, finderCheck, hst]
    rw [if_neg (by rw [havg]; exact hle)]
    refine ⟨_, rfl, ?_, ?_, ?_, fun _ => hhead, ⟨_, rfl⟩, ⟨_, rfl⟩, f, g, k⟩
    · simp [a]
    · simp [b]
    · intro h; simp at h
  have loop : ∀ rem (S : FinderState ℝ), S.losses.length = S.step → S.lossSteps.length = S.step →
      (S.step = 0 → S.model = 0) → (S.losses ≠ [] → S.losses.head? = some .nan) →
      (∃ h, S.histSteps = [("E", h)]) → (∃ h, S.histEpochs = [("E", h)]) →
      S.best = none → S.bestParams = none → S.stop = false →
      ∃ S', finderLoop cfg ["E"] rem S = .ok S' ∧ S'.best = none ∧ S'.bestParams = none := by
    intro rem
    induction rem with
    | zero =>
      intro S a b c d e f g h i
      obtain ⟨S', q, -, -, -, -, -, -, q1, q2, -⟩ := epoch S a b c d e f g h i
      exact ⟨S', q, q1, q2⟩
    | succ rem ih =>
      intro S a b c d e f g h i
      obtain ⟨S', q, a', b', c', d', e', f', g', h', i'⟩ := epoch S a b c d e f g h i
      unfold finderLoop
      rw [q]
      simp only [bind, Except.bind, i', Bool.false_eq_true, if_false]
      obtain ⟨S'', r1, r2⟩ := ih { S' with epoch := S'.epoch + 1 } a' b' c' d' e' f' g' h' i'
      rw [i'] at r1
      exact ⟨S'', r1, r2⟩
  obtain ⟨S, h1, h2, h3⟩ := loop nMax
    ⟨0, [], [], [("E", [])], [("E", [])], none, none, [], false, 0, 0⟩ rfl rfl (fun _ => rfl)
    (fun h => absurd rfl h) ⟨_, rfl⟩ ⟨_, rfl⟩ rfl rfl rfl
  refine ⟨{ S with saved := S.saved ++ [(S.epoch, S.model)] }, ?_, h2, ?_⟩
  · unfold finderTrain
    rw [hcfg, numberCfg_bound]
    simp only [bind, Except.bind]
    rw [← hcfg]
    have hk : initialKeys cfg (0 : ℝ) = .ok ["E"] := rfl
    have hn : cfg.nMax = nMax := rfl
    simp only [hk, hn, List.map_cons, List.map_nil, h1]
  · unfold finderReturn
    have : cfg.isExplicit = true ∧ S.bestParams = none := ⟨rfl, h3⟩
    simp [raiseIf, this, bind, Except.bind]

/-- **C119 is violated for `n_max_epochs = 0`.** The average time per epoch divides by the number of
the last epoch: every training of one epoch fails after its last file has been written. -/
theorem C119_single_epoch_violated {σ : Type} {cfg : FinderCfg σ} {m0 : σ} {m : ℕ → σ}
    {keys : List String} {ph : ℕ → PyDict ℝ} (T : TrainingOf cfg m0 m keys ph) (h0 : cfg.nMax = 0) :
    ∃ S, finderTrain cfg m0 = .ok S ∧ finderReturn cfg S = .error .zeroDivision := by
  obtain ⟨S, E, h1, -, h3, -, -, -, -, -, k, -, h7⟩ := C119_training T
  have : E = 0 := by have := h3.1; omega
  exact ⟨S, h1, by rw [h7, if_pos this]⟩

/-- **C119 is violated for a trigger of zero.** The slice of the last zero changes is the whole
history, so one early change above the tolerance keeps the training from stopping, although the
parameter has not changed since. -/
theorem C119_trigger_violated (n : ℕ) (tol : ℝ) (ht : tol ≤ 1) :
    ∃ status, checkConvergence ⟨tol, 0, 0⟩ [("E", 1 :: List.replicate (n + 1) 2)]
      = .ok (false, status) := by
  have hp : paramConverged ⟨tol, 0, 0⟩ (1 :: List.replicate (n + 1) (2 : ℝ)) = false := by
    unfold paramConverged
    rw [if_pos (by simp), if_pos (by simp), decide_eq_false_iff_not]
    intro h
    have := h (changeOf 1 2) (by simp [lastEntries, changesOf, List.replicate_succ])
    have h1 : changeOf 1 2 = 1 := by rw [changeOf_eq]; norm_num [Spec.change]
    rw [h1] at this
    linarith
  refine ⟨[("E", paramStatus ⟨tol, 0, 0⟩ (1 :: List.replicate (n + 1) 2))], ?_⟩
  unfold checkConvergence
  simp only [List.mapM_cons, List.mapM_nil, bind, Except.bind, pure, Except.pure]
  have hr : raiseIf ((1 : ℝ) :: List.replicate (n + 1) 2 = []) .indexError = .ok () :=
    (raiseIf_ok (u := ())).mpr (by simp)
  simp only [hr, List.getLast?_singleton, orRaise, List.all_cons, hp, Bool.false_and]

/-- **C119 is violated for models without parameters.** The stopping criterion of a model without
explicit parameters refers to a history that was never assigned. -/
theorem C119_no_parameters_violated (c : StopCriterion) : checkConvergence c [] = .error .unboundLocal :=
  rfl

theorem paramHistory_aux (epochs : List (List ℝ)) (steps means : List ℝ) (p : ℝ) :
    (epochs.foldl historyEpoch (steps ++ [p], means, steps.length)).2.1 = means ++ meansFrom p epochs := by
  induction epochs generalizing steps means p with
  | nil => simp [meansFrom]
  | cons v vs ih =>
    obtain ⟨steps', e1, e2⟩ : ∃ steps', steps ++ [p] ++ v = steps' ++ [(p :: v).getLast (by simp)] ∧
        steps'.length = steps.length + v.length := by
      refine ⟨steps ++ (p :: v).dropLast, ?_, by simp⟩
      rw [List.append_assoc, List.append_assoc, List.dropLast_append_getLast]
      rfl
    have hmean : meanR (p :: v) = (p + v.sum) / (v.length + 1) := by simp [meanR]
    have : historyEpoch (steps ++ [p], means, steps.length) v
        = (steps' ++ [(p :: v).getLast (by simp)], means ++ [(p + v.sum) / (v.length + 1)],
            steps'.length) := by
      unfold historyEpoch
      simp only [e2]
      rw [← e1, List.append_assoc, List.drop_left' rfl, ← hmean]
      rfl
    rw [List.foldl_cons, this, ih, meansFrom]
    simp

/-- **C119.** What the trainings of recurrent constitutive and hybrid models record for a parameter:
its initial value, and for each epoch the mean of the value before the epoch and the values after the
steps. -/
theorem C119_parameter_history (init : ℝ) (epochs : List (List ℝ)) :
    paramHistory init epochs = init :: meansFrom init epochs := by
  have := paramHistory_aux epochs [] [init] init
  simpa [paramHistory] using this

/-- **C119 is violated for the parameters of recurrent constitutive and hybrid models.** The value
recorded for an epoch is not the mean of the values after its steps: with one step per epoch it is the
mean of the values before and after the step, so it differs from the only value of the epoch whenever
the parameter changes. -/
theorem C119_parameter_history_violated (init v w : ℝ) (hv : v ≠ init) (hw : w ≠ v) :
    paramHistory init [[v], [w]] = [init, (init + v) / 2, (v + w) / 2] ∧
      (init + v) / 2 ≠ v ∧ (v + w) / 2 ≠ w := by
  refine ⟨?_, fun h => hv (by linarith), fun h => hw (by linarith)⟩
  rw [C119_parameter_history]
  norm_num [meansFrom]

/-- **C119 is violated for both stopping criteria at once.** When the early stopping criterion of a
recurrent constitutive model is met, the best validated state is restored.  If the convergence of the
parameters is checked as well and they have not converged, the training goes on from the restored
state. -/
theorem C119_both_criteria_violated (prev : Bool) :
    rcEpochEnd true true prev (some true) false = (false, true, false) := by
  rfl

/-- With one criterion only the training ends exactly when that criterion is met. -/
theorem C119_one_criterion (prev e c : Bool) :
    (rcEpochEnd true false prev (some e) c).2.2 = e ∧ (rcEpochEnd true false prev (some e) c).2.1 = e ∧
      (rcEpochEnd false true prev none c).2.2 = c ∧ (rcEpochEnd false true prev none c).2.1 = false := by
  cases prev <;> cases e <;> cases c <;> decide

/-- The hypotheses of `C119_bounds`, for one parameter that the optimiser moves out of its bounds. -/
example (nMax : ℕ) : ∃ (cfg : FinderCfg MatModels) (m0 : MatModels), cfg.nMax = nMax ∧
    cfg.isExplicit = true ∧ cfg.ops = finderOps .ok ∧ Specimen m0 ∧
    (∀ e ms, Specimen ms → Specimen (cfg.opt e ms) ∧ finderBounds (cfg.opt e ms) = finderBounds ms) ∧
    (∀ ms, cfg.loss ms = .fin 0) ∧ finderBounds m0 ≠ [] ∧
    finderDetached (cfg.opt 0 m0) = .ok [("model_1_s0", 100)] := by
  let f : LearnState → LearnState := fun s => { s with params := s.params.map fun p => (p.1, 100) }
  refine ⟨⟨nMax, true, none, none, fun _ => .fin 0, fun _ ms => ms.map fun km => (km.1, km.2.mapState f),
    finderOps .ok⟩, [("1", .single (.explicit ⟨false, [("s0", 9)], [("s0", (1, 50))], []⟩))], rfl, rfl, rfl,
    ?_, ?_, fun _ => rfl, ?_, ?_⟩
  · refine ⟨?_, ?_, ?_⟩
    · intro p hp
      have : p = ("model_" ++ "1" ++ "_", ⟨false, [("s0", 9)], [("s0", (1, 50))], []⟩) := by
        simpa [explicitModels, explicitOf] using hp
      rw [this]
      exact (trained_one "s0" 9 1 50 (by norm_num)).2
    · intro k hy hm
      simp at hm
    · simp [explicitModels, explicitOf, labelsOf, KDict.keys]
  · intro e ms h
    have hex : explicitModels (ms.map fun km => (km.1, km.2.mapState f))
        = (explicitModels ms).map fun p => (p.1, f p.2) := explicitModels_map f ms
    have hk : ∀ s, (f s).params.keys = s.params.keys := fun s => by
      simp [f, KDict.keys, Function.comp_def]
    refine ⟨⟨?_, named_map f h.named, ?_⟩, ?_⟩
    · intro p hp
      have hp' : p ∈ (explicitModels ms).map fun p => (p.1, f p.2) := by rw [← hex]; exact hp
      obtain ⟨q, hq, rfl⟩ := List.mem_map.1 hp'
      obtain ⟨isNorm, ps, h1, h2⟩ := h.trained q hq
      exact ⟨isNorm, ps, h1, .step _ (fun _ => 100) h2⟩
    · show (labelsOf (explicitModels (ms.map fun km => (km.1, km.2.mapState f)))).Nodup
      rw [hex]
      unfold labelsOf
      rw [List.flatMap_map]
      simp only [hk]
      exact h.distinct
    · show finderBounds (ms.map fun km => (km.1, km.2.mapState f)) = finderBounds ms
      unfold finderBounds
      rw [finder_bounds_aux, finder_bounds_aux, hex]
      unfold flatItems
      rw [List.flatMap_map]
  · intro h
    have := congrArg List.length h
    simp [finderBounds, matBounds, subBounds, putLabelled, KDict.put] at this
  · have e1 : "model_" ++ "1" ++ "_" ++ "s0" = "model_1_s0" := by decide +kernel
    simp only [List.map_cons, List.map_nil, MatModel.mapState, SubModel.mapState, f, finderDetached,
      matDetached, subDetached, getDetached, List.foldlM_cons, List.foldlM_nil, if_true, bind,
      Except.bind, pure, Except.pure, putLabelled, List.foldl_cons, List.foldl_nil, KDict.put, e1]

end Hooke
