import Verif.Lemmas.TrainingLoop

/-!
# C52, C53: training and early stopping
-/

namespace Hooke

noncomputable section

variable {σ : Type}

/-! ## C52 -/

theorem trainRun_loop {cfg : TrainCfg σ} {d : Dir σ} {a : Ckpt σ} (hd : Represents cfg.name d a)
    (s : σ) {w : ℕ → ℝ} (hsave : cfg.saveEvery ≠ some 0)
    (hloss : StartsFinite fun e => (traj cfg.fit s e).2)
    (hec : ∀ ec, cfg.early = some ec → EarlyOk ec (fun e => (traj cfg.fit s e).1) w ∧
      (cfg.saveEvery ≠ none ∨ a.epoch 0 = none)) :
    ∃ T d' b, trainRun cfg d s = .ok { T with dir := d' } ∧
      LoopPost cfg s (a.save s .init none true) w T ∧ T.epoch ≤ cfg.nMax ∧
      (T.stop = false → T.epoch = cfg.nMax) ∧
      (∀ ec, cfg.early = some ec → ∀ e < T.epoch, ¬ StopsAt ec w e) ∧
      Represents cfg.name T.dir b ∧
      Represents cfg.name d' (b.save T.model .epoch (some T.epoch) true) := by
  obtain ⟨d0, h1, h2⟩ := saved_ok hd s .init none true (by simp)
  have hpre : LoopPre cfg s (a.save s .init none true)
      ⟨d0, s, [], Stopper.start σ, false, 0⟩ :=
    ⟨rfl, rfl, rfl, fun _ _ => rfl, ⟨_, h2, rfl⟩⟩
  obtain ⟨T, h3, h4, h5, h6, h7⟩ := trainLoop_ok (b := a.save s .init none true) hloss hsave hec
    cfg.nMax hpre fun ec _ e he => absurd he (Nat.not_lt_zero e)
  replace h5 : T.epoch ≤ cfg.nMax := by simpa using h5
  replace h6 : T.stop = false → T.epoch = cfg.nMax := by simpa using h6
  have hrep : ∃ b, Represents cfg.name T.dir b := by
    cases hs : T.stop with
    | false => obtain ⟨-, b, hb, -⟩ := h4.go hs; exact ⟨b, hb⟩
    | true => obtain ⟨_, _, _, _, _, b, hb, -⟩ := h4.stopped hs; exact ⟨b, hb⟩
  obtain ⟨b, hb⟩ := hrep
  obtain ⟨d1, h8, h9⟩ := saved_ok hb T.model .epoch (some T.epoch) true (by simp)
  refine ⟨T, d1, b, ?_, h4, h5, h6, h7, hb, h9⟩
  simp only [trainRun, h1, h3, h8, bind, Except.bind]
  rfl

/-- The store held by a directory is unique. -/
theorem represents_unique {name : FName} {d : Dir σ} {a b : Ckpt σ} (ha : Represents name d a)
    (hb : Represents name d b) : a = b := by
  have inj : ∀ {x y : Option σ}, x.map Content.full = y.map Content.full → x = y := by
    intro x y h
    cases x <;> cases y <;> simp_all
  obtain ⟨ad, ai, ae, ab⟩ := a
  obtain ⟨bd, bi, be, bb⟩ := b
  have h1 : ad = bd := inj (ha.default.symm.trans hb.default)
  have h2 : ai = bi := inj (ha.init.symm.trans hb.init)
  have h3 : ae = be := funext fun k => inj ((ha.epoch k).symm.trans (hb.epoch k))
  have h4 : ab = bb := by
    have hk := fun k => inj ((ha.best k).symm.trans (hb.best k))
    simp only at hk
    rcases ab with _ | ⟨k, s⟩
    · rcases bb with _ | ⟨k, s⟩
      · rfl
      · have := hk k; simp at this
    · rcases bb with _ | ⟨k', s'⟩
      · have := hk k; simp at this
      · have h5 := hk k
        simp only [Option.bind_some, if_true] at h5
        split_ifs at h5 with hkk
        subst hkk
        rw [Option.some.inj h5]
  subst h1 h2 h3 h4
  rfl

/-- **C52**. Training without early stopping, in any directory holding any states, from any model
state, with any number of epochs and any losses which start finite: it runs the epochs
`0, …, n_max_epochs`; the best state on disk is that of the last epoch with the smallest loss; the
initial state, the last epoch and the epochs at the save interval can be loaded; and the returned
epoch is the first one with the smallest loss. With `n_max_epochs = 0` the function raises
`ZeroDivisionError` instead of returning. -/
theorem C52_train (cfg : TrainCfg σ) (d : Dir σ) (a : Ckpt σ) (hd : Represents cfg.name d a) (s : σ)
    (hearly : cfg.early = none) (hsave : cfg.saveEvery ≠ some 0)
    (hloss : StartsFinite fun e => (traj cfg.fit s e).2) :
    ∃ T, trainRun cfg d s = .ok T ∧
      T.losses = (List.range (cfg.nMax + 1)).map (fun e => (traj cfg.fit s e).2) ∧
      T.model = (traj cfg.fit s cfg.nMax).1 ∧
      (∃ j, LastBest (fun e => (traj cfg.fit s e).2) cfg.nMax j ∧
        (loadState cfg.name T.dir .best false).1 = .ok (some j, (traj cfg.fit s j).1)) ∧
      (loadState cfg.name T.dir .init false).1 = .ok (some 0, s) ∧
      (loadState cfg.name T.dir .last false).1
        = .ok (some cfg.nMax, (traj cfg.fit s cfg.nMax).1) ∧
      (∀ k ≤ cfg.nMax, SavedAt cfg.saveEvery k →
        (loadState cfg.name T.dir (.int k) false).1 = .ok (some k, (traj cfg.fit s k).1)) ∧
      ∃ k, FirstBest (fun e => (traj cfg.fit s e).2) cfg.nMax k ∧
        trainReturn T = if cfg.nMax = 0 then .error .zeroDivision
          else .ok ((traj cfg.fit s k).2, k) := by
  obtain ⟨T, d', b, h1, h2, h3, h4, h5, h6, h7⟩ := trainRun_loop (w := fun _ => 0) hd s hsave hloss
    (by simp [hearly])
  have hstop : T.stop = false := by
    rw [← Bool.not_eq_true, h2.stops]
    simp [hearly]
  have hE := h4 hstop
  obtain ⟨hm, b', hb', hinv⟩ := h2.go hstop
  obtain rfl := represents_unique h6 hb'
  rw [hE] at hm hinv
  have hfin : ∀ j, (b.save T.model .epoch (some T.epoch) true).epoch j
      = if cfg.nMax < j then none else if j = cfg.nMax then some T.model else b.epoch j := by
    intro j
    rw [hE]
    rfl
  have hlosses := h2.losses
  rw [hE] at hlosses
  refine ⟨_, h1, hlosses, hm, ?_, ?_, ?_, fun k hk hs => ?_, ?_⟩
  · obtain ⟨j, hj, hj'⟩ := hinv.best
    exact ⟨j, hj, load_best h7 hj'⟩
  · exact load_init h7 (show b.init = some s by rw [hinv.init]; rfl)
  · obtain ⟨a', hl, -⟩ := loadState_represents h7 .last false
    obtain ⟨-, hl⟩ := hl
    rcases hl with ⟨j, s', hj, hlast, hr⟩ | ⟨hnone, -⟩
    · rw [hfin] at hj
      have hjn : j = cfg.nMax := by
        by_contra hne
        rcases Nat.lt_or_gt_of_ne hne with hlt | hlt
        · have := hlast _ hlt
          rw [hfin] at this
          simp at this
        · rw [if_pos hlt] at hj; cases hj
      subst hjn
      rw [if_neg (lt_irrefl _), if_pos rfl, hm] at hj
      rw [Option.some.inj hj]
      exact hr
    · have := hnone cfg.nMax
      rw [hfin] at this
      simp at this
  · refine load_int h7 ?_
    rw [hfin, if_neg (by omega)]
    split_ifs with hk'
    · rw [hk', hm]
    · rw [hinv.kept k hk, keptEpoch, if_pos hs]
  · obtain ⟨μ, hμ, hmin⟩ := pyMin_range hloss cfg.nMax
    obtain ⟨k, hk1, hk2, hk3⟩ := firstBest_exists hmin
    refine ⟨k, ⟨μ, hmin, hk1, hk2, hk3⟩, ?_⟩
    have hidx := lossIndex_range hk1 hk2 hk3
    simp only [trainReturn, hlosses, hμ, hidx, bind, Except.bind, hE, raiseIf, hk2]
    split_ifs <;> rfl

/-- **C52** (when they coincide). The epoch of the best state on disk and the reported best epoch are
the same exactly when the smallest loss is attained once. -/
theorem C52_coincide (loss : ℕ → Fl) (n j k : ℕ) (hj : LastBest loss n j) (hk : FirstBest loss n k) :
    j = k ↔ ∀ i ≤ n, loss i = loss j → i = j := by
  obtain ⟨μ, h1, h2, h3, h4⟩ := hj
  obtain ⟨ν, g1, g2, g3, g4⟩ := hk
  obtain rfl := isMinLoss_unique h1 g1
  constructor
  · rintro rfl i hi hij
    rw [h3] at hij
    rcases lt_trichotomy i j with h | h | h
    · exact absurd hij (g4 i h)
    · exact h
    · exact absurd hij (h4 i hi h)
  · intro h
    exact (h k g2 (g3.trans h3.symm)).symm

/-- Two epochs with the same loss: the best state on disk is that of epoch 1, the reported best epoch
is 0. -/
theorem C52_tie_violated : ∃ (cfg : TrainCfg ℕ) (T : TrainState ℕ),
    trainRun cfg [] 0 = .ok T ∧ (loadState cfg.name T.dir .best false).1 = .ok (some 1, 2) ∧
    trainReturn T = .ok (.fin 5, 0) := by
  let cfg : TrainCfg ℕ := ⟨"m".toList, 1, none, none, fun _ x => (x + 1, .fin 5)⟩
  have hl : ∀ e, (traj cfg.fit 0 e).2 = .fin 5 := fun e => by cases e <;> rfl
  have hmin : ∀ n μ, IsMinLoss (fun e => (traj cfg.fit 0 e).2) n μ → μ = 5 := by
    rintro n μ ⟨⟨i, -, hi⟩, -⟩
    simp only [hl] at hi
    exact (Fl.fin.inj hi).symm
  obtain ⟨T, h1, -, -, ⟨j, ⟨μ, m1, j1, -, j3⟩, h2⟩, -, -, -, k, ⟨ν, n1, -, -, k3⟩, h3⟩ :=
    C52_train cfg [] Ckpt.empty (represents_empty _) 0 rfl (by simp [cfg])
      ⟨⟨5, hl 0⟩, fun i => by simp [hl]⟩
  have hj : j = 1 := by
    by_contra hne
    have hj1 : j ≤ 1 := j1
    refine j3 1 le_rfl (by omega) ?_
    rw [hmin _ _ m1]
    exact hl 1
  have hk : k = 0 := by
    by_contra hne
    refine k3 0 (by omega) ?_
    rw [hmin _ _ n1]
    exact hl 0
  subst hj hk
  exact ⟨cfg, T, h1, h2, h3⟩

/-! ### Divergence in the first epoch -/

theorem pyMin_nan (l : List Fl) : pyMin (.nan :: l) = .ok .nan := by
  have : l.foldl pyMinStep .nan = .nan := by
    induction l with
    | nil => rfl
    | cons x l ih =>
      have : pyMinStep .nan x = .nan := by cases x <;> simp [pyMinStep, Fl.lt]
      rw [List.foldl_cons, this, ih]
  rw [pyMin, this]

theorem lossIndex_nan (l : List Fl) : lossIndex .nan l = .error .valueError := by
  induction l with
  | nil => rfl
  | cons x l ih => simp [lossIndex, ih, Except.map]

/-- An epoch when the first loss is NaN. -/
theorem epochBody_nan {cfg : TrainCfg σ} (hearly : cfg.early = none)
    (hsave : cfg.saveEvery ≠ some 0) {T : TrainState σ} {a : Ckpt σ}
    (ha : Represents cfg.name T.dir a) {l : List Fl}
    (hl : T.losses ++ [(cfg.fit T.epoch T.model).2] = .nan :: l) :
    ∃ d' b, epochBody cfg T = .ok ⟨d', (cfg.fit T.epoch T.model).1, .nan :: l, T.stopper, T.stop,
      T.epoch⟩ ∧ Represents cfg.name d' b ∧ b.best = a.best := by
  obtain ⟨d', a', h1, h2, h3⟩ := saveEveryPart_ok
    (T := ⟨T.dir, (cfg.fit T.epoch T.model).1, .nan :: l, T.stopper, T.stop, T.epoch⟩) ha hsave
  refine ⟨d', a', ?_, h2, ?_⟩
  · have hle : ¬ Fl.le (cfg.fit T.epoch T.model).2 .nan := by
      cases (cfg.fit T.epoch T.model).2 <;> simp [Fl.le]
    simp [epochBody, hl, h1, saveBestPart, pyMin_nan, hle, earlyPart, hearly, bind, Except.bind]
  · rcases h3 with ⟨-, rfl⟩ | ⟨-, rfl⟩ <;> rfl

/-- The loop when the first loss is NaN. -/
theorem trainLoop_nan {cfg : TrainCfg σ} (hearly : cfg.early = none) (hsave : cfg.saveEvery ≠ some 0)
    (rem : ℕ) {T : TrainState σ} {a : Ckpt σ} (ha : Represents cfg.name T.dir a)
    (hs : T.stop = false) {l : List Fl}
    (hl : T.losses ++ [(cfg.fit T.epoch T.model).2] = .nan :: l) :
    ∃ T' b, trainLoop cfg rem T = .ok T' ∧ Represents cfg.name T'.dir b ∧ b.best = a.best ∧
      T'.epoch = T.epoch + rem ∧ ∃ l', T'.losses = .nan :: l' := by
  induction rem generalizing T a l with
  | zero =>
    obtain ⟨d', b, h1, h2, h3⟩ := epochBody_nan hearly hsave ha hl
    exact ⟨_, b, h1, h2, h3, rfl, l, rfl⟩
  | succ rem ih =>
    obtain ⟨d', b, h1, h2, h3⟩ := epochBody_nan hearly hsave ha hl
    obtain ⟨T', b', g1, g2, g3, g4, g5⟩ := ih
      (T := ⟨d', (cfg.fit T.epoch T.model).1, .nan :: l, T.stopper, T.stop, T.epoch + 1⟩) h2 hs
      (l := l ++ [(cfg.fit (T.epoch + 1) (cfg.fit T.epoch T.model).1).2]) rfl
    refine ⟨T', b', ?_, g2, g3.trans h3, ?_, g5⟩
    · show (epochBody cfg T >>= _) = _
      rw [h1]
      exact (if_neg (by simp [hs])).trans g1
    · rw [g4]
      show T.epoch + 1 + rem = _
      omega

/-- **C52** fails when the first loss is NaN: whatever the later losses, no best state is ever saved
(an older one stays) and the function raises `ValueError` at the end. -/
theorem C52_nan_violated (cfg : TrainCfg σ) (d : Dir σ) (a : Ckpt σ) (hd : Represents cfg.name d a)
    (s : σ) (hearly : cfg.early = none) (hsave : cfg.saveEvery ≠ some 0)
    (hnan : (cfg.fit 0 s).2 = .nan) :
    ∃ T b, trainRun cfg d s = .ok T ∧ T.epoch = cfg.nMax ∧ Represents cfg.name T.dir b ∧
      b.best = a.best ∧ trainReturn T = .error .valueError := by
  obtain ⟨d0, h1, h2⟩ := saved_ok hd s .init none true (by simp)
  obtain ⟨T, b, h3, h4, h5, h6, l', h7⟩ := trainLoop_nan hearly hsave cfg.nMax
    (T := ⟨d0, s, [], Stopper.start σ, false, 0⟩) h2 rfl (l := []) (by simp [hnan])
  obtain ⟨d1, h8, h9⟩ := saved_ok h4 T.model .epoch (some T.epoch) true (by simp)
  refine ⟨{ T with dir := d1 }, _, ?_, by simpa using h6, h9, h5, ?_⟩
  · simp only [trainRun, h1, h3, h8, bind, Except.bind]
    rfl
  · simp [trainReturn, h7, pyMin_nan, lossIndex_nan, bind, Except.bind]

/-! ## C53 -/

/-- **C53**. Training with early stopping, in a directory without an old file of epoch 0 (or saving at
intervals), from any model state and for any losses which start finite and finite validation losses
`w 0, w 1, …` (at the epochs `0, f, 2 f, …` for the validation frequency `f`):
training ends at the first validated epoch at which the last `trigger` validations brought no
significant improvement, or at `n_max_epochs`; the validation loss history has one entry per epoch up
to the last validated one, equal to the most recent validation loss; if training was stopped, the model
and the best state on disk are those of the first validation with the smallest loss. -/
theorem C53_train (cfg : TrainCfg σ) (ec : EarlyCfg σ) (d : Dir σ) (a : Ckpt σ)
    (hd : Represents cfg.name d a) (s : σ) (w : ℕ → ℝ) (hearly : cfg.early = some ec)
    (hsave : cfg.saveEvery ≠ some 0) (hold : cfg.saveEvery ≠ none ∨ a.epoch 0 = none)
    (hfreq : 0 < ec.freq) (hloss : StartsFinite fun e => (traj cfg.fit s e).2)
    (hw : ∀ i, ec.vloss (i * ec.freq) (traj cfg.fit s (i * ec.freq)).1 = .fin (w i)) :
    ∃ T, trainRun cfg d s = .ok T ∧ T.epoch ≤ cfg.nMax ∧
      (∀ e < T.epoch, ¬ StopsAt ec w e) ∧ (StopsAt ec w T.epoch ∨ T.epoch = cfg.nMax) ∧
      T.losses = (List.range (T.epoch + 1)).map (fun e => (traj cfg.fit s e).2) ∧
      T.stopper.hist.length = T.epoch / ec.freq * ec.freq + 1 ∧
      (∀ i ≤ T.epoch / ec.freq * ec.freq, T.stopper.hist[i]? = some (.fin (w (i / ec.freq)))) ∧
      (StopsAt ec w T.epoch → ∃ k, FirstLeast w (T.epoch / ec.freq) k ∧
        T.model = (traj cfg.fit s (k * ec.freq)).1 ∧
        (loadState cfg.name T.dir .best false).1
          = .ok (some (k * ec.freq), (traj cfg.fit s (k * ec.freq)).1)) ∧
      (¬ StopsAt ec w T.epoch → T.model = (traj cfg.fit s T.epoch).1 ∧
        ∃ j, LastBest (fun e => (traj cfg.fit s e).2) T.epoch j ∧
          (loadState cfg.name T.dir .best false).1 = .ok (some j, (traj cfg.fit s j).1)) := by
  obtain ⟨T, d', b, h1, h2, h3, h4, h5, h6, h7⟩ := trainRun_loop (w := w) hd s hsave hloss
    (by
      intro ec' hec'
      rw [hearly] at hec'
      obtain rfl := Option.some.inj hec'
      exact ⟨⟨hfreq, hw⟩, hold⟩)
  have hstop : T.stop = true ↔ StopsAt ec w T.epoch := by
    rw [h2.stops]
    constructor
    · rintro ⟨ec', hec', h⟩
      rw [hearly] at hec'
      obtain rfl := Option.some.inj hec'
      exact h
    · exact fun h => ⟨ec, hearly, h⟩
  have hhist := stopperSeq_hist ec (fun e => (traj cfg.fit s e).1) hfreq (T.epoch / ec.freq)
  rw [← numV_succ hfreq, ← h2.stopper ec hearly] at hhist
  refine ⟨_, h1, h3, fun e he => h5 ec hearly e he, ?_, h2.losses, hhist.1, fun i hi => ?_,
    fun hS => ?_, fun hS => ?_⟩
  · by_cases hS : StopsAt ec w T.epoch
    · exact .inl hS
    · refine .inr (h4 ?_)
      rw [← Bool.not_eq_true, hstop]
      exact hS
  · rw [← hw]
    exact hhist.2 i hi
  · obtain ⟨ec', k, hec', hk, hm, b', hb', -, -, hbest, -⟩ := h2.stopped (hstop.mpr hS)
    rw [hearly] at hec'
    obtain rfl := Option.some.inj hec'
    obtain rfl := represents_unique h6 hb'
    exact ⟨k, hk, hm, load_best h7 hbest⟩
  · have hs : T.stop = false := by rw [← Bool.not_eq_true, hstop]; exact hS
    obtain ⟨hm, b', hb', hinv⟩ := h2.go hs
    obtain rfl := represents_unique h6 hb'
    obtain ⟨j, hj, hj'⟩ := hinv.best
    exact ⟨hm, j, hj, load_best h7 hj'⟩

/-- **C53** (finding). When training is stopped at epoch `e`, the state saved as that of epoch `e` is
the best validated one, not the state trained in epoch `e`. -/
theorem C53_final_epoch_violated (cfg : TrainCfg σ) (ec : EarlyCfg σ) (d : Dir σ) (a : Ckpt σ)
    (hd : Represents cfg.name d a) (s : σ) (w : ℕ → ℝ) (hearly : cfg.early = some ec)
    (hsave : cfg.saveEvery ≠ some 0) (hold : cfg.saveEvery ≠ none ∨ a.epoch 0 = none)
    (hfreq : 0 < ec.freq) (hloss : StartsFinite fun e => (traj cfg.fit s e).2)
    (hw : ∀ i, ec.vloss (i * ec.freq) (traj cfg.fit s (i * ec.freq)).1 = .fin (w i)) (T : TrainState σ)
    (hT : trainRun cfg d s = .ok T) (hS : StopsAt ec w T.epoch) :
    ∃ k, FirstLeast w (T.epoch / ec.freq) k ∧
      (loadState cfg.name T.dir (.int T.epoch) false).1
        = .ok (some T.epoch, (traj cfg.fit s (k * ec.freq)).1) := by
  obtain ⟨T', d', b, h1, h2, h3, h4, h5, h6, h7⟩ := trainRun_loop (w := w) hd s hsave hloss
    (by
      intro ec' hec'
      rw [hearly] at hec'
      obtain rfl := Option.some.inj hec'
      exact ⟨⟨hfreq, hw⟩, hold⟩)
  rw [h1] at hT
  obtain rfl := Except.ok.inj hT
  obtain ⟨ec', k, hec', hk, hm, -⟩ := h2.stopped (h2.stops.mpr ⟨ec, hearly, hS⟩)
  rw [hearly] at hec'
  obtain rfl := Option.some.inj hec'
  refine ⟨k, hk, ?_⟩
  have : (b.save T'.model .epoch (some T'.epoch) true).epoch T'.epoch = some T'.model := by
    rw [Ckpt.save, dropIf_epoch_self]; simp [Ckpt.store]
  rw [← hm]
  exact load_int h7 this

/-- **C53** fails with an old file of epoch 0 (left by an earlier training in the directory, or by the
training that is being resumed) when states are not saved at intervals: the first validation replaces
the trained model by the old state, whatever was trained. -/
theorem C53_old_file_violated (cfg : TrainCfg σ) (ec : EarlyCfg σ) (d : Dir σ) (a : Ckpt σ)
    (hd : Represents cfg.name d a) (s old : σ) (hearly : cfg.early = some ec)
    (hsave : cfg.saveEvery = none) (hold : a.epoch 0 = some old) (hfreq : 0 < ec.freq)
    (hloss : ∃ x, (cfg.fit 0 s).2 = .fin x) (hv : ∃ x, ec.vloss 0 old = .fin x) :
    ∃ T, epochBody cfg ⟨d, s, [], Stopper.start σ, false, 0⟩ = .ok T ∧ T.model = old := by
  obtain ⟨x, hx⟩ := hloss
  obtain ⟨v, hv⟩ := hv
  obtain ⟨d1, h1, h2⟩ := saved_ok hd (cfg.fit 0 s).1 .best (some 0) true (by simp)
  have hep : (a.save (cfg.fit 0 s).1 .best (some 0) true).epoch 0 = some old := by
    rw [Ckpt.save, dropIf_epoch_self]; exact hold
  have hg : d1.get? (stateFile cfg.name .epoch (some 0)) = some (.full old) := by
    rw [h2.epoch, hep]; rfl
  have hval : validateModel cfg.name d1 (cfg.fit 0 s).1 0 = .ok (old, d1) := by
    simp only [validateModel, hg, load_int h2 hep]
    rfl
  have hbest : ((Stopper.start σ).evaluate ec old 0 (.fin v)).2.best = some (old, 0) := by
    simp [Stopper.evaluate, Stopper.start, Fl.lt]
  have hbody : epochBody cfg ⟨d, s, [], Stopper.start σ, false, 0⟩
      = stopPart cfg ⟨d1, old, [.fin x], ((Stopper.start σ).evaluate ec old 0 (.fin v)).2,
        ((Stopper.start σ).evaluate ec old 0 (.fin v)).1, 0⟩ := by
    simp [epochBody, saveEveryPart, hsave, saveBestPart, hx, pyMin, Fl.le, h1, Except.map, earlyPart,
      hearly, evaluatePart, isEvaluate, hfreq.ne', hval, hv, bind, Except.bind]
  rw [hbody]
  unfold stopPart
  split_ifs with hs
  · obtain ⟨d2, g1, -⟩ := saved_ok h2 old .best (some 0) true (by simp)
    refine ⟨⟨d2, old, [.fin x], ((Stopper.start σ).evaluate ec old 0 (.fin v)).2,
        ((Stopper.start σ).evaluate ec old 0 (.fin v)).1, 0⟩, ?_, rfl⟩
    simp [hbest, g1, Except.map]
  · exact ⟨_, rfl, rfl⟩

/-- A validation loss which is not a number or infinite in the first validation: with tolerance 1
training aborts with `RuntimeError`, since no best state was stored. -/
theorem C53_nan_validation_violated (cfg : TrainCfg σ) (ec : EarlyCfg σ) (d : Dir σ) (a : Ckpt σ)
    (hd : Represents cfg.name d a) (s : σ) (hearly : cfg.early = some ec)
    (hsave : cfg.saveEvery = none) (hold : a.epoch 0 = none) (hfreq : 0 < ec.freq)
    (htrig : ec.trigger ≤ 1) (hloss : ∃ x, (cfg.fit 0 s).2 = .fin x)
    (hv : ec.vloss 0 (cfg.fit 0 s).1 = .nan) :
    trainRun cfg d s = .error .runtimeError := by
  obtain ⟨x, hx⟩ := hloss
  obtain ⟨d0, g1, g2⟩ := saved_ok hd s .init none true (by simp)
  obtain ⟨d1, h1, h2⟩ := saved_ok g2 (cfg.fit 0 s).1 .best (some 0) true (by simp)
  obtain ⟨d2, h3, h4⟩ := saved_ok h2 (cfg.fit 0 s).1 .epoch (some 0) true (by simp)
  have hg : d1.get? (stateFile cfg.name .epoch (some 0)) = none := by
    rw [h2.epoch, Ckpt.save, dropIf_epoch_self]
    show (a.epoch 0).map Content.full = none
    rw [hold]; rfl
  have hl : (loadState cfg.name d2 (.int 0) false).1 = .ok (some 0, (cfg.fit 0 s).1) :=
    load_int h4 (by rw [Ckpt.save, dropIf_epoch_self]; simp [Ckpt.store])
  have hval : ∃ d3, validateModel cfg.name d1 (cfg.fit 0 s).1 0 = .ok ((cfg.fit 0 s).1, d3) := by
    simp only [validateModel, hg, h3, hl, bind, Except.bind]
    exact ⟨_, rfl⟩
  obtain ⟨d3, hval⟩ := hval
  have hbody : epochBody cfg ⟨d0, s, [], Stopper.start σ, false, 0⟩ = .error .runtimeError := by
    simp [epochBody, saveEveryPart, hsave, saveBestPart, hx, pyMin, Fl.le, h1, Except.map, earlyPart,
      hearly, evaluatePart, isEvaluate, hfreq.ne', hval, hv, bind, Except.bind, stopPart,
      Stopper.evaluate, Stopper.start, Fl.lt, htrig]
  have hloop : trainLoop cfg cfg.nMax ⟨d0, s, [], Stopper.start σ, false, 0⟩
      = .error .runtimeError := by
    cases cfg.nMax with
    | zero => exact hbody
    | succ n => simp [trainLoop, hbody, bind, Except.bind]
  simp [trainRun, g1, hloop, bind, Except.bind]

/-- A run meeting the hypotheses: the validation losses do not improve after epoch 0, and training
stops at epoch 2 with tolerance 2. -/
example : ∃ (cfg : TrainCfg ℕ) (ec : EarlyCfg ℕ) (w : ℕ → ℝ), cfg.early = some ec ∧
    cfg.saveEvery ≠ some 0 ∧ 0 < ec.freq ∧ (StartsFinite fun e => (traj cfg.fit 0 e).2) ∧
    (∀ i, ec.vloss (i * ec.freq) (traj cfg.fit 0 (i * ec.freq)).1 = .fin (w i)) ∧
    StopsAt ec w 2 ∧ ¬ StopsAt ec w 1 := by
  let ec : EarlyCfg ℕ := ⟨1, 2, 0, fun _ _ => .fin 3⟩
  let cfg : TrainCfg ℕ := ⟨"m".toList, 9, none, some ec, fun _ x => (x + 1, .fin 5)⟩
  have hl : ∀ e, (traj cfg.fit 0 e).2 = .fin 5 := fun e => by cases e <;> rfl
  refine ⟨cfg, ec, fun _ => 3, rfl, by simp [cfg], by simp [ec], ⟨⟨5, hl 0⟩, fun i => by simp [hl]⟩,
    fun i => rfl, ⟨by simp [ec], by simp [ec], ?_⟩, ?_⟩
  · rintro i - - ⟨m, ⟨⟨j, -, hj⟩, -⟩, h2, -⟩
    simp only at hj h2
    linarith
  · rintro ⟨-, h, -⟩
    simp [ec] at h

end

end Hooke
