import Verif.Lemmas.Training

/-! Invariant of the training loop. -/

namespace Hooke

noncomputable section

variable {σ : Type}

theorem saved_ok {name : FName} {d : Dir σ} {a : Ckpt σ} (h : Represents name d a) (s : σ)
    (t : StateType) (epoch : Option ℕ) (rm : Bool) (hb : t = .best → epoch ≠ none) :
    ∃ d', saved (saveState name d s t epoch rm) = .ok d' ∧
      Represents name d' (a.save s t epoch rm) := by
  obtain ⟨d', h1, h2⟩ := saveState_represents h s t epoch rm hb
  exact ⟨d', by simp [saved, h1, Except.map], h2⟩

theorem load_int {name : FName} {d : Dir σ} {a : Ckpt σ} (h : Represents name d a) {k : ℕ} {s : σ}
    (hk : a.epoch k = some s) : (loadState name d (.int k) false).1 = .ok (some k, s) := by
  obtain ⟨a', ⟨h1, -⟩, -⟩ := loadState_represents h (.int k) false
  rw [h1, hk]
  rfl

theorem load_best {name : FName} {d : Dir σ} {a : Ckpt σ} (h : Represents name d a) {k : ℕ} {s : σ}
    (hk : a.best = some (k, s)) : (loadState name d .best false).1 = .ok (some k, s) := by
  obtain ⟨a', h1, -⟩ := loadState_represents h .best false
  simp only [Ckpt.Load, hk] at h1
  exact h1.1

theorem load_init {name : FName} {d : Dir σ} {a : Ckpt σ} (h : Represents name d a) {s : σ}
    (hk : a.init = some s) : (loadState name d .init false).1 = .ok (some 0, s) := by
  obtain ⟨a', ⟨h1, -⟩, -⟩ := loadState_represents h .init false
  rw [h1, hk]
  rfl

theorem Represents.del_epoch {name : FName} {d : Dir σ} {a : Ckpt σ} (h : Represents name d a)
    (k : ℕ) : Represents name (d.del (stateFile name .epoch (some k)))
      { a with epoch := fun j => if j = k then none else a.epoch j } := by
  have hr := represents_iff.mp h
  rw [(stateFile_epoch name k).1, represents_iff]
  refine ⟨KDict.nodup_del h.nodup _, ?_, ?_, fun j => ?_, fun j => ?_, fun f hf => ?_⟩
  · rw [KDict.get?_del_ne _ (epochFile_ne_defaultFile name k).symm]; exact hr.default
  · rw [KDict.get?_del_ne _ (epochFile_ne_initFile name k).symm]; exact hr.init
  · rw [KDict.get?_del h.nodup]
    by_cases hj : j = k
    · simp [hj]
    · simp [epochFile_inj, hj, hr.epoch]
  · rw [KDict.get?_del_ne _ (epochFile_ne_bestFile name k j).symm]; exact hr.best j
  · refine hr.known f ?_
    obtain ⟨v, hv⟩ := KDict.mem_keys_iff.mp hf
    rw [KDict.get?_del h.nodup] at hv
    split_ifs at hv
    exact KDict.mem_keys_iff.mpr ⟨v, hv⟩

open Classical in
/-- The state kept in the file of epoch `k`. -/
def keptEpoch (cfg : TrainCfg σ) (st : ℕ → σ) (old : Option σ) (k : ℕ) : Option σ :=
  if SavedAt cfg.saveEvery k then some (st k) else if k = 0 then old else none

/-- The store after epoch `e`, started from the store `b`. -/
structure StoreInv (cfg : TrainCfg σ) (st : ℕ → σ) (loss : ℕ → Fl) (b : Ckpt σ) (e : ℕ)
    (a : Ckpt σ) : Prop where
  init : a.init = b.init
  default : a.default = b.default
  best : ∃ j, LastBest loss e j ∧ a.best = some (j, st j)
  kept : ∀ k ≤ e, a.epoch k = keptEpoch cfg st (b.epoch 0) k
  later : ∀ k, e < k → a.epoch k = none

/-- The store before epoch `e`. -/
def StorePre (cfg : TrainCfg σ) (st : ℕ → σ) (loss : ℕ → Fl) (b : Ckpt σ) : ℕ → Ckpt σ → Prop
  | 0, a => a = b
  | e + 1, a => StoreInv cfg st loss b e a

theorem saveEveryPart_ok {cfg : TrainCfg σ} {T : TrainState σ} {a : Ckpt σ}
    (h : Represents cfg.name T.dir a) (h0 : cfg.saveEvery ≠ some 0) :
    ∃ d' a', saveEveryPart cfg T = .ok { T with dir := d' } ∧ Represents cfg.name d' a' ∧
      ((SavedAt cfg.saveEvery T.epoch ∧ a' = a.save T.model .epoch (some T.epoch) true) ∨
        (¬ SavedAt cfg.saveEvery T.epoch ∧ a' = a)) := by
  rcases hs : cfg.saveEvery with _ | k
  · exact ⟨T.dir, a, by simp [saveEveryPart, hs], h, .inr ⟨by simp [SavedAt], rfl⟩⟩
  · cases k with
    | zero => exact absurd hs h0
    | succ k =>
      by_cases hk : T.epoch % (k + 1) = 0
      · obtain ⟨d', h1, h2⟩ := saved_ok h T.model .epoch (some T.epoch) true (by simp)
        exact ⟨d', _, by simp [saveEveryPart, hs, hk, h1, Except.map], h2, .inl ⟨hk, rfl⟩⟩
      · exact ⟨T.dir, a, by simp [saveEveryPart, hs, hk], h, .inr ⟨hk, rfl⟩⟩

theorem lastBest_of_min {loss : ℕ → Fl} {e : ℕ} {μ : ℝ} (hm : IsMinLoss loss e μ)
    (h : loss e = .fin μ) : LastBest loss e e :=
  ⟨μ, hm, le_rfl, h, fun i hi hlt => absurd hlt (not_lt.mpr hi)⟩

theorem isMinLoss_pred {loss : ℕ → Fl} {e : ℕ} {μ : ℝ} (hm : IsMinLoss loss (e + 1) μ)
    (h : loss (e + 1) ≠ .fin μ) : IsMinLoss loss e μ := by
  obtain ⟨⟨i, hi, hi'⟩, h2⟩ := hm
  refine ⟨⟨i, ?_, hi'⟩, fun j hj => h2 j (by omega)⟩
  rcases Nat.le_succ_iff.mp hi with hi | rfl
  · exact hi
  · exact absurd hi' h

theorem isMinLoss_unique {loss : ℕ → Fl} {e : ℕ} {μ ν : ℝ} (h1 : IsMinLoss loss e μ)
    (h2 : IsMinLoss loss e ν) : μ = ν := by
  obtain ⟨⟨i, hi, hi'⟩, h1'⟩ := h1
  obtain ⟨⟨j, hj, hj'⟩, h2'⟩ := h2
  exact le_antisymm (h1' j hj ν hj') (h2' i hi μ hi')

theorem lastBest_succ {loss : ℕ → Fl} {e j : ℕ} {μ : ℝ} (hm : IsMinLoss loss (e + 1) μ)
    (h : loss (e + 1) ≠ .fin μ) (hj : LastBest loss e j) : LastBest loss (e + 1) j := by
  obtain ⟨ν, h1, h2, h3, h4⟩ := hj
  obtain rfl := isMinLoss_unique h1 (isMinLoss_pred hm h)
  refine ⟨ν, hm, by omega, h3, fun i hi hlt => ?_⟩
  rcases Nat.le_succ_iff.mp hi with hi | rfl
  · exact h4 i hi hlt
  · exact h

/-- Training and saving part of an epoch. -/
theorem epoch_saves {cfg : TrainCfg σ} {st : ℕ → σ} {loss : ℕ → Fl} {b : Ckpt σ}
    (hloss : StartsFinite loss) (h0 : cfg.saveEvery ≠ some 0) {T : TrainState σ} {a : Ckpt σ}
    (hT : Represents cfg.name T.dir a) (hpre : StorePre cfg st loss b T.epoch a)
    (hmodel : T.model = st T.epoch) (hlosses : T.losses = (List.range (T.epoch + 1)).map loss) :
    ∃ d' a', (saveEveryPart cfg T >>= fun T1 => saveBestPart cfg T1 (loss T.epoch))
        = .ok { T with dir := d' } ∧
      Represents cfg.name d' a' ∧ StoreInv cfg st loss b T.epoch a' := by
  obtain ⟨d1, a1, h1, h2, h3⟩ := saveEveryPart_ok hT h0
  obtain ⟨μ, hμ, hmin⟩ := pyMin_range hloss T.epoch
  have hle := le_min_iff hloss hmin
  have a1init : a1.init = b.init ∧ a1.default = b.default ∧ a1.best = a.best := by
    have : a.init = b.init ∧ a.default = b.default := by
      cases he : T.epoch with
      | zero => rw [he] at hpre; subst hpre; exact ⟨rfl, rfl⟩
      | succ e => rw [he] at hpre; exact ⟨hpre.init, hpre.default⟩
    rcases h3 with ⟨-, rfl⟩ | ⟨-, rfl⟩
    · exact ⟨this.1, this.2, rfl⟩
    · exact ⟨this.1, this.2, rfl⟩
  have a1kept : ∀ k ≤ T.epoch, a1.epoch k = keptEpoch cfg st (b.epoch 0) k := by
    intro k hk
    have hold : k < T.epoch → a.epoch k = keptEpoch cfg st (b.epoch 0) k := by
      intro hlt
      cases he : T.epoch with
      | zero => omega
      | succ e => rw [he] at hpre; exact hpre.kept k (by omega)
    rcases h3 with ⟨hs, rfl⟩ | ⟨hs, rfl⟩
    · have e1 : (a.save T.model .epoch (some T.epoch) true).epoch k
          = if T.epoch < k then none else if k = T.epoch then some T.model else a.epoch k := rfl
      rw [e1, if_neg (by omega)]
      split_ifs with hk'
      · subst hk'
        rw [keptEpoch, if_pos hs, hmodel]
      · exact hold (by omega)
    · rcases Nat.lt_or_eq_of_le hk with hk | rfl
      · exact hold hk
      · rw [keptEpoch, if_neg hs]
        cases he : T.epoch with
        | zero => rw [he] at hpre; subst hpre; rfl
        | succ e => rw [he] at hpre; rw [if_neg (by omega)]; exact hpre.later _ (by omega)
  have hbind : (saveEveryPart cfg T >>= fun T1 => saveBestPart cfg T1 (loss T.epoch))
      = saveBestPart cfg { T with dir := d1 } (loss T.epoch) := by
    rw [h1]; rfl
  rw [hbind]
  by_cases hb : loss T.epoch = .fin μ
  · obtain ⟨d2, h4, h5⟩ := saved_ok h2 T.model .best (some T.epoch) true (by simp)
    refine ⟨d2, _, ?_, h5, ?_⟩
    · simp [saveBestPart, hlosses, hμ, bind, Except.bind, hle.mpr hb, h4, Except.map]
    · refine ⟨a1init.1, a1init.2.1, ⟨T.epoch, lastBest_of_min hmin hb, by rw [← hmodel]; rfl⟩,
        fun k hk => ?_, fun k hk => ?_⟩
      · have e1 : (a1.save T.model .best (some T.epoch) true).epoch k
          = if T.epoch < k then none else a1.epoch k := rfl
        rw [e1, if_neg (by omega)]
        exact a1kept k hk
      · have e1 : (a1.save T.model .best (some T.epoch) true).epoch k
          = if T.epoch < k then none else a1.epoch k := rfl
        rw [e1, if_pos hk]
  · refine ⟨d1, a1, ?_, h2, ?_⟩
    · have hle' : ¬ Fl.le (loss T.epoch) (.fin μ) := fun h => hb (hle.mp h)
      simp [saveBestPart, hlosses, hμ, bind, Except.bind, hle']
    · obtain ⟨e, he⟩ : ∃ e, T.epoch = e + 1 := by
        cases he : T.epoch with
        | zero =>
          rw [he] at hmin hb
          obtain ⟨i, hi, hi'⟩ := hmin.1
          obtain rfl := Nat.le_zero.mp hi
          exact absurd hi' hb
        | succ e => exact ⟨e, rfl⟩
      rw [he] at hpre hmin hb
      obtain ⟨j, hj, hj'⟩ := hpre.best
      refine ⟨a1init.1, a1init.2.1, ⟨j, ?_, by rw [a1init.2.2, hj']⟩, a1kept, fun k hk => ?_⟩
      · rw [he]; exact lastBest_succ hmin hb hj
      · have hka : a.epoch k = none := hpre.later k (by omega)
        rcases h3 with ⟨hs, rfl⟩ | ⟨hs, rfl⟩
        · have e1 : (a.save T.model .epoch (some T.epoch) true).epoch k
            = if T.epoch < k then none else if k = T.epoch then some T.model else a.epoch k := rfl
          rw [e1, if_pos hk]
        · exact hka

/-- Validation reads the current state back and leaves the store as it is. -/
theorem validateModel_ok {cfg : TrainCfg σ} {st : ℕ → σ} {loss : ℕ → Fl} {b : Ckpt σ} {e : ℕ}
    {d : Dir σ} {a : Ckpt σ} (hd : Represents cfg.name d a) (hinv : StoreInv cfg st loss b e a)
    (hold : cfg.saveEvery ≠ none ∨ b.epoch 0 = none) :
    ∃ d', validateModel cfg.name d (st e) e = .ok (st e, d') ∧ Represents cfg.name d' a := by
  have hk := hinv.kept e le_rfl
  cases hepoch : a.epoch e with
  | some s' =>
    have hs' : s' = st e := by
      rw [hepoch, keptEpoch] at hk
      split_ifs at hk with h1 h2
      · exact Option.some.inj hk
      · subst h2
        rcases hold with h | h
        · cases hse : cfg.saveEvery with
          | none => exact absurd hse h
          | some k => rw [hse] at h1; exact absurd (Nat.zero_mod k) h1
        · rw [h] at hk; cases hk
    have hg : d.get? (stateFile cfg.name .epoch (some e)) = some (.full s') := by
      rw [hd.epoch, hepoch]; rfl
    refine ⟨d, ?_, hd⟩
    rw [← hs']
    simp only [validateModel, hg, load_int hd hepoch]
    rfl
  | none =>
    have hg : d.get? (stateFile cfg.name .epoch (some e)) = none := by
      rw [hd.epoch, hepoch]; rfl
    obtain ⟨d1, h1, h2⟩ := saved_ok hd (st e) .epoch (some e) true (by simp)
    have hl : (loadState cfg.name d1 (.int e) false).1 = .ok (some e, st e) :=
      load_int h2 (by rw [Ckpt.save, dropIf_epoch_self]; simp [Ckpt.store])
    refine ⟨d1.del (stateFile cfg.name .epoch (some e)), ?_, ?_⟩
    · simp only [validateModel, hg, h1, hl, bind, Except.bind]
      rfl
    · have h3 := h2.del_epoch e
      have : ({ a.save (st e) .epoch (some e) true with
          epoch := fun j => if j = e then none
            else (a.save (st e) .epoch (some e) true).epoch j } : Ckpt σ) = a := by
        have hfun : (fun j => if j = e then none
            else (a.save (st e) .epoch (some e) true).epoch j) = a.epoch := by
          funext j
          have e1 : (a.save (st e) .epoch (some e) true).epoch j
            = if e < j then none else if j = e then some (st e) else a.epoch j := rfl
          rw [e1]
          by_cases hj : j = e
          · simp [hj, hepoch]
          · by_cases hlt : e < j
            · simp [hj, hlt, hinv.later j hlt]
            · simp [hj, hlt]
        rw [hfun]
        rfl
      rw [this] at h3
      exact h3

/-! ## Number of validations -/

/-- Number of validations before epoch `e`. -/
def numV (f : ℕ) : ℕ → ℕ
  | 0 => 0
  | e + 1 => if e % f = 0 then numV f e + 1 else numV f e

theorem numV_succ {f : ℕ} (hf : 0 < f) (e : ℕ) : numV f (e + 1) = e / f + 1 := by
  induction e with
  | zero => simp [numV]
  | succ e ih =>
    have h := Nat.succ_div (a := e) (b := f)
    rw [numV, ih]
    by_cases hd : f ∣ e + 1
    · rw [if_pos (Nat.mod_eq_zero_of_dvd hd), h, if_pos hd]
    · rw [if_neg fun hh => hd (Nat.dvd_of_mod_eq_zero hh), h, if_neg hd]

theorem numV_mul {f e : ℕ} (hf : 0 < f) (h : e % f = 0) : numV f e * f = e := by
  cases e with
  | zero => simp [numV]
  | succ e =>
    have hd : f ∣ e + 1 := Nat.dvd_of_mod_eq_zero h
    have h1 := Nat.succ_div (a := e) (b := f)
    rw [if_pos hd] at h1
    rw [numV_succ hf, ← h1]
    exact Nat.div_mul_cancel hd

theorem numV_div {f e : ℕ} (hf : 0 < f) (h : e % f = 0) : numV f e = e / f := by
  conv_rhs => rw [← numV_mul hf h]
  rw [Nat.mul_div_cancel _ hf]

/-- Early stopping parameters and validation losses of a run. -/
structure EarlyOk (ec : EarlyCfg σ) (st : ℕ → σ) (w : ℕ → ℝ) : Prop where
  freq : 0 < ec.freq
  finite : ∀ i, ec.vloss (i * ec.freq) (st (i * ec.freq)) = .fin (w i)

/-- What the loop knows before epoch `e` (after training in it, if `trained`). -/
structure LoopPre (cfg : TrainCfg σ) (s : σ) (b : Ckpt σ) (T : TrainState σ) : Prop where
  fit : cfg.fit T.epoch T.model = traj cfg.fit s T.epoch
  losses : T.losses = (List.range T.epoch).map fun e => (traj cfg.fit s e).2
  stop : T.stop = false
  stopper : ∀ ec, cfg.early = some ec →
    T.stopper = stopperSeq ec (fun e => (traj cfg.fit s e).1) (numV ec.freq T.epoch)
  store : ∃ a, Represents cfg.name T.dir a ∧
    StorePre cfg (fun e => (traj cfg.fit s e).1) (fun e => (traj cfg.fit s e).2) b T.epoch a

/-- What the loop knows after an epoch. -/
structure LoopPost (cfg : TrainCfg σ) (s : σ) (b : Ckpt σ) (w : ℕ → ℝ) (T : TrainState σ) : Prop where
  losses : T.losses = (List.range (T.epoch + 1)).map fun e => (traj cfg.fit s e).2
  stopper : ∀ ec, cfg.early = some ec →
    T.stopper = stopperSeq ec (fun e => (traj cfg.fit s e).1) (numV ec.freq (T.epoch + 1))
  stops : T.stop = true ↔ ∃ ec, cfg.early = some ec ∧ StopsAt ec w T.epoch
  go : T.stop = false → T.model = (traj cfg.fit s T.epoch).1 ∧ ∃ a, Represents cfg.name T.dir a ∧
    StoreInv cfg (fun e => (traj cfg.fit s e).1) (fun e => (traj cfg.fit s e).2) b T.epoch a
  stopped : T.stop = true → ∃ ec k, cfg.early = some ec ∧ FirstLeast w (T.epoch / ec.freq) k ∧
    T.model = (traj cfg.fit s (k * ec.freq)).1 ∧ ∃ a, Represents cfg.name T.dir a ∧
    a.init = b.init ∧ a.default = b.default ∧
    a.best = some (k * ec.freq, (traj cfg.fit s (k * ec.freq)).1) ∧
    (∀ j, k * ec.freq < j → a.epoch j = none) ∧
    ∀ j ≤ k * ec.freq, a.epoch j = keptEpoch cfg (fun e => (traj cfg.fit s e).1) (b.epoch 0) j

theorem epochBody_ok {cfg : TrainCfg σ} {s : σ} {b : Ckpt σ} {w : ℕ → ℝ}
    (hloss : StartsFinite fun e => (traj cfg.fit s e).2) (h0 : cfg.saveEvery ≠ some 0)
    (hec : ∀ ec, cfg.early = some ec → EarlyOk ec (fun e => (traj cfg.fit s e).1) w ∧
      (cfg.saveEvery ≠ none ∨ b.epoch 0 = none))
    {T : TrainState σ} (h : LoopPre cfg s b T) :
    ∃ T', epochBody cfg T = .ok T' ∧ T'.epoch = T.epoch ∧ LoopPost cfg s b w T' := by
  obtain ⟨a, ha, hpre⟩ := h.store
  have hl : T.losses ++ [(traj cfg.fit s T.epoch).2]
      = (List.range (T.epoch + 1)).map fun e => (traj cfg.fit s e).2 := by
    rw [h.losses, List.range_succ, List.map_append, List.map_singleton]
  obtain ⟨d1, a1, h1, h2, h3⟩ := epoch_saves hloss h0
    (T := ⟨T.dir, (traj cfg.fit s T.epoch).1, T.losses ++ [(traj cfg.fit s T.epoch).2], T.stopper,
      T.stop, T.epoch⟩)
    ha hpre rfl hl
  have hbody : epochBody cfg T = earlyPart cfg
      ⟨d1, (traj cfg.fit s T.epoch).1, T.losses ++ [(traj cfg.fit s T.epoch).2], T.stopper,
        T.stop, T.epoch⟩ := by
    obtain ⟨T1, e1, e2⟩ := bind_ok h1
    simp only [epochBody, h.fit, e1, e2, bind, Except.bind]
  rw [hbody]
  cases hE : cfg.early with
  | none =>
    refine ⟨⟨d1, (traj cfg.fit s T.epoch).1, T.losses ++ [(traj cfg.fit s T.epoch).2], T.stopper,
        T.stop, T.epoch⟩, by simp [earlyPart, hE], rfl, ?_⟩
    exact ⟨hl, fun ec hec' => absurd (hE.symm.trans hec') (by simp), by simp [h.stop, hE],
      fun _ => ⟨rfl, a1, h2, h3⟩, fun hs => absurd (h.stop.symm.trans hs) (by simp)⟩
  | some ec =>
    obtain ⟨⟨hf, hw⟩, hold⟩ := hec ec hE
    have hst := h.stopper ec hE
    by_cases hm : T.epoch % ec.freq = 0
    · have hmul := numV_mul hf hm
      have hdiv := numV_div hf hm
      obtain ⟨d2, h4, h5⟩ := validateModel_ok h2 h3 hold
      have hseq : (T.stopper.evaluate ec (traj cfg.fit s T.epoch).1 T.epoch
          (ec.vloss T.epoch (traj cfg.fit s T.epoch).1)).2
          = stopperSeq ec (fun e => (traj cfg.fit s e).1) (numV ec.freq (T.epoch + 1)) := by
        rw [numV, if_pos hm, stopperSeq, hmul, hst]
      have hinv := stopInv ec (fun e => (traj cfg.fit s e).1) w hw (T.epoch / ec.freq)
      have hnum : numV ec.freq (T.epoch + 1) = T.epoch / ec.freq + 1 := numV_succ hf _
      rw [← hnum, ← hseq] at hinv
      have hstop : (T.stopper.evaluate ec (traj cfg.fit s T.epoch).1 T.epoch
          (ec.vloss T.epoch (traj cfg.fit s T.epoch).1)).1 = true ↔ StopsAt ec w T.epoch := by
        rw [evaluate_stop, decide_eq_true_eq, hinv.stalled]
        exact ⟨fun hh => ⟨hm, hh⟩, fun hh => hh.2⟩
      have heval : evaluatePart cfg ec ⟨d1, (traj cfg.fit s T.epoch).1, T.losses ++ [(traj cfg.fit s T.epoch).2], T.stopper,
        T.stop, T.epoch⟩
          = .ok ⟨d2, (traj cfg.fit s T.epoch).1, T.losses ++ [(traj cfg.fit s T.epoch).2],
            (T.stopper.evaluate ec (traj cfg.fit s T.epoch).1 T.epoch
              (ec.vloss T.epoch (traj cfg.fit s T.epoch).1)).2,
            (T.stopper.evaluate ec (traj cfg.fit s T.epoch).1 T.epoch
              (ec.vloss T.epoch (traj cfg.fit s T.epoch).1)).1, T.epoch⟩ := by
        simp [evaluatePart, isEvaluate, hf.ne', hm, bind, Except.bind, h4, Except.map]
      by_cases hS : StopsAt ec w T.epoch
      · obtain ⟨k, hk, hbest⟩ := hinv.best
        obtain ⟨d3, h6, h7⟩ := saved_ok h5 (traj cfg.fit s (k * ec.freq)).1 .best
          (some (k * ec.freq)) true (by simp)
        have hkle : k * ec.freq ≤ T.epoch := by
          calc k * ec.freq ≤ (T.epoch / ec.freq) * ec.freq := Nat.mul_le_mul_right _ hk.1
            _ ≤ T.epoch := Nat.div_mul_le_self _ _
        refine ⟨⟨d3, (traj cfg.fit s (k * ec.freq)).1, T.losses ++ [(traj cfg.fit s T.epoch).2],
            (T.stopper.evaluate ec (traj cfg.fit s T.epoch).1 T.epoch
              (ec.vloss T.epoch (traj cfg.fit s T.epoch).1)).2, true, T.epoch⟩, ?_, rfl, ?_⟩
        · simp [earlyPart, hE, heval, bind, Except.bind, stopPart, hstop.mpr hS, hbest, h6,
            Except.map]
        · refine ⟨hl, fun ec' hec' => ?_, ?_, fun hh => absurd hh (by simp), fun _ => ?_⟩
          · rw [hE] at hec'; obtain rfl := Option.some.inj hec'; exact hseq
          · simp only [true_iff]; exact ⟨ec, hE, hS⟩
          · refine ⟨ec, k, hE, hk, rfl, _, h7, h3.init, h3.default, rfl, fun j hj => ?_, fun j hj => ?_⟩
            · have e1 : (a1.save (traj cfg.fit s (k * ec.freq)).1 .best (some (k * ec.freq)) true).epoch j
                = if k * ec.freq < j then none else a1.epoch j := rfl
              rw [e1, if_pos hj]
            · have e1 : (a1.save (traj cfg.fit s (k * ec.freq)).1 .best (some (k * ec.freq)) true).epoch j
                = if k * ec.freq < j then none else a1.epoch j := rfl
              rw [e1, if_neg (by omega)]
              exact h3.kept j (hj.trans hkle)
      · have hfalse : (T.stopper.evaluate ec (traj cfg.fit s T.epoch).1 T.epoch
            (ec.vloss T.epoch (traj cfg.fit s T.epoch).1)).1 = false := by
          rw [← Bool.not_eq_true, hstop]; exact hS
        refine ⟨⟨d2, (traj cfg.fit s T.epoch).1, T.losses ++ [(traj cfg.fit s T.epoch).2],
            (T.stopper.evaluate ec (traj cfg.fit s T.epoch).1 T.epoch
              (ec.vloss T.epoch (traj cfg.fit s T.epoch).1)).2, false, T.epoch⟩,
            by simp [earlyPart, hE, heval, bind, Except.bind, stopPart, hfalse], rfl, ?_⟩
        refine ⟨hl, fun ec' hec' => ?_, ?_, fun _ => ⟨rfl, a1, h5, h3⟩, fun hh => absurd hh (by simp)⟩
        · rw [hE] at hec'; obtain rfl := Option.some.inj hec'; exact hseq
        · simp only [Bool.false_eq_true, false_iff]
          rintro ⟨ec', hec', hh⟩
          rw [hE] at hec'; obtain rfl := Option.some.inj hec'; exact hS hh
    · have heval : evaluatePart cfg ec ⟨d1, (traj cfg.fit s T.epoch).1, T.losses ++ [(traj cfg.fit s T.epoch).2], T.stopper,
        T.stop, T.epoch⟩
          = .ok ⟨d1, (traj cfg.fit s T.epoch).1, T.losses ++ [(traj cfg.fit s T.epoch).2], T.stopper,
        T.stop, T.epoch⟩ := by
        simp [evaluatePart, isEvaluate, hf.ne', hm, bind, Except.bind]
      refine ⟨⟨d1, (traj cfg.fit s T.epoch).1, T.losses ++ [(traj cfg.fit s T.epoch).2], T.stopper,
        T.stop, T.epoch⟩, ?_, rfl, ?_⟩
      · rw [earlyPart, hE]
        show (evaluatePart cfg ec _ >>= stopPart cfg) = _
        rw [heval]
        show stopPart cfg _ = _
        exact if_neg (by simp [h.stop])
      refine ⟨hl, fun ec' hec' => ?_, ?_, fun _ => ⟨rfl, a1, h2, h3⟩,
        fun hs => absurd (h.stop.symm.trans hs) (by simp)⟩
      · rw [hE] at hec'; obtain rfl := Option.some.inj hec'
        show T.stopper = _
        rw [numV, if_neg hm, hst]
      · simp only [h.stop, Bool.false_eq_true, false_iff]
        rintro ⟨ec', hec', hh⟩
        rw [hE] at hec'; obtain rfl := Option.some.inj hec'; exact hm hh.1

/-- The loop ends at the first epoch which stops training, or at the last one. -/
theorem trainLoop_ok {cfg : TrainCfg σ} {s : σ} {b : Ckpt σ} {w : ℕ → ℝ}
    (hloss : StartsFinite fun e => (traj cfg.fit s e).2) (h0 : cfg.saveEvery ≠ some 0)
    (hec : ∀ ec, cfg.early = some ec → EarlyOk ec (fun e => (traj cfg.fit s e).1) w ∧
      (cfg.saveEvery ≠ none ∨ b.epoch 0 = none)) (rem : ℕ)
    {T : TrainState σ} (h : LoopPre cfg s b T)
    (hbefore : ∀ ec, cfg.early = some ec → ∀ e < T.epoch, ¬ StopsAt ec w e) :
    ∃ T', trainLoop cfg rem T = .ok T' ∧ LoopPost cfg s b w T' ∧ T'.epoch ≤ T.epoch + rem ∧
      (T'.stop = false → T'.epoch = T.epoch + rem) ∧
      ∀ ec, cfg.early = some ec → ∀ e < T'.epoch, ¬ StopsAt ec w e := by
  induction rem generalizing T with
  | zero =>
    obtain ⟨T', h1, h2, h3⟩ := epochBody_ok hloss h0 hec h
    refine ⟨T', h1, h3, h2.le, fun _ => h2, ?_⟩
    rw [h2]
    exact hbefore
  | succ rem ih =>
    obtain ⟨T', h1, h2, h3⟩ := epochBody_ok hloss h0 hec h
    cases hs : T'.stop with
    | true =>
      refine ⟨T', by simp [trainLoop, h1, bind, Except.bind, hs], h3, by omega, fun hh => ?_, ?_⟩
      · rw [hs] at hh; cases hh
      · rw [h2]; exact hbefore
    | false =>
      obtain ⟨hm, hstore⟩ := h3.go hs
      have hpre : LoopPre cfg s b { T' with epoch := T'.epoch + 1 } := by
        refine ⟨?_, h3.losses, hs, h3.stopper, hstore⟩
        show cfg.fit (T'.epoch + 1) T'.model = traj cfg.fit s (T'.epoch + 1)
        rw [hm]; rfl
      obtain ⟨T2, h4, h5, h6, h7, h8⟩ := ih hpre (by
        intro ec hE e he
        rcases Nat.lt_succ_iff_lt_or_eq.mp he with he | rfl
        · exact hbefore ec hE e (h2 ▸ he)
        · intro hh
          have := h3.stops.mpr ⟨ec, hE, hh⟩
          rw [hs] at this; cases this)
      refine ⟨T2, ?_, h5, ?_, fun hh => ?_, h8⟩
      · show (epochBody cfg T >>= _) = _
        rw [h1]
        show (if T'.stop = true then _ else _) = _
        exact (if_neg (by simp [hs])).trans h4
      · have : T2.epoch ≤ T'.epoch + 1 + rem := h6
        omega
      · have : T2.epoch = T'.epoch + 1 + rem := h7 hh
        omega

end

end Hooke
