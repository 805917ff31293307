import Verif.Spec.ModelState
import Verif.Lemmas.ModelState

/-!
# C47-C51: model state files
-/

namespace Hooke

variable {σ : Type} {name : FName}

/-! ## Removal loops -/

theorem removeLoop_ok {p : FName → Py Bool} {q : FName → Bool} {l : List FName}
    (h : ∀ f ∈ l, p f = .ok (q f)) :
    removeLoop (σ := σ) p l = (.ok (), (l.filter q).map .remove) := by
  induction l with
  | nil => rfl
  | cons f fs ih =>
    have hf := h f List.mem_cons_self
    have ih' := ih fun g hg => h g (List.mem_cons_of_mem _ hg)
    cases hq : q f <;> simp [removeLoop, hf, hq, ih']

theorem applyOps_append (d : Dir σ) (o1 o2 : List (FsOp σ)) :
    applyOps d (o1 ++ o2) = applyOps (applyOps d o1) o2 := by simp [applyOps]

theorem applyOps_remove {d : Dir σ} (hd : d.keys.Nodup) (l : List FName) :
    (applyOps d (l.map .remove)).keys.Nodup ∧
    (∀ f, (applyOps d (l.map .remove)).get? f = if f ∈ l then none else d.get? f) ∧
    ∀ f ∈ (applyOps d (l.map .remove)).keys, f ∈ d.keys := by
  induction l generalizing d with
  | nil => simp [applyOps, hd]
  | cons g gs ih =>
    obtain ⟨h1, h2, h3⟩ := ih (d := d.del g) (KDict.nodup_del hd g)
    have e : applyOps d ((g :: gs).map .remove) = applyOps (d.del g) (gs.map .remove) := rfl
    rw [e]
    refine ⟨h1, fun f => ?_, fun f hf => ?_⟩
    · rw [h2, KDict.get?_del hd]
      by_cases hg : f = g
      · subst hg; simp
      · by_cases hgs : f ∈ gs <;> simp [hg, hgs]
    · have := h3 f hf
      obtain ⟨v, hv⟩ := KDict.mem_keys_iff.mp this
      rw [KDict.get?_del hd] at hv
      split_ifs at hv
      exact KDict.mem_keys_iff.mpr ⟨v, hv⟩

theorem Represents.checkState {d : Dir σ} {a : Ckpt σ} (h : Represents name d a) {f : FName}
    (hf : f ∈ d.keys) : ∃ o, checkStateFile name f = .ok o ∧ ∀ k, o = some k → f = epochFile name k := by
  rcases h.known f hf with ⟨h1, -⟩ | ⟨k, rfl⟩ | ⟨k, rfl⟩
  · exact ⟨none, h1, by simp⟩
  · refine ⟨some k, checkStateFile_epochFile name k, fun j hj => ?_⟩
    obtain rfl := Option.some.inj hj
    rfl
  · rw [stateFile_best]
    exact ⟨none, checkStateFile_bestFile name k, by simp⟩

theorem Represents.checkBest {d : Dir σ} {a : Ckpt σ} (h : Represents name d a) {f : FName}
    (hf : f ∈ d.keys) : ∃ o, checkBestFile name f = .ok o ∧ ∀ k, o = some k → f = bestFile name k := by
  rcases h.known f hf with ⟨-, h1⟩ | ⟨k, rfl⟩ | ⟨k, rfl⟩
  · exact ⟨none, h1, by simp⟩
  · exact ⟨none, checkBestFile_epochFile name k, by simp⟩
  · rw [stateFile_best]
    refine ⟨some k, checkBestFile_bestFile name k, fun j hj => ?_⟩
    obtain rfl := Option.some.inj hj
    rfl

/-- The directory read through the plain names. -/
structure Rep (name : FName) (d : Dir σ) (a : Ckpt σ) : Prop where
  nodup : d.keys.Nodup
  default : d.get? (defaultFile name) = a.default.map .full
  init : d.get? (initFile name) = a.init.map .full
  epoch : ∀ k, d.get? (epochFile name k) = (a.epoch k).map .full
  best : ∀ k, d.get? (bestFile name k)
    = (a.best.bind fun p => if p.1 = k then some p.2 else none).map .full
  known : ∀ f ∈ d.keys, Unrelated name f ∨ (∃ k, f = epochFile name k) ∨ ∃ k, f = bestFile name k

theorem represents_iff {d : Dir σ} {a : Ckpt σ} : Represents name d a ↔ Rep name d a := by
  constructor
  · rintro ⟨h1, h2, h3, h4, h5, h6⟩
    simp only [stateFile_best, stateFile_init, (stateFile_default name).1,
      (stateFile_epoch name _).1] at h2 h3 h4 h5 h6
    exact ⟨h1, h2, h3, h4, h5, h6⟩
  · rintro ⟨h1, h2, h3, h4, h5, h6⟩
    refine ⟨h1, ?_, ?_, ?_, ?_, ?_⟩
    all_goals simpa only [stateFile_best, stateFile_init, (stateFile_default name).1,
      (stateFile_epoch name _).1]

/-- The epoch files after `k`. -/
def isPosterior (name : FName) (k : ℕ) (f : FName) : Bool :=
  match checkStateFile name f with
  | .ok (some e) => decide (e > k)
  | _ => false

theorem isPosterior_epochFile (j k : ℕ) : isPosterior name k (epochFile name j) = decide (j > k) := by
  simp [isPosterior, checkStateFile_epochFile]

theorem removePosterior_ok {d : Dir σ} {a : Ckpt σ} (h : Represents name d a) (k : ℕ) :
    removePosterior (σ := σ) name d k
      = (.ok (), (d.keys.filter (isPosterior name k)).map .remove) := by
  refine removeLoop_ok fun f hf => ?_
  obtain ⟨o, ho, -⟩ := h.checkState hf
  rw [isPosterior, ho]
  cases o <;> rfl

theorem get?_filter_remove {d : Dir σ} (hd : d.keys.Nodup) (q : FName → Bool) (f : FName) :
    (applyOps d ((d.keys.filter q).map .remove)).get? f = if q f then none else d.get? f := by
  rw [(applyOps_remove hd _).2.1]
  by_cases hq : q f = true
  · rw [if_pos hq]
    split_ifs with hf
    · rfl
    · exact KDict.get?_eq_none.mpr fun hk => hf (List.mem_filter.mpr ⟨hk, hq⟩)
  · rw [if_neg hq, if_neg fun hf => hq (List.mem_filter.mp hf).2]

theorem Represents.dropAfter {d : Dir σ} {a : Ckpt σ} (h : Represents name d a) (k : ℕ) :
    Represents name (applyOps d ((d.keys.filter (isPosterior name k)).map .remove))
      (a.dropAfter k) := by
  have hr := represents_iff.mp h
  have hap := applyOps_remove h.nodup (d.keys.filter (isPosterior name k))
  rw [represents_iff]
  refine ⟨hap.1, ?_, ?_, fun j => ?_, fun j => ?_, fun f hf => hr.known f (hap.2.2 f hf)⟩
  · rw [get?_filter_remove h.nodup, isPosterior, checkStateFile_defaultFile]
    exact hr.default
  · rw [get?_filter_remove h.nodup, isPosterior, checkStateFile_initFile]
    exact hr.init
  · rw [get?_filter_remove h.nodup, isPosterior_epochFile]
    show _ = (if k < j then none else a.epoch j).map Content.full
    by_cases hj : k < j
    · simp [hj]
    · simp [hj, hr.epoch]
  · rw [get?_filter_remove h.nodup, isPosterior, checkStateFile_bestFile]
    exact hr.best j

theorem Represents.saveOps2 {d : Dir σ} {a : Ckpt σ} (h : Represents name d a) (epoch : Option ℕ)
    (rm : Bool) : ∃ ops, Hooke.saveOps2 name d epoch rm = (.ok (), ops) ∧
      Represents name (applyOps d ops) (a.dropIf epoch rm) := by
  cases epoch with
  | none => exact ⟨[], rfl, h⟩
  | some k =>
    cases rm with
    | false => exact ⟨[], rfl, h⟩
    | true => exact ⟨_, removePosterior_ok h k, h.dropAfter k⟩

/-- The best files. -/
def isBest (name : FName) (f : FName) : Bool :=
  match checkBestFile name f with
  | .ok (some _) => true
  | _ => false

theorem removeBest_ok {d : Dir σ} {a : Ckpt σ} (h : Represents name d a) :
    removeBest (σ := σ) name d = (.ok (), (d.keys.filter (isBest name)).map .remove) := by
  refine removeLoop_ok fun f hf => ?_
  obtain ⟨o, ho, -⟩ := h.checkBest hf
  rw [isBest, ho]
  cases o <;> rfl

theorem Represents.dropBest {d : Dir σ} {a : Ckpt σ} (h : Represents name d a) :
    Represents name (applyOps d ((d.keys.filter (isBest name)).map .remove))
      { a with best := none } := by
  have hr := represents_iff.mp h
  have hap := applyOps_remove h.nodup (d.keys.filter (isBest name))
  rw [represents_iff]
  refine ⟨hap.1, ?_, ?_, fun j => ?_, fun j => ?_, fun f hf => hr.known f (hap.2.2 f hf)⟩
  · rw [get?_filter_remove h.nodup, isBest, checkBestFile_defaultFile]
    exact hr.default
  · rw [get?_filter_remove h.nodup, isBest, checkBestFile_initFile]
    exact hr.init
  · rw [get?_filter_remove h.nodup, isBest, checkBestFile_epochFile]
    exact hr.epoch j
  · rw [get?_filter_remove h.nodup, isBest, checkBestFile_bestFile]
    rfl

/-! ## Writing -/

theorem put_put (d : Dir σ) (f : FName) (x y : Content σ) : (d.put f x).put f y = d.put f y := by
  induction d with
  | nil => simp [KDict.put]
  | cons p d ih =>
    obtain ⟨k, v⟩ := p
    by_cases h : k = f <;> simp [KDict.put, h, ih]

theorem applyOps_write (d : Dir σ) (f : FName) (s : σ) :
    applyOps d (writeOps f s) = d.put f (.full s) := by
  simp [applyOps, writeOps, FsOp.apply, put_put]

theorem mem_keys_put {d : Dir σ} {f g : FName} {x : Content σ} (h : g ∈ (d.put f x).keys) :
    g = f ∨ g ∈ d.keys := by
  rw [KDict.keys_put] at h
  split_ifs at h
  · exact .inr h
  · rcases List.mem_append.mp h with h | h
    · exact .inr h
    · exact .inl (List.mem_singleton.mp h)

theorem unrelated_default : Unrelated name (defaultFile name) :=
  ⟨checkStateFile_defaultFile name, checkBestFile_defaultFile name⟩

theorem unrelated_init : Unrelated name (initFile name) :=
  ⟨checkStateFile_initFile name, checkBestFile_initFile name⟩

theorem Represents.put_default {d : Dir σ} {a : Ckpt σ} (h : Represents name d a) (s : σ) :
    Represents name (d.put (defaultFile name) (.full s)) { a with default := some s } := by
  have hr := represents_iff.mp h
  rw [represents_iff]
  refine ⟨KDict.nodup_put hr.nodup _ _, KDict.get?_put_self _ _ _, ?_, fun k => ?_, fun k => ?_,
    fun f hf => ?_⟩
  · rw [KDict.get?_put_ne _ _ (initFile_ne_defaultFile name)]; exact hr.init
  · rw [KDict.get?_put_ne _ _ (epochFile_ne_defaultFile name k)]; exact hr.epoch k
  · rw [KDict.get?_put_ne _ _ (bestFile_ne_defaultFile name k)]; exact hr.best k
  · rcases mem_keys_put hf with rfl | hf
    · exact .inl unrelated_default
    · exact hr.known f hf

theorem Represents.put_init {d : Dir σ} {a : Ckpt σ} (h : Represents name d a) (s : σ) :
    Represents name (d.put (initFile name) (.full s)) { a with init := some s } := by
  have hr := represents_iff.mp h
  rw [represents_iff]
  refine ⟨KDict.nodup_put hr.nodup _ _, ?_, KDict.get?_put_self _ _ _, fun k => ?_, fun k => ?_,
    fun f hf => ?_⟩
  · rw [KDict.get?_put_ne _ _ (initFile_ne_defaultFile name).symm]; exact hr.default
  · rw [KDict.get?_put_ne _ _ (epochFile_ne_initFile name k)]; exact hr.epoch k
  · rw [KDict.get?_put_ne _ _ (bestFile_ne_initFile name k)]; exact hr.best k
  · rcases mem_keys_put hf with rfl | hf
    · exact .inl unrelated_init
    · exact hr.known f hf

theorem Represents.put_epoch {d : Dir σ} {a : Ckpt σ} (h : Represents name d a) (k : ℕ) (s : σ) :
    Represents name (d.put (epochFile name k) (.full s))
      { a with epoch := fun j => if j = k then some s else a.epoch j } := by
  have hr := represents_iff.mp h
  rw [represents_iff]
  refine ⟨KDict.nodup_put hr.nodup _ _, ?_, ?_, fun j => ?_, fun j => ?_, fun f hf => ?_⟩
  · rw [KDict.get?_put_ne _ _ (epochFile_ne_defaultFile name k).symm]; exact hr.default
  · rw [KDict.get?_put_ne _ _ (epochFile_ne_initFile name k).symm]; exact hr.init
  · rw [KDict.get?_put]
    by_cases hj : j = k
    · simp [hj]
    · simp [epochFile_inj, hj, hr.epoch]
  · rw [KDict.get?_put_ne _ _ (epochFile_ne_bestFile name k j).symm]; exact hr.best j
  · rcases mem_keys_put hf with rfl | hf
    · exact .inr (.inl ⟨k, rfl⟩)
    · exact hr.known f hf

theorem Represents.put_best {d : Dir σ} {a : Ckpt σ} (h : Represents name d a)
    (hb : a.best = none) (k : ℕ) (s : σ) :
    Represents name (d.put (bestFile name k) (.full s)) { a with best := some (k, s) } := by
  have hr := represents_iff.mp h
  rw [represents_iff]
  refine ⟨KDict.nodup_put hr.nodup _ _, ?_, ?_, fun j => ?_, fun j => ?_, fun f hf => ?_⟩
  · rw [KDict.get?_put_ne _ _ (bestFile_ne_defaultFile name k).symm]; exact hr.default
  · rw [KDict.get?_put_ne _ _ (bestFile_ne_initFile name k).symm]; exact hr.init
  · rw [KDict.get?_put_ne _ _ (epochFile_ne_bestFile name j k)]; exact hr.epoch j
  · rw [KDict.get?_put]
    by_cases hj : j = k
    · simp [hj]
    · have hj' : k ≠ j := fun e => hj e.symm
      simp [bestFile_inj, hj, hj', hr.best, hb]
  · rcases mem_keys_put hf with rfl | hf
    · exact .inr (.inr ⟨k, rfl⟩)
    · exact hr.known f hf

/-- Saving has the intended effect. -/
theorem saveState_represents {d : Dir σ} {a : Ckpt σ} (h : Represents name d a) (s : σ)
    (t : StateType) (epoch : Option ℕ) (rm : Bool) (hb : t = .best → epoch ≠ none) :
    ∃ d', saveState name d s t epoch rm = (.ok (), d') ∧
      Represents name d' (a.save s t epoch rm) := by
  have key : ∀ (ops1 : List (FsOp σ)), saveOps1 name d t = (.ok (), ops1) →
      Represents name ((applyOps d ops1).put (stateFile name t epoch) (.full s))
        (a.store s t epoch) →
      ∃ d', saveState name d s t epoch rm = (.ok (), d') ∧
        Represents name d' (a.save s t epoch rm) := by
    intro ops1 h1 h2
    rw [← applyOps_write] at h2
    obtain ⟨ops2, h3, h4⟩ := h2.saveOps2 epoch rm
    refine ⟨_, ?_, h4⟩
    simp only [saveState, saveOps, h1, h3, applyOps_append]
  cases t with
  | init =>
    refine key [] rfl ?_
    rw [stateFile_init]
    exact h.put_init s
  | default =>
    refine key [] rfl ?_
    cases epoch with
    | none => rw [(stateFile_default name).1]; exact h.put_default s
    | some k => exact h.put_epoch k s
  | epoch =>
    refine key [] rfl ?_
    cases epoch with
    | none => rw [(stateFile_default name).2]; exact h.put_default s
    | some k => exact h.put_epoch k s
  | best =>
    cases epoch with
    | none => exact absurd rfl (hb rfl)
    | some k =>
      refine key _ (by simp only [saveOps1, if_true]; exact removeBest_ok h) ?_
      rw [stateFile_best]
      exact h.dropBest.put_best rfl k s

/-! ## Reading -/

theorem readState_full {d : Dir σ} {f : FName} {o : Option σ} (h : d.get? f = o.map .full)
    (epoch : Option ℕ) : ((readState d f).map fun s => (epoch, s)) = Ckpt.found o epoch := by
  unfold readState
  rw [h]
  cases o <;> rfl

theorem listEpochs_ok {check : FName → Py (Option ℕ)} {l : List FName}
    (h : ∀ f ∈ l, ∃ o, check f = .ok o) :
    ∃ es, listEpochs check l = .ok es ∧ ∀ k, k ∈ es ↔ ∃ f ∈ l, check f = .ok (some k) := by
  induction l with
  | nil => exact ⟨[], rfl, by simp⟩
  | cons f fs ih =>
    obtain ⟨o, ho⟩ := h f List.mem_cons_self
    obtain ⟨es, h1, h2⟩ := ih fun g hg => h g (List.mem_cons_of_mem _ hg)
    refine ⟨o.toList ++ es, by simp [listEpochs, ho, h1, bind, Except.bind, Except.map], fun k => ?_⟩
    rw [List.mem_append, h2]
    simp only [List.mem_cons, exists_eq_or_imp, ho, Except.ok.injEq]
    cases o with
    | none => simp
    | some j => simp [eq_comm]

theorem mem_keys_epoch {d : Dir σ} {a : Ckpt σ} (h : Represents name d a) (k : ℕ) :
    epochFile name k ∈ d.keys ↔ ∃ s, a.epoch k = some s := by
  rw [KDict.mem_keys_iff, (represents_iff.mp h).epoch k]
  cases a.epoch k <;> simp

theorem listEpochs_state {d : Dir σ} {a : Ckpt σ} (h : Represents name d a) :
    ∃ es, listEpochs (checkStateFile name) d.keys = .ok es ∧
      ∀ k, k ∈ es ↔ ∃ s, a.epoch k = some s := by
  obtain ⟨es, h1, h2⟩ := listEpochs_ok (check := checkStateFile name) (l := d.keys) fun f hf => by
    obtain ⟨o, ho, -⟩ := h.checkState hf
    exact ⟨o, ho⟩
  refine ⟨es, h1, fun k => ?_⟩
  rw [h2, ← mem_keys_epoch h]
  constructor
  · rintro ⟨f, hf, hk⟩
    obtain ⟨o, ho, ho'⟩ := h.checkState hf
    rw [hk] at ho
    exact (ho' k (Except.ok.inj ho).symm) ▸ hf
  · intro hk
    exact ⟨_, hk, checkStateFile_epochFile name k⟩

theorem listEpochs_nodup_best (l : List FName) (hl : l.Nodup)
    (h : ∀ f ∈ l, ∃ o, checkBestFile name f = .ok o ∧ ∀ k, o = some k → f = bestFile name k) :
    ∃ es, listEpochs (checkBestFile name) l = .ok es ∧ es.Nodup ∧
      ∀ k, k ∈ es ↔ bestFile name k ∈ l := by
  induction l with
  | nil => exact ⟨[], rfl, by simp, by simp⟩
  | cons f fs ih =>
    obtain ⟨hf, hfs⟩ := List.nodup_cons.mp hl
    obtain ⟨o, ho, ho'⟩ := h f List.mem_cons_self
    obtain ⟨es, h1, h2, h3⟩ := ih hfs fun g hg => h g (List.mem_cons_of_mem _ hg)
    refine ⟨o.toList ++ es, by simp [listEpochs, ho, h1, bind, Except.bind, Except.map], ?_, ?_⟩
    · cases o with
      | none => simpa using h2
      | some j =>
        simp only [Option.toList_some, List.cons_append, List.nil_append, List.nodup_cons]
        refine ⟨fun hj => hf ?_, h2⟩
        rw [ho' j rfl]
        exact (h3 j).mp hj
    · intro k
      rw [List.mem_append, h3, List.mem_cons]
      cases o with
      | none =>
        simp only [Option.toList_none, List.not_mem_nil, false_or]
        refine ⟨.inr, fun hk => hk.resolve_left ?_⟩
        rintro rfl
        rw [checkBestFile_bestFile] at ho
        cases ho
      | some j =>
        rw [ho' j rfl, bestFile_inj]
        simp

theorem mem_keys_best {d : Dir σ} {a : Ckpt σ} (h : Represents name d a) (k : ℕ) :
    bestFile name k ∈ d.keys ↔ ∃ s, a.best = some (k, s) := by
  rw [KDict.mem_keys_iff, (represents_iff.mp h).best k]
  cases a.best with
  | none => simp
  | some p =>
    obtain ⟨j, s⟩ := p
    by_cases hj : j = k <;> simp [hj]

theorem listEpochs_best {d : Dir σ} {a : Ckpt σ} (h : Represents name d a) :
    listEpochs (checkBestFile name) d.keys = .ok (a.best.map Prod.fst).toList := by
  obtain ⟨es, h1, h2, h3⟩ := listEpochs_nodup_best d.keys h.nodup fun f hf => h.checkBest hf
  rw [h1]
  congr 1
  cases hb : a.best with
  | none =>
    show es = []
    refine List.eq_nil_iff_forall_not_mem.mpr fun k hk => ?_
    rw [h3, mem_keys_best h, hb] at hk
    simp at hk
  | some p =>
    obtain ⟨j, s⟩ := p
    have hmem : ∀ k, k ∈ es ↔ k = j := by
      intro k
      rw [h3, mem_keys_best h, hb]
      simp [eq_comm]
    show es = [j]
    match es, h2, hmem with
    | [], _, hm => exact absurd ((hm j).mpr rfl) (by simp)
    | [x], _, hm => rw [(hm x).mp (by simp)]
    | x :: y :: es, hn, hm =>
      have hx := (hm x).mp (by simp)
      have hy := (hm y).mp (by simp)
      simp [hx, hy] at hn

theorem foldl_max_epoch (es : List ℕ) (e : ℕ) :
    es.foldl max e ∈ e :: es ∧ ∀ k ∈ e :: es, k ≤ es.foldl max e := by
  induction es generalizing e with
  | nil => simp
  | cons x es ih =>
    obtain ⟨h1, h2⟩ := ih (max e x)
    rw [List.foldl_cons]
    constructor
    · rcases List.mem_cons.mp h1 with h | h
      · rw [h]
        rcases max_choice e x with h' | h' <;> rw [h'] <;> simp
      · exact List.mem_cons_of_mem _ (List.mem_cons_of_mem _ h)
    · intro k hk
      have hm := h2 (max e x) List.mem_cons_self
      rcases List.mem_cons.mp hk with rfl | hk
      · exact (le_max_left _ _).trans hm
      · rcases List.mem_cons.mp hk with rfl | hk
        · exact (le_max_right _ _).trans hm
        · exact h2 k (List.mem_cons_of_mem _ hk)

theorem removeThenRead_ok {d : Dir σ} {a : Ckpt σ} (h : Represents name d a) (f : FName) (k : ℕ)
    (rm : Bool) {o : Option σ}
    (ho : ∀ d', Represents name d' (a.dropIf (some k) rm) → d'.get? f = o.map .full) :
    (removeThenRead name d f k rm).1 = Ckpt.found o (some k) ∧
      Represents name (removeThenRead name d f k rm).2 (a.dropIf (some k) rm) := by
  obtain ⟨ops, h1, h2⟩ := h.saveOps2 (some k) rm
  unfold removeThenRead
  rw [h1]
  exact ⟨readState_full (ho _ h2) _, h2⟩

theorem dropIf_epoch_self (a : Ckpt σ) (k : ℕ) (rm : Bool) :
    (a.dropIf (some k) rm).epoch k = a.epoch k := by
  cases rm <;> simp [Ckpt.dropIf, Ckpt.dropAfter]

theorem dropIf_other (a : Ckpt σ) (o : Option ℕ) (rm : Bool) :
    (a.dropIf o rm).init = a.init ∧ (a.dropIf o rm).default = a.default ∧
      (a.dropIf o rm).best = a.best := by
  cases o <;> cases rm <;> simp [Ckpt.dropIf, Ckpt.dropAfter]

/-- Loading has the intended outcome and effect. -/
theorem loadState_represents {d : Dir σ} {a : Ckpt σ} (h : Represents name d a) (req : LoadState)
    (rm : Bool) : ∃ a', a.Load req rm (loadState name d req rm).1 a' ∧
      Represents name (loadState name d req rm).2 a' := by
  cases req with
  | default =>
    exact ⟨a, ⟨readState_full h.default none, rfl⟩, h⟩
  | init =>
    obtain ⟨h1, h2⟩ := removeThenRead_ok h (stateFile name .init none) 0 rm (o := a.init)
      fun d' hd' => by rw [hd'.init, (dropIf_other a _ _).1]
    exact ⟨_, ⟨h1, rfl⟩, h2⟩
  | int k =>
    obtain ⟨h1, h2⟩ := removeThenRead_ok h (stateFile name .epoch (some k)) k rm (o := a.epoch k)
      fun d' hd' => by rw [hd'.epoch, dropIf_epoch_self]
    exact ⟨_, ⟨h1, rfl⟩, h2⟩
  | best =>
    have hl := listEpochs_best h
    cases hb : a.best with
    | none =>
      refine ⟨a, ?_, ?_⟩
      · simp [Ckpt.Load, hb, loadState, hl]
      · simp only [loadState, hl, hb]
        exact h
    | some p =>
      obtain ⟨k, s⟩ := p
      obtain ⟨h1, h2⟩ := removeThenRead_ok h (stateFile name .best (some k)) k rm (o := some s)
        fun d' hd' => by rw [hd'.best, (dropIf_other a _ _).2.2, hb]; simp
      have hload : loadState name d .best rm
          = removeThenRead name d (stateFile name .best (some k)) k rm := by
        simp only [loadState, hl, hb]
        rfl
      rw [hload]
      refine ⟨a.dropIf (some k) rm, ?_, h2⟩
      simp only [Ckpt.Load, hb]
      exact ⟨h1, trivial⟩
  | last =>
    obtain ⟨es, h1, h2⟩ := listEpochs_state h
    cases es with
    | nil =>
      refine ⟨a, ?_, ?_⟩
      · refine ⟨rfl, .inr ⟨fun k => ?_, ?_⟩⟩
        · cases hk : a.epoch k with
          | none => rfl
          | some s => exact absurd ((h2 k).mpr ⟨s, hk⟩) (by simp)
        · simp [loadState, h1]
      · simp only [loadState, h1]
        exact h
    | cons e es =>
      obtain ⟨hm, hmax⟩ := foldl_max_epoch es e
      obtain ⟨s, hs⟩ := (h2 _).mp hm
      refine ⟨a, ⟨rfl, .inl ⟨es.foldl max e, s, hs, fun j hj => ?_, ?_⟩⟩, ?_⟩
      · cases hk : a.epoch j with
        | none => rfl
        | some s' =>
          have := hmax j ((h2 j).mpr ⟨s', hk⟩)
          omega
      · have := readState_full (h.epoch (es.foldl max e)) (some (es.foldl max e))
        rw [hs] at this
        simp only [loadState, h1]
        exact this
      · simp only [loadState, h1]
        exact h

/-- **C47** (refinement). For every directory holding the states of a store, and every history of
saves (best states with their epoch) and loads, with every choice of the removal option: all calls
return, or raise, what the abstract store prescribes, and the directory holds the states of the
resulting store. -/
theorem C47_refinement (name : FName) (ops : List (CkptOp σ)) (hops : ∀ op ∈ ops, op.Ok)
    (d : Dir σ) (a : Ckpt σ) (h : Represents name d a) :
    ∃ a', CkptSpec a ops (runCkpt name d ops).1 a' ∧ Represents name (runCkpt name d ops).2 a' := by
  induction ops generalizing d a with
  | nil => exact ⟨a, .nil a, h⟩
  | cons op ops ih =>
    have hrest := fun op' h' => hops op' (List.mem_cons_of_mem _ h')
    have hop := hops op List.mem_cons_self
    cases op with
    | save s t epoch rm =>
      obtain ⟨d', h1, h2⟩ := saveState_represents h s t epoch rm (by
        rintro rfl rfl
        exact hop)
      obtain ⟨a', h3, h4⟩ := ih hrest d' _ h2
      refine ⟨a', ?_, ?_⟩
      · have e : (CkptOp.run name d (.save s t epoch rm)) = (.ok none, d') := by
          simp [CkptOp.run, h1, Except.map]
        simp only [runCkpt, e]
        exact .save h3
      · have e : (CkptOp.run name d (.save s t epoch rm)) = (.ok none, d') := by
          simp [CkptOp.run, h1, Except.map]
        simp only [runCkpt, e]
        exact h4
    | load req rm =>
      obtain ⟨a1, h1, h2⟩ := loadState_represents h req rm
      obtain ⟨a', h3, h4⟩ := ih hrest _ a1 h2
      exact ⟨a', .load h1 h3, h4⟩

/-- The empty directory holds the empty store. -/
theorem represents_empty (name : FName) : Represents name ([] : Dir σ) Ckpt.empty := by
  refine ⟨by simp [KDict.keys], rfl, rfl, fun k => rfl, fun k => rfl, fun f hf => ?_⟩
  simp [KDict.keys] at hf

/-- Directories reached from the empty directory by histories of saves and loads. -/
def ReachableDir (name : FName) (d : Dir σ) : Prop :=
  ∃ ops : List (CkptOp σ), (∀ op ∈ ops, op.Ok) ∧ d = (runCkpt name [] ops).2

theorem ReachableDir.represents {d : Dir σ} (h : ReachableDir name d) :
    ∃ a, Represents name d a := by
  obtain ⟨ops, h1, rfl⟩ := h
  obtain ⟨a, -, ha⟩ := C47_refinement name ops h1 [] Ckpt.empty (represents_empty name)
  exact ⟨a, ha⟩

/-- **C47** (save then load). In every reachable directory a state saved as initial state, as epoch
`k` or as best of epoch `k` is returned by the corresponding load with its epoch, and a state saved
as epoch `k` removing later epochs is the one returned by loading the last. -/
theorem C47_save_load (name : FName) (d : Dir σ) (hd : ReachableDir name d) (s : σ) (k : ℕ)
    (rm rm' : Bool) :
    (loadState name (saveState name d s .init none rm).2 .init rm').1 = .ok (some 0, s) ∧
    (loadState name (saveState name d s .epoch (some k) rm).2 (.int k) rm').1 = .ok (some k, s) ∧
    (loadState name (saveState name d s .best (some k) rm).2 .best rm').1 = .ok (some k, s) ∧
    (loadState name (saveState name d s .default none rm).2 .default rm').1 = .ok (none, s) ∧
    (loadState name (saveState name d s .epoch (some k) true).2 .last rm').1 = .ok (some k, s) := by
  obtain ⟨a, ha⟩ := hd.represents
  have key : ∀ (t : StateType) (epoch : Option ℕ) (rm : Bool) (req : LoadState),
      (t = .best → epoch ≠ none) → ∃ a', (a.save s t epoch rm).Load req rm'
        (loadState name (saveState name d s t epoch rm).2 req rm').1 a' := by
    intro t epoch rm req ht
    obtain ⟨d', h1, h2⟩ := saveState_represents ha s t epoch rm ht
    obtain ⟨a', h3, -⟩ := loadState_represents h2 req rm'
    rw [h1]
    exact ⟨a', h3⟩
  refine ⟨?_, ?_, ?_, ?_, ?_⟩
  · obtain ⟨a', h1, -⟩ := key .init none rm .init (by simp)
    rw [h1]
    simp [Ckpt.save, Ckpt.store, Ckpt.dropIf, Ckpt.found]
  · obtain ⟨a', h1, -⟩ := key .epoch (some k) rm (.int k) (by simp)
    rw [h1, Ckpt.save, dropIf_epoch_self]
    simp [Ckpt.store, Ckpt.found]
  · obtain ⟨a', h1⟩ := key .best (some k) rm .best (by simp)
    have hb : (a.save s .best (some k) rm).best = some (k, s) := by
      rw [Ckpt.save, (dropIf_other _ _ _).2.2]
      rfl
    simp only [Ckpt.Load, hb] at h1
    exact h1.1
  · obtain ⟨a', h1, -⟩ := key .default none rm .default (by simp)
    rw [h1]
    simp [Ckpt.save, Ckpt.store, Ckpt.dropIf, Ckpt.found]
  · obtain ⟨a', -, h1⟩ := key .epoch (some k) true .last (by simp)
    have hepoch : ∀ j, (a.save s .epoch (some k) true).epoch j
        = if k < j then none else if j = k then some s else a.epoch j := fun j => rfl
    rcases h1 with ⟨j, s', h1, h2, h3⟩ | ⟨h1, -⟩
    · rw [hepoch] at h1
      have hkj : ¬ j < k := by
        intro hlt
        have := h2 k hlt
        rw [hepoch] at this
        simp at this
      split_ifs at h1 with h4 h5
      · rw [h3, h5, Option.some.inj h1]
      · omega
    · have := h1 k
      rw [hepoch] at this
      simp at this

/-! ## C48 -/

/-- **C48** (at most one best). Every reachable directory contains at most one best state file of the
model, as recognised by the code itself. -/
theorem C48_one_best (name : FName) (d : Dir σ) (hd : ReachableDir name d) (f g : FName)
    (hf : f ∈ d.keys) (hg : g ∈ d.keys) (j k : ℕ) (hfj : checkBestFile name f = .ok (some j))
    (hgk : checkBestFile name g = .ok (some k)) : f = g := by
  obtain ⟨a, ha⟩ := hd.represents
  have key : ∀ (f : FName) (j : ℕ), f ∈ d.keys → checkBestFile name f = .ok (some j) →
      f = bestFile name j ∧ ∃ s, a.best = some (j, s) := by
    intro f j hf hfj
    obtain ⟨o, ho, ho'⟩ := ha.checkBest hf
    rw [hfj] at ho
    have := ho' j (Except.ok.inj ho).symm
    exact ⟨this, (mem_keys_best ha j).mp (this ▸ hf)⟩
  obtain ⟨h1, s, h2⟩ := key f j hf hfj
  obtain ⟨h3, s', h4⟩ := key g k hg hgk
  rw [h2] at h4
  obtain ⟨rfl, -⟩ := Prod.mk.inj (Option.some.inj h4)
  rw [h1, h3]

/-- **C48** (no posterior epochs). After saving, or successfully or unsuccessfully loading, epoch `k`
with removal, no file of a later epoch remains; all other files of the model stay. -/
theorem C48_no_posterior (name : FName) (d : Dir σ) (hd : ReachableDir name d) (s : σ) (k j : ℕ) :
    (∀ t : StateType, k < j →
      (saveState name d s t (some k) true).2.get? (stateFile name .epoch (some j)) = none) ∧
    (k < j → (loadState name d (.int k) true).2.get? (stateFile name .epoch (some j)) = none) ∧
    (j < k → (saveState name d s .epoch (some k) true).2.get? (stateFile name .epoch (some j))
      = d.get? (stateFile name .epoch (some j))) := by
  obtain ⟨a, ha⟩ := hd.represents
  refine ⟨fun t hj => ?_, fun hj => ?_, fun hj => ?_⟩
  · obtain ⟨d', h1, h2⟩ := saveState_represents ha s t (some k) true (by simp)
    rw [h1, h2.epoch]
    simp [Ckpt.save, Ckpt.dropIf, Ckpt.dropAfter, hj]
  · obtain ⟨a', ⟨-, rfl⟩, h2⟩ := loadState_represents ha (.int k) true
    rw [h2.epoch]
    simp [Ckpt.dropIf, Ckpt.dropAfter, hj]
  · obtain ⟨d', h1, h2⟩ := saveState_represents ha s .epoch (some k) true (by simp)
    rw [h1, h2.epoch, ha.epoch]
    have : ¬ k < j := by omega
    simp [Ckpt.save, Ckpt.dropIf, Ckpt.dropAfter, Ckpt.store, this, hj.ne]

/-! ## C49 -/

/-- **C49** is violated: requesting a missing epoch raises, and all later checkpoints are deleted. -/
theorem C49_missing_epoch_violated (name : FName) (d : Dir σ) (hd : ReachableDir name d) (k : ℕ)
    (hmiss : d.get? (stateFile name .epoch (some k)) = none) :
    (loadState name d (.int k) true).1 = .error .runtimeError ∧
    ∀ j, k < j → (loadState name d (.int k) true).2.get? (stateFile name .epoch (some j)) = none := by
  obtain ⟨a, ha⟩ := hd.represents
  obtain ⟨a', ⟨h1, rfl⟩, h2⟩ := loadState_represents ha (.int k) true
  refine ⟨?_, fun j hj => ?_⟩
  · rw [h1]
    have : a.epoch k = none := by
      have := ha.epoch k
      rw [hmiss] at this
      cases hk : a.epoch k with
      | none => rfl
      | some s => rw [hk] at this; simp at this
    rw [this]
    rfl
  · rw [h2.epoch]
    simp [Ckpt.dropIf, Ckpt.dropAfter, hj]

/-- **C49** is violated for the initial state too. -/
theorem C49_missing_init_violated (name : FName) (d : Dir σ) (hd : ReachableDir name d)
    (hmiss : d.get? (stateFile name .init none) = none) :
    (loadState name d .init true).1 = .error .runtimeError ∧
    ∀ j, 0 < j → (loadState name d .init true).2.get? (stateFile name .epoch (some j)) = none := by
  obtain ⟨a, ha⟩ := hd.represents
  obtain ⟨a', ⟨h1, rfl⟩, h2⟩ := loadState_represents ha .init true
  refine ⟨?_, fun j hj => ?_⟩
  · rw [h1]
    have : a.init = none := by
      have := ha.init
      rw [hmiss] at this
      cases hk : a.init with
      | none => rfl
      | some s => rw [hk] at this; simp at this
    rw [this]
    rfl
  · rw [h2.epoch]
    simp [Ckpt.dropIf, Ckpt.dropAfter, hj]

/-- **C49** holds otherwise: a failing load of the best, last or default state, or with removal
switched off, leaves the directory as it was. -/
theorem C49_failed_load_partial (name : FName) (d : Dir σ) (hd : ReachableDir name d)
    (req : LoadState) (rm : Bool) (e : PyErr) (hfail : (loadState name d req rm).1 = .error e)
    (hreq : rm = false ∨ req = .best ∨ req = .last ∨ req = .default) :
    (loadState name d req rm).2 = d := by
  obtain ⟨a, ha⟩ := hd.represents
  cases req with
  | default => rfl
  | last =>
    simp only [loadState]
    split <;> rfl
  | init =>
    obtain rfl : rm = false := by simpa using hreq
    simp [loadState, removeThenRead, saveOps2, applyOps]
  | int k =>
    obtain rfl : rm = false := by simpa using hreq
    simp [loadState, removeThenRead, saveOps2, applyOps]
  | best =>
    obtain ⟨a', h1, -⟩ := loadState_represents ha .best rm
    cases hb : a.best with
    | none =>
      simp [loadState, listEpochs_best ha, hb]
    | some p =>
      obtain ⟨k, s⟩ := p
      simp only [Ckpt.Load, hb] at h1
      rw [hfail] at h1
      exact absurd h1.1 (by simp)

/-- **C49**, several best states (as after copying files into the directory): the best state is
ambiguous, so that loading it raises and changes nothing. -/
theorem C49_several_best (name : FName) (d : Dir σ) (rm : Bool) (k j : ℕ) (hkj : k ≠ j)
    (hk : stateFile name .best (some k) ∈ KDict.keys d) (hj : stateFile name .best (some j) ∈ KDict.keys d)
    (hall : ∀ f ∈ KDict.keys d, ∃ o, checkBestFile name f = .ok o) :
    loadState name d .best rm = (.error .runtimeError, d) := by
  obtain ⟨es, h1, h2⟩ := listEpochs_ok hall
  have hk' : k ∈ es := (h2 k).2 ⟨_, hk, by rw [stateFile_best]; exact checkBestFile_bestFile name k⟩
  have hj' : j ∈ es := (h2 j).2 ⟨_, hj, by rw [stateFile_best]; exact checkBestFile_bestFile name j⟩
  simp only [loadState, h1]
  match es, hk', hj' with
  | [x], hk', hj' => simp at hk' hj'; omega
  | _ :: _ :: _, _, _ => rfl

/-- Two best states of the same model. -/
example : loadState "m".toList
    [(stateFile "m".toList .best (some 3), Content.full 1), (stateFile "m".toList .best (some 5), .full 2)]
    .best true = (.error .runtimeError, [(stateFile "m".toList .best (some 3), Content.full 1),
      (stateFile "m".toList .best (some 5), .full 2)]) := by
  refine C49_several_best _ _ _ 3 5 (by decide) (by simp [KDict.keys]) (by simp [KDict.keys]) ?_
  intro f hf
  simp only [KDict.keys, List.map_cons, List.map_nil, List.mem_cons, List.not_mem_nil, or_false] at hf
  rcases hf with rfl | rfl <;> exact ⟨_, by rw [stateFile_best]; exact checkBestFile_bestFile _ _⟩

/-- Epochs 1 and 2 saved, then epoch 0 requested: both are lost. -/
example : ∃ d : Dir ℕ, ReachableDir "m".toList d ∧
    (∃ c, d.get? (stateFile "m".toList .epoch (some 2)) = some c) ∧
    (loadState "m".toList d (.int 0) true).1 = .error .runtimeError ∧
    (loadState "m".toList d (.int 0) true).2.get? (stateFile "m".toList .epoch (some 2)) = none := by
  have hd : ReachableDir "m".toList (runCkpt "m".toList ([] : Dir ℕ)
      [.save 11 .epoch (some 1) true, .save 12 .epoch (some 2) true]).2 :=
    ⟨_, by intro op hop; simp at hop; rcases hop with rfl | rfl <;> trivial, rfl⟩
  have h0 : (runCkpt "m".toList ([] : Dir ℕ)
      [.save 11 .epoch (some 1) true, .save 12 .epoch (some 2) true]).2.get?
        (stateFile "m".toList .epoch (some 0)) = none := by
    obtain ⟨a, h1, h2⟩ := C47_refinement "m".toList
      [.save 11 .epoch (some 1) true, .save 12 .epoch (some 2) true]
      (by intro op hop; simp at hop; rcases hop with rfl | rfl <;> trivial) ([] : Dir ℕ) _
      (represents_empty _)
    rw [h2.epoch]
    cases h1 with
    | save h1 => cases h1 with
      | save h1 => cases h1; rfl
  have h2 : (runCkpt "m".toList ([] : Dir ℕ)
      [.save 11 .epoch (some 1) true, .save 12 .epoch (some 2) true]).2.get?
        (stateFile "m".toList .epoch (some 2)) = some (.full 12) := by
    obtain ⟨a, h1, h2⟩ := C47_refinement "m".toList
      [.save 11 .epoch (some 1) true, .save 12 .epoch (some 2) true]
      (by intro op hop; simp at hop; rcases hop with rfl | rfl <;> trivial) ([] : Dir ℕ) _
      (represents_empty _)
    rw [h2.epoch]
    cases h1 with
    | save h1 => cases h1 with
      | save h1 => cases h1; rfl
  obtain ⟨h3, h4⟩ := C49_missing_epoch_violated _ _ hd 0 h0
  exact ⟨_, hd, ⟨_, h2⟩, h3, h4 2 (by norm_num)⟩

/-! ## C50 -/

theorem removeLoop_error {p : FName → Py Bool} {l : List FName} {f0 : FName} {e : PyErr}
    (hf0 : f0 ∈ l) (he : p f0 = .error e) (h : ∀ f ∈ l, f ≠ f0 → p f = .ok false) :
    removeLoop (σ := σ) p l = (.error e, []) := by
  induction l with
  | nil => simp at hf0
  | cons f fs ih =>
    by_cases hf : f = f0
    · subst hf; simp [removeLoop, he]
    · have hm : f0 ∈ fs := (List.mem_cons.mp hf0).resolve_left fun e => hf e.symm
      have := ih hm fun g hg => h g (List.mem_cons_of_mem _ hg)
      simp [removeLoop, h f List.mem_cons_self hf, this]

theorem listEpochs_error {check : FName → Py (Option ℕ)} {l : List FName} {f0 : FName} {e : PyErr}
    (hf0 : f0 ∈ l) (he : check f0 = .error e) (h : ∀ f ∈ l, f ≠ f0 → ∃ o, check f = .ok o) :
    listEpochs check l = .error e := by
  induction l with
  | nil => simp at hf0
  | cons f fs ih =>
    by_cases hf : f = f0
    · subst hf; simp [listEpochs, he, bind, Except.bind]
    · have hm : f0 ∈ fs := (List.mem_cons.mp hf0).resolve_left fun e => hf e.symm
      have := ih hm fun g hg => h g (List.mem_cons_of_mem _ hg)
      obtain ⟨o, ho⟩ := h f List.mem_cons_self hf
      simp [listEpochs, ho, this, bind, Except.bind, Except.map]

theorem listEpochs_none {check : FName → Py (Option ℕ)} {l : List FName}
    (h : ∀ f ∈ l, check f = .ok none) : listEpochs check l = .ok [] := by
  induction l with
  | nil => rfl
  | cons f fs ih =>
    have := ih fun g hg => h g (List.mem_cons_of_mem _ hg)
    simp [listEpochs, h f List.mem_cons_self, this, bind, Except.bind, Except.map]

theorem listEpochs_single {check : FName → Py (Option ℕ)} {l : List FName} {f0 : FName} {m : ℕ}
    (hl : l.Nodup) (hf0 : f0 ∈ l) (he : check f0 = .ok (some m))
    (h : ∀ f ∈ l, f ≠ f0 → check f = .ok none) : listEpochs check l = .ok [m] := by
  induction l with
  | nil => simp at hf0
  | cons f fs ih =>
    obtain ⟨hf', hfs⟩ := List.nodup_cons.mp hl
    by_cases hf : f = f0
    · subst hf
      have := listEpochs_none (check := check) (l := fs) fun g hg =>
        h g (List.mem_cons_of_mem _ hg) fun e => hf' (e ▸ hg)
      simp [listEpochs, he, this, bind, Except.bind, Except.map]
    · have hm : f0 ∈ fs := (List.mem_cons.mp hf0).resolve_left fun e => hf e.symm
      have := ih hfs hm fun g hg => h g (List.mem_cons_of_mem _ hg)
      simp [listEpochs, h f List.mem_cons_self hf, this, bind, Except.bind, Except.map]

theorem previousSegment_unknown (name : FName) :
    previousSegment (name ++ "-best".toList) = some (lastSegment name) := by
  simp [previousSegment, lastSegment, List.dropWhile_cons]

theorem checkBestFile_unknown (name : FName) :
    checkBestFile name (stateFile name .best none)
      = (orRaise (parseInt (lastSegment name)) .valueError).map some := by
  have e : stateFile name .best none = (name ++ "-best".toList) ++ ['.', 'p', 't'] := by
    simp [stateFile, epochPart]
  have hm : matchesBest name (stateFile name .best none) = true := by
    rw [e, List.append_assoc, matchesBest, afterPrefix_append]
    simp only [Bool.or_eq_true]
    right
    decide
  rw [checkBestFile, if_pos hm, e, splitextRoot_pt _ (by simp), previousSegment_unknown]
  rfl

theorem unknown_ne_bestFile (name : FName) (k : ℕ) :
    bestFile name k ≠ stateFile name .best none := by
  intro h
  have h1 := congrArg List.length h
  simp [bestFile, stateFile, epochPart] at h1

/-- The directory after saving the best state without an epoch. -/
theorem save_best_unknown {d : Dir σ} {a : Ckpt σ} (h : Represents name d a) (s : σ) (rm : Bool) :
    saveState name d s .best none rm = (.ok (),
      (applyOps d ((d.keys.filter (isBest name)).map .remove)).put (stateFile name .best none)
        (.full s)) := by
  have h1 : saveOps1 name d .best = (.ok (), (d.keys.filter (isBest name)).map .remove) := by
    simp only [saveOps1, if_true]; exact removeBest_ok h
  simp only [saveState, saveOps, h1, saveOps2, applyOps_append, applyOps_write]
  simp [applyOps]

theorem others_not_best {d : Dir σ} {a : Ckpt σ} (h : Represents name d a) (s : σ) (f : FName)
    (hf : f ∈ ((applyOps d ((d.keys.filter (isBest name)).map .remove)).put
      (stateFile name .best none) (.full s)).keys) (hne : f ≠ stateFile name .best none) :
    checkBestFile name f = .ok none := by
  have hf' := (mem_keys_put hf).resolve_left hne
  obtain ⟨o, ho, ho'⟩ := h.dropBest.checkBest hf'
  cases o with
  | none => exact ho
  | some k =>
    rw [ho' k rfl, mem_keys_best h.dropBest] at hf'
    simp at hf'

theorem mem_keys_put_self (d : Dir σ) (f : FName) (x : Content σ) : f ∈ (d.put f x).keys :=
  KDict.mem_keys_iff.mpr ⟨x, KDict.get?_put_self d f x⟩

theorem removeLoop_removes (p : FName → Py Bool) (l : List FName) :
    ∃ l' : List FName, (removeLoop (σ := σ) p l).2 = l'.map .remove := by
  induction l with
  | nil => exact ⟨[], rfl⟩
  | cons f fs ih =>
    obtain ⟨l', h⟩ := ih
    rcases hp : p f with e | b
    · exact ⟨[], by simp [removeLoop, hp]⟩
    · cases b
      · exact ⟨l', by simp [removeLoop, hp, h]⟩
      · exact ⟨f :: l', by simp [removeLoop, hp, h]⟩

theorem saveOps2_removes (name : FName) (d : Dir σ) (epoch : Option ℕ) (rm : Bool) :
    ∃ l : List FName, (saveOps2 name d epoch rm).2 = l.map .remove := by
  cases epoch with
  | none => exact ⟨[], rfl⟩
  | some k =>
    cases rm with
    | false => exact ⟨[], rfl⟩
    | true => exact removeLoop_removes _ _

theorem parseInt_alpha {l : List Char} (h : ∃ c ∈ l, c.isAlpha = true) : parseInt l = none := by
  obtain ⟨c, hc, ha⟩ := h
  refine if_neg fun hh => ?_
  have := List.all_eq_true.mp hh.2 c hc
  simp only [Char.isDigit, Char.isAlpha, Char.isUpper, Char.isLower, Bool.and_eq_true,
    decide_eq_true_eq, Bool.or_eq_true, ge_iff_le, UInt32.le_iff_toNat_le] at this ha
  simp at this ha
  omega

/-- **C50** is violated: a best state saved without an epoch cannot be loaded, whatever the name of
the model. Saving it succeeds and writes the file `name-best.pt`. -/
theorem C50_unknown_epoch_violated (name : FName) (d : Dir σ) (hd : ReachableDir name d) (s : σ)
    (rm rm' : Bool) :
    (saveState name d s .best none rm).1 = .ok () ∧
    (saveState name d s .best none rm).2.get? (stateFile name .best none) = some (.full s) ∧
    ∃ e, (loadState name (saveState name d s .best none rm).2 .best rm').1 = .error e := by
  obtain ⟨a, ha⟩ := hd.represents
  rw [save_best_unknown ha]
  refine ⟨rfl, KDict.get?_put_self _ _ _, ?_⟩
  have hc := checkBestFile_unknown name
  have hmem := mem_keys_put_self
    (applyOps d ((d.keys.filter (isBest name)).map .remove)) (stateFile name .best none) (.full s)
  cases hp : parseInt (lastSegment name) with
  | none =>
    rw [hp] at hc
    have := listEpochs_error (check := checkBestFile name) hmem hc
      fun f hf hne => ⟨_, others_not_best ha s f hf hne⟩
    exact ⟨.valueError, by simp [loadState, this]⟩
  | some m =>
    rw [hp] at hc
    have := listEpochs_single (check := checkBestFile name)
      (KDict.nodup_put ha.dropBest.nodup _ _) hmem hc
      fun f hf hne => others_not_best ha s f hf hne
    have hnone : ∀ l : List FName,
        (applyOps ((applyOps d ((d.keys.filter (isBest name)).map .remove)).put
          (stateFile name .best none) (.full s)) (l.map .remove)).get?
            (stateFile name .best (some m)) = none := by
      intro l
      rw [(applyOps_remove (KDict.nodup_put ha.dropBest.nodup _ _) l).2.1]
      split_ifs
      · rfl
      · rw [stateFile_best, KDict.get?_put_ne _ _ (unknown_ne_bestFile name m),
          (represents_iff.mp ha.dropBest).best]
        rfl
    simp only [loadState, this, removeThenRead]
    obtain ⟨l, hl⟩ := saveOps2_removes name
      ((applyOps d ((d.keys.filter (isBest name)).map .remove)).put
          (stateFile name .best none) (.full s)) (some m) rm'
    rcases hs : saveOps2 name ((applyOps d ((d.keys.filter (isBest name)).map .remove)).put
          (stateFile name .best none) (.full s)) (some m) rm' with ⟨r, ops⟩
    rw [hs] at hl
    cases r with
    | error e => exact ⟨e, rfl⟩
    | ok _ =>
      refine ⟨.runtimeError, ?_⟩
      have hn := hnone l
      replace hl : ops = l.map .remove := hl
      rw [← hl] at hn
      simp [readState, hn, Except.map]


/-- **C50** is violated: if the last dash-separated part of the model name contains a letter, loading
the best state raises `ValueError`, and so does every later attempt to save a best state, which leaves
the directory unchanged. -/
theorem C50_value_error_violated (name : FName) (d : Dir σ) (hd : ReachableDir name d) (s s' : σ)
    (rm rm' : Bool) (epoch : Option ℕ) (hname : ∃ c ∈ lastSegment name, c.isAlpha = true) :
    (loadState name (saveState name d s .best none rm).2 .best rm').1 = .error .valueError ∧
    saveState name (saveState name d s .best none rm).2 s' .best epoch rm'
      = (.error .valueError, (saveState name d s .best none rm).2) := by
  obtain ⟨a, ha⟩ := hd.represents
  rw [save_best_unknown ha]
  have hc := checkBestFile_unknown name
  rw [parseInt_alpha hname] at hc
  have hmem := mem_keys_put_self
    (applyOps d ((d.keys.filter (isBest name)).map .remove)) (stateFile name .best none) (.full s)
  constructor
  · have := listEpochs_error (check := checkBestFile name) hmem hc
      fun f hf hne => ⟨_, others_not_best ha s f hf hne⟩
    simp [loadState, this]
  · have := removeLoop_error (σ := σ)
      (p := fun f => (checkBestFile name f).map Option.isSome) hmem (e := .valueError)
      (by rw [hc]; rfl) fun f hf hne => by rw [others_not_best ha s f hf hne]; rfl
    simp only [saveState, saveOps, saveOps1, if_true, removeBest, this]
    rfl

example : ∃ c ∈ lastSegment "gru_material_model".toList, c.isAlpha = true := by decide

/-! ## C51 -/

/-- `g` is the file changed by an operation. -/
def FsOp.touches (g : FName) : FsOp σ → Prop
  | .remove f => f = g
  | .truncate f => f = g
  | .finish f _ => f = g

theorem get?_untouched (d : Dir σ) (ops : List (FsOp σ)) (g : FName)
    (h : ∀ op ∈ ops, ¬ op.touches g) : (applyOps d ops).get? g = d.get? g := by
  induction ops generalizing d with
  | nil => rfl
  | cons op ops ih =>
    have e : applyOps d (op :: ops) = applyOps (op.apply d) ops := rfl
    rw [e, ih _ fun op' h' => h op' (List.mem_cons_of_mem _ h')]
    have hop := h op List.mem_cons_self
    cases op with
    | remove f => exact KDict.get?_del_ne _ fun e => hop e.symm
    | truncate f => exact KDict.get?_put_ne _ _ fun e => hop e.symm
    | finish f s => exact KDict.get?_put_ne _ _ fun e => hop e.symm

/-- The directory after a crash: the first `n` file operations of the save were performed. -/
def crashDir (name : FName) (d : Dir σ) (s : σ) (t : StateType) (epoch : Option ℕ) (rm : Bool)
    (n : ℕ) : Dir σ := applyOps d ((saveOps name d s t epoch rm).2.take n)

/-- A best state file that was only opened for writing cannot be loaded. -/
theorem loadState_truncated {name : FName} {d : Dir σ} {a : Ckpt σ} (h : Represents name d a)
    (hb : a.best = none) (k : ℕ) (s : σ) (rm : Bool) :
    (loadState name (applyOps d [.truncate (stateFile name .best (some k))]) .best rm).1
      = .error .runtimeError := by
  have h2 := h.put_best hb k s
  have ek : KDict.keys (applyOps d [.truncate (stateFile name .best (some k))])
      = KDict.keys (d.put (bestFile name k) (.full s)) := by
    show KDict.keys (d.put (stateFile name .best (some k)) .partialWrite) = _
    rw [stateFile_best, KDict.keys_put, KDict.keys_put]
  have hl := listEpochs_best h2
  rw [← ek] at hl
  have hg : (applyOps d [.truncate (stateFile name .best (some k))]).get? (stateFile name .best (some k))
      = some .partialWrite := KDict.get?_put_self _ _ _
  have hr : ∃ ops, saveOps2 name (applyOps d [.truncate (stateFile name .best (some k))]) (some k) rm
      = (.ok (), ops) ∧ ∀ op ∈ ops, ¬ op.touches (stateFile name .best (some k)) := by
    cases rm with
    | false => exact ⟨[], rfl, by simp⟩
    | true =>
      have hp := removePosterior_ok h2 k
      have hp' : removePosterior (σ := σ) name (applyOps d [.truncate (stateFile name .best (some k))]) k
          = (.ok (), ((d.put (bestFile name k) (.full s)).keys.filter (isPosterior name k)).map .remove) := by
        rw [← hp, removePosterior, removePosterior, ek]
      refine ⟨_, hp', fun op hop => ?_⟩
      simp only [List.mem_map, List.mem_filter] at hop
      obtain ⟨f, ⟨hf, hf'⟩, rfl⟩ := hop
      obtain ⟨o, ho, ho'⟩ := h2.checkState hf
      rw [isPosterior, ho] at hf'
      cases o with
      | none => simp at hf'
      | some j =>
        intro e
        replace e : f = stateFile name .best (some k) := e
        rw [stateFile_best, ho' j rfl] at e
        first
          | exact epochFile_ne_bestFile name j k e
          | exact epochFile_ne_bestFile name j k ((stateFile_epoch name j).1 ▸ e)
  obtain ⟨ops, ho, ht⟩ := hr
  simp only [Option.map_some, Option.toList_some] at hl
  simp only [loadState, hl, removeThenRead, ho, readState, get?_untouched _ _ _ ht, hg]
  rfl

/-- **C51** is violated: in every reachable directory with a best state, saving a new best state has
a crash point after which there is no best state at all, and the next one leaves only a partially
written file; in both cases the best state cannot be loaded. -/
theorem C51_best_violated (name : FName) (d : Dir σ) (hd : ReachableDir name d) (s : σ) (k j : ℕ)
    (s0 : σ) (rm rm' : Bool) (hbest : (loadState name d .best false).1 = .ok (some j, s0)) :
    ∃ n, n < (saveOps name d s .best (some k) rm).2.length ∧
      (∀ f ∈ (crashDir name d s .best (some k) rm n).keys, checkBestFile name f = .ok none) ∧
      (loadState name (crashDir name d s .best (some k) rm n) .best rm').1 = .error .runtimeError ∧
      (crashDir name d s .best (some k) rm (n + 1)).get? (stateFile name .best (some k))
        = some .partialWrite ∧
      (loadState name (crashDir name d s .best (some k) rm (n + 1)) .best rm').1
        = .error .runtimeError := by
  obtain ⟨a, ha⟩ := hd.represents
  have h1 : saveOps1 name d .best = (.ok (), (d.keys.filter (isBest name)).map .remove) := by
    simp only [saveOps1, if_true]; exact removeBest_ok ha
  have hops : ∃ ops', (saveOps name d s .best (some k) rm).2
      = (d.keys.filter (isBest name)).map .remove
        ++ .truncate (stateFile name .best (some k)) :: ops' := by
    simp only [saveOps, h1, writeOps]
    exact ⟨_, by simp only [List.append_assoc, List.cons_append]; rfl⟩
  obtain ⟨ops', hops⟩ := hops
  refine ⟨((d.keys.filter (isBest name)).map (FsOp.remove (σ := σ))).length, ?_, ?_, ?_, ?_, ?_⟩
  · rw [hops]; simp
  · intro f hf
    rw [crashDir, hops, List.take_left] at hf
    obtain ⟨o, ho, ho'⟩ := ha.dropBest.checkBest hf
    cases o with
    | none => exact ho
    | some k =>
      rw [ho' k rfl, mem_keys_best ha.dropBest] at hf
      simp at hf
  · rw [crashDir, hops, List.take_left]
    obtain ⟨a', h2, -⟩ := loadState_represents ha.dropBest .best rm'
    exact h2.1
  · rw [crashDir, hops, List.take_append, List.take_of_length_le (by simp)]
    simp only [Nat.add_sub_cancel_left, List.take_succ_cons, List.take_zero, applyOps_append]
    exact KDict.get?_put_self _ _ _
  · rw [crashDir, hops, List.take_append, List.take_of_length_le (by simp)]
    simp only [Nat.add_sub_cancel_left, List.take_succ_cons, List.take_zero, applyOps_append]
    exact loadState_truncated ha.dropBest rfl k s rm'

/-- **C51** (the rest of the directory). At every crash point of every save (best with epoch), every
file other than the one being written, the previous best file (when saving the best state) and the
files of later epochs (when removing them) is as before. -/
theorem C51_other_files_partial (name : FName) (d : Dir σ) (hd : ReachableDir name d) (s : σ)
    (t : StateType) (epoch : Option ℕ) (rm : Bool) (n : ℕ) (g : FName)
    (ht : t = .best → epoch ≠ none) (hg : g ≠ stateFile name t epoch)
    (hbest : t = .best → ∀ j, g ≠ stateFile name .best (some j))
    (hpost : rm = true → ∀ k, epoch = some k → ∀ j, k < j → g ≠ stateFile name .epoch (some j)) :
    (crashDir name d s t epoch rm n).get? g = d.get? g := by
  obtain ⟨a, ha⟩ := hd.represents
  refine get?_untouched _ _ _ fun op hop => ?_
  have hop := List.mem_of_mem_take hop
  have key : ∀ (ops1 : List (FsOp σ)), saveOps1 name d t = (.ok (), ops1) →
      Represents name ((applyOps d ops1).put (stateFile name t epoch) (.full s))
        (a.store s t epoch) → (∀ op ∈ ops1, ¬ op.touches g) → ¬ op.touches g := by
    intro ops1 h1 h2 h3
    rw [← applyOps_write] at h2
    simp only [saveOps, h1, List.mem_append, applyOps_append] at hop
    rcases hop with (hop | hop) | hop
    · exact h3 op hop
    · simp only [writeOps, List.mem_cons, List.not_mem_nil, or_false] at hop
      rcases hop with rfl | rfl <;> exact fun h => hg h.symm
    · cases epoch with
      | none => simp [saveOps2] at hop
      | some k =>
        cases rm with
        | false => simp [saveOps2] at hop
        | true =>
          have hr := removePosterior_ok h2 k
          simp only [saveOps2, hr, List.mem_map, List.mem_filter] at hop
          obtain ⟨f, ⟨hf, hf'⟩, rfl⟩ := hop
          obtain ⟨o, ho, ho'⟩ := h2.checkState hf
          rw [isPosterior, ho] at hf'
          cases o with
          | none => simp at hf'
          | some j =>
            intro h
            replace h : f = g := h
            exact hpost rfl k rfl j (by simpa using hf') (h ▸ ho' j rfl)
  obtain ⟨d', -, -⟩ := saveState_represents ha s t epoch rm ht
  cases t with
  | init =>
    refine key [] rfl ?_ (by simp)
    rw [stateFile_init]
    exact ha.put_init s
  | default =>
    refine key [] rfl ?_ (by simp)
    cases epoch with
    | none => rw [(stateFile_default name).1]; exact ha.put_default s
    | some k => exact ha.put_epoch k s
  | epoch =>
    refine key [] rfl ?_ (by simp)
    cases epoch with
    | none => rw [(stateFile_default name).2]; exact ha.put_default s
    | some k => exact ha.put_epoch k s
  | best =>
    cases epoch with
    | none => exact absurd rfl (ht rfl)
    | some k =>
      refine key _ (by simp only [saveOps1, if_true]; exact removeBest_ok ha) ?_ ?_
      · rw [stateFile_best]
        exact ha.dropBest.put_best rfl k s
      · intro op hop
        simp only [List.mem_map, List.mem_filter] at hop
        obtain ⟨f, ⟨hf, hf'⟩, rfl⟩ := hop
        obtain ⟨o, ho, ho'⟩ := ha.checkBest hf
        rw [isBest, ho] at hf'
        cases o with
        | none => simp at hf'
        | some j =>
          intro h
          replace h : f = g := h
          refine hbest rfl j ?_
          rw [stateFile_best, ← h]
          exact ho' j rfl

/-- A reachable directory with a best state. -/
example : ∃ d : Dir ℕ, ReachableDir "m".toList d ∧
    (loadState "m".toList d .best false).1 = .ok (some 7, 42) := by
  refine ⟨(saveState "m".toList [] 42 .best (some 7) true).2, ⟨[.save 42 .best (some 7) true], ?_, rfl⟩, ?_⟩
  · intro op hop
    simp at hop
    subst hop
    trivial
  · exact (C47_save_load "m".toList ([] : Dir ℕ) ⟨[], by simp, rfl⟩ 42 7 true false).2.2.1

/-! ## Other files of the directory -/

theorem checkStateFile_backup (name : FName) (k : ℕ) :
    checkStateFile name (stateFile name .epoch (some k) ++ ".bak".toList) = .error .valueError := by
  rw [(stateFile_epoch name k).1]
  have hm : matchesEpoch name (epochFile name k ++ ".bak".toList) = true := by
    have e : epochFile name k ++ ".bak".toList
        = (name ++ ['-']) ++ (strNat k ++ ('.' :: ['p', 't', '.', 'b', 'a', 'k'])) := by
      simp [epochFile]
    rw [e, matchesEpoch, afterPrefix_append]
    simp only [takeWhile_strNat k '.' _ (by decide), dropWhile_strNat k '.' _ (by decide)]
    simp [strNat_ne_nil, afterPrefix]
  have hs : splitextRoot (epochFile name k ++ ".bak".toList) = epochFile name k := by
    have : (epochFile name k).any (· ≠ '.') = true := by
      simp [epochFile]
    simp [splitextRoot]
    simpa using this
  rw [checkStateFile, if_pos hm, hs]
  have hl : lastSegment (epochFile name k) = strNat k ++ ['.', 'p', 't'] := by
    have e : epochFile name k = name ++ '-' :: (strNat k ++ ['.', 'p', 't']) := by simp [epochFile]
    have hno : ∀ c ∈ (strNat k ++ ['.', 'p', 't']).reverse, (c ≠ '-') := by
      intro c hc
      rw [List.mem_reverse, List.mem_append] at hc
      rcases hc with hc | hc
      · exact (ne_dash_of_mem hc).1
      · simp at hc
        rcases hc with rfl | rfl | rfl <;> decide
    rw [e, lastSegment, List.reverse_append, List.reverse_cons, List.append_assoc,
      List.takeWhile_append_of_pos (by simpa using hno)]
    simp
  rw [hl, parseInt_alpha ⟨'p', by simp, by decide⟩]
  rfl

/-- The reader is not anchored at the end: with a backup copy of an epoch file in the directory, every
load of the last state raises `ValueError`, whatever states were saved. -/
theorem C47_backup_file_violated (name : FName) (d : Dir σ) (hd : ReachableDir name d) (k : ℕ)
    (c : Content σ) (rm : Bool) :
    (loadState name (d.put (stateFile name .epoch (some k) ++ ".bak".toList) c) .last rm).1
      = .error .valueError := by
  obtain ⟨a, ha⟩ := hd.represents
  have := listEpochs_error (check := checkStateFile name)
    (mem_keys_put_self d (stateFile name .epoch (some k) ++ ".bak".toList) c)
    (checkStateFile_backup name k) fun f hf hne => by
      obtain ⟨o, ho, -⟩ := ha.checkState ((mem_keys_put hf).resolve_left hne)
      exact ⟨o, ho⟩
  simp only [loadState, this]

end Hooke
