import Verif.Spec.TrainingState
import Verif.Props.ModelState

/-!
# C79: model and optimizer state files come in pairs
-/

namespace Hooke

variable {σ ω τ : Type} {name : FName}

/-! ## The two families of file names do not interfere -/

/-- The model name followed by a character other than `_`. -/
theorem afterPrefix_optim_other (name r : FName) (c : Char) (hc : c ≠ '_') (p : List Char) :
    afterPrefix (optimName name ++ p) (name ++ c :: r) = none := by
  rcases h : afterPrefix (optimName name ++ p) (name ++ c :: r) with _ | x
  · rfl
  · have := afterPrefix_eq.mp h
    simp [optimName] at this
    exact absurd this.1 hc

theorem unrelated_optim_other (name r : FName) (c : Char) (hc : c ≠ '_') :
    Unrelated (optimName name) (name ++ c :: r) := by
  constructor
  · have := afterPrefix_optim_other name r c hc ['-']
    simp [checkStateFile, matchesEpoch, this]
  · have := afterPrefix_optim_other name r c hc []
    rw [List.append_nil] at this
    simp [checkBestFile, matchesBest, this]

theorem unrelated_model_optim (name r : FName) : Unrelated name (optimName name ++ r) := by
  have h1 : afterPrefix (name ++ ['-']) (optimName name ++ r) = none := by
    rcases h : afterPrefix (name ++ ['-']) (optimName name ++ r) with _ | x
    · rfl
    · have := afterPrefix_eq.mp h
      simp [optimName] at this
  have h2 : afterPrefix name (optimName name ++ r) = some ("_optim".toList ++ r) := by
    rw [optimName, List.append_assoc]
    exact afterPrefix_append _ _
  constructor
  · simp [checkStateFile, matchesEpoch, h1]
  · simp [checkBestFile, matchesBest, h2, afterPrefix, digitsBest, List.dropWhile]

theorem stateFile_form (name : FName) (t : StateType) (epoch : Option ℕ) :
    ∃ c r, c ≠ '_' ∧ stateFile name t epoch = name ++ c :: r := by
  cases t <;> cases epoch <;> simp only [stateFile, epochPart, List.append_assoc, List.nil_append]
  all_goals first
    | exact ⟨'-', _, by decide, rfl⟩
    | exact ⟨'.', _, by decide, rfl⟩

theorem stateFile_optim_form (name : FName) (t : StateType) (epoch : Option ℕ) :
    ∃ r, stateFile (optimName name) t epoch = optimName name ++ r := by
  obtain ⟨c, r, -, h⟩ := stateFile_form (optimName name) t epoch
  exact ⟨_, h⟩

theorem unrelated_stateFile (name : FName) (t : StateType) (epoch : Option ℕ) :
    Unrelated (optimName name) (stateFile name t epoch) := by
  obtain ⟨c, r, hc, h⟩ := stateFile_form name t epoch
  exact h ▸ unrelated_optim_other name r c hc

theorem unrelated_stateFile_optim (name : FName) (t : StateType) (epoch : Option ℕ) :
    Unrelated name (stateFile (optimName name) t epoch) := by
  obtain ⟨r, h⟩ := stateFile_optim_form name t epoch
  exact h ▸ unrelated_model_optim name r

theorem stateFile_ne_optim (name : FName) (t t' : StateType) (e e' : Option ℕ) :
    stateFile name t e ≠ stateFile (optimName name) t' e' := by
  obtain ⟨c, r, hc, h⟩ := stateFile_form name t e
  obtain ⟨r', h'⟩ := stateFile_optim_form name t' e'
  rw [h, h', optimName]
  intro he
  simp at he
  exact hc he.1

/-! ## Operations on one family leave the other alone -/

/-- A file touched by none of the families' own operations. -/
def Foreign (name : FName) (f : FName) : Prop :=
  Unrelated name f ∧ ∀ t e, f ≠ stateFile name t e

theorem foreign_optim (name : FName) (t : StateType) (e : Option ℕ) :
    Foreign name (stateFile (optimName name) t e) :=
  ⟨unrelated_stateFile_optim name t e, fun t' e' h => stateFile_ne_optim name t' t e' e h.symm⟩

theorem foreign_model (name : FName) (t : StateType) (e : Option ℕ) :
    Foreign (optimName name) (stateFile name t e) :=
  ⟨unrelated_stateFile name t e, fun t' e' h => stateFile_ne_optim name t t' e e' h⟩

theorem Represents.put_foreign {d : Dir τ} {a : Ckpt τ} (h : Represents name d a) {f : FName}
    (hf : Foreign name f) (x : Content τ) : Represents name (d.put f x) a := by
  refine ⟨KDict.nodup_put h.nodup f x, ?_, ?_, fun k => ?_, fun k => ?_, fun g hg => ?_⟩
  · rw [KDict.get?_put_ne _ _ fun e => hf.2 _ _ e.symm]; exact h.default
  · rw [KDict.get?_put_ne _ _ fun e => hf.2 _ _ e.symm]; exact h.init
  · rw [KDict.get?_put_ne _ _ fun e => hf.2 _ _ e.symm]; exact h.epoch k
  · rw [KDict.get?_put_ne _ _ fun e => hf.2 _ _ e.symm]; exact h.best k
  · rcases mem_keys_put hg with rfl | hg
    · exact .inl hf.1
    · exact h.known g hg

theorem Represents.del_foreign {d : Dir τ} {a : Ckpt τ} (h : Represents name d a) {f : FName}
    (hf : ∀ t e, f ≠ stateFile name t e) : Represents name (d.del f) a := by
  have hget : ∀ t e, (d.del f).get? (stateFile name t e) = d.get? (stateFile name t e) := by
    intro t e
    rw [KDict.get?_del h.nodup, if_neg fun e' => hf _ _ e'.symm]
  refine ⟨KDict.nodup_del h.nodup f, ?_, ?_, fun k => ?_, fun k => ?_, fun g hg => ?_⟩
  · rw [hget]; exact h.default
  · rw [hget]; exact h.init
  · rw [hget]; exact h.epoch k
  · rw [hget]; exact h.best k
  · refine h.known g ?_
    obtain ⟨v, hv⟩ := KDict.mem_keys_iff.mp hg
    rw [KDict.get?_del h.nodup] at hv
    split_ifs at hv
    exact KDict.mem_keys_iff.mpr ⟨v, hv⟩

theorem Represents.foreign_remove {d : Dir τ} {a : Ckpt τ} (h : Represents name d a) (l : List FName)
    (hl : ∀ f ∈ l, ∀ t e, f ≠ stateFile name t e) :
    Represents name (applyOps d (l.map .remove)) a := by
  induction l generalizing d with
  | nil => exact h
  | cons f fs ih =>
    exact ih (h.del_foreign (hl f List.mem_cons_self)) fun g hg => hl g (List.mem_cons_of_mem _ hg)

theorem Represents.foreign_write {d : Dir τ} {a : Ckpt τ} (h : Represents name d a) {f : FName}
    (hf : Foreign name f) (s : τ) : Represents name (applyOps d (writeOps f s)) a := by
  rw [applyOps_write]
  exact h.put_foreign hf _

/-- Removal loops remove only selected files. -/
theorem removeLoop_selected (p : FName → Py Bool) (l : List FName) :
    ∃ l' : List FName, (removeLoop (σ := τ) p l).2 = l'.map .remove ∧ ∀ f ∈ l', p f = .ok true := by
  induction l with
  | nil => exact ⟨[], rfl, by simp⟩
  | cons f fs ih =>
    obtain ⟨l', h, hl⟩ := ih
    rcases hp : p f with e | b
    · exact ⟨[], by simp [removeLoop, hp], by simp⟩
    · cases b
      · exact ⟨l', by simp [removeLoop, hp, h], hl⟩
      · refine ⟨f :: l', by simp [removeLoop, hp, h], fun g hg => ?_⟩
        rcases List.mem_cons.mp hg with rfl | hg
        · exact hp
        · exact hl g hg

variable {n n' : FName}

/-- The files of the family `n'` are foreign to the family `n` and conversely. -/
structure Apart (n n' : FName) : Prop where
  left : ∀ t e, Foreign n (stateFile n' t e)
  right : ∀ t e, Foreign n' (stateFile n t e)

theorem apart_optim (name : FName) : Apart name (optimName name) :=
  ⟨fun t e => foreign_optim name t e, fun t e => foreign_model name t e⟩

theorem Apart.symm (h : Apart n n') : Apart n' n := ⟨h.right, h.left⟩

theorem Represents.foreign_saveOps1 (hap : Apart n n') {d : Dir τ} {b : Ckpt τ}
    (h : Represents n' d b) (t : StateType) :
    Represents n' (applyOps d (saveOps1 n d t).2) b := by
  unfold saveOps1
  split_ifs
  · obtain ⟨l, h1, h2⟩ := removeLoop_selected (τ := τ)
      (fun f => (checkBestFile n f).map Option.isSome) d.keys
    rw [removeBest, h1]
    refine h.foreign_remove l fun f hf t e he => ?_
    have := h2 f hf
    rw [he, (hap.left t e).1.2] at this
    simp [Except.map] at this
  · exact h

theorem Represents.foreign_saveOps2 (hap : Apart n n') {d : Dir τ} {b : Ckpt τ}
    (h : Represents n' d b) (epoch : Option ℕ) (rm : Bool) :
    Represents n' (applyOps d (Hooke.saveOps2 n d epoch rm).2) b := by
  cases epoch with
  | none => exact h
  | some k =>
    cases rm with
    | false => exact h
    | true =>
      have hs : ∃ l : List FName, (removePosterior (σ := τ) n d k).2 = l.map .remove ∧
          ∀ f ∈ l, checkStateFile n f ≠ .ok none := by
        obtain ⟨l, h1, h2⟩ := removeLoop_selected (τ := τ) _ d.keys
        refine ⟨l, h1, fun f hf hn => ?_⟩
        have := h2 f hf
        simp [hn, Except.map] at this
      obtain ⟨l, h1, h2⟩ := hs
      show Represents n' (applyOps d (removePosterior n d k).2) b
      rw [h1]
      refine h.foreign_remove l fun f hf t e he => h2 f hf ?_
      rw [he, (hap.left t e).1.1]

/-- Saving in one family leaves the other family alone. -/
theorem saveState_foreign (hap : Apart n n') {d : Dir τ} {a b : Ckpt τ} (ha : Represents n d a)
    (h : Represents n' d b) (s : τ) (t : StateType) (epoch : Option ℕ) (rm : Bool)
    (hb : t = .best → epoch ≠ none) :
    Represents n' (saveState n d s t epoch rm).2 b := by
  obtain ⟨d', h1, -⟩ := saveState_represents ha s t epoch rm hb
  rcases h2 : saveOps1 n d t with ⟨e | u, ops1⟩
  · simp [saveState, saveOps, h2] at h1
  · have e1 := h.foreign_saveOps1 hap t
    rw [h2] at e1
    have e2 := (e1.foreign_write (hap.right t epoch) s).foreign_saveOps2 hap epoch rm
    simpa only [saveState, saveOps, h2, applyOps_append] using e2

/-- Loading with a model of one family leaves the other family alone. -/
theorem loadState_foreign (hap : Apart n n') {d : Dir τ} {b : Ckpt τ}
    (h : Represents n' d b) (req : LoadState) (rm : Bool) :
    Represents n' (loadState n d req rm).2 b := by
  have key : ∀ f k, Represents n' (removeThenRead n d f k rm).2 b := by
    intro f k
    have := h.foreign_saveOps2 hap (some k) rm
    unfold removeThenRead
    rcases h2 : Hooke.saveOps2 n d (some k) rm with ⟨e | u, ops⟩ <;> rw [h2] at this <;> exact this
  cases req with
  | default => exact h
  | init => exact key _ _
  | int k => exact key _ _
  | best =>
    simp only [loadState]
    split
    · exact h
    · exact key _ _
    · exact h
  | last =>
    simp only [loadState]
    split <;> exact h

/-! ## The optimizer part is a save in its own family -/

theorem checkBest_matches {d : Dir τ} {a : Ckpt τ} (h : Represents n d a) {f : FName}
    (hf : f ∈ d.keys) : (checkBestFile n f).map Option.isSome = .ok (matchesBest n f) := by
  obtain ⟨o, ho, -⟩ := h.checkBest hf
  rw [ho]
  unfold checkBestFile at ho
  split_ifs at ho with hm
  · obtain ⟨seg, h1, h2⟩ := bind_ok ho
    rcases hp : parseInt seg with _ | k
    · simp [hp, orRaise, Except.map] at h2
    · simp [hp, orRaise, Except.map] at h2
      subst h2
      simp [hm, Except.map]
  · obtain rfl := Except.ok.inj ho
    simp [hm, Except.map]

theorem removeLoop_congr {p q : FName → Py Bool} {l : List FName} (h : ∀ f ∈ l, p f = q f) :
    removeLoop (σ := τ) p l = removeLoop q l := by
  induction l with
  | nil => rfl
  | cons f fs ih =>
    have ih' := ih fun g hg => h g (List.mem_cons_of_mem _ hg)
    simp only [removeLoop, h f List.mem_cons_self, ih']

theorem optimOps_eq {d : Dir (TrainFile σ ω)} {b : Ckpt (TrainFile σ ω)}
    (h : Represents (optimName name) d b) (o : ω) (t : StateType) (epoch : Option ℕ) (rm : Bool)
    (ht : t ≠ .init) :
    optimOps name d o t epoch rm = saveOps (optimName name) d (.inr (o, epoch)) t epoch rm := by
  have e1 : optimOps1 name d t = saveOps1 (optimName name) d t := by
    unfold optimOps1 saveOps1
    split_ifs
    · exact removeLoop_congr fun f hf => (checkBest_matches h hf).symm
    · rfl
  have e2 : ∀ d' : Dir (TrainFile σ ω),
      optimOps2 name d' epoch rm = saveOps2 (optimName name) d' epoch rm := by
    intro d'
    cases epoch <;> cases rm <;> rfl
  simp only [optimOps, if_neg ht, e1, saveOps, e2]
  rcases saveOps1 (optimName name) d t with ⟨e | u, ops⟩ <;> rfl

/-! ## Saving a training state -/

/-- The entry of a pair in the store of models. -/
theorem models_save (a : Ckpt (σ × ω)) (s : σ) (o : ω) (t : StateType) (epoch : Option ℕ) (rm : Bool) :
    (a.save (s, o) t epoch rm).models = a.models.save (.inl s) t epoch rm := by
  cases t <;> cases epoch <;> cases rm <;>
    simp [Ckpt.save, Ckpt.store, Ckpt.dropIf, Ckpt.dropAfter, Ckpt.models] <;>
    (try (funext j)) <;> (try split_ifs) <;> simp_all

theorem optims_save (a : Ckpt (σ × ω)) (s : σ) (o : ω) (t : StateType) (epoch : Option ℕ) (rm : Bool)
    (ht : t ≠ .init) :
    (a.save (s, o) t epoch rm).optims = a.optims.save (.inr (o, epoch)) t epoch rm := by
  cases t <;> first | exact absurd rfl ht | skip
  all_goals cases epoch <;> cases rm <;>
    simp [Ckpt.save, Ckpt.store, Ckpt.dropIf, Ckpt.dropAfter, Ckpt.optims] <;>
    (try (funext j)) <;> (try split_ifs) <;> simp_all

theorem optims_save_init (a : Ckpt (σ × ω)) (s : σ) (o : ω) (rm : Bool) :
    (a.save (s, o) .init none rm).optims = a.optims := by
  cases rm <;> rfl

/-- Saving a training state stores the pair. -/
theorem saveTraining_represents {d : Dir (TrainFile σ ω)} {a : Ckpt (σ × ω)}
    (h : RepresentsPairs name d a) (s : σ) (o : ω) (t : StateType) (epoch : Option ℕ) (rm : Bool)
    (hb : t = .best → epoch ≠ none) (hi : t = .init → epoch = none) :
    ∃ d', saveTraining name d s o t epoch rm = (.ok (), d') ∧
      RepresentsPairs name d' (a.save (s, o) t epoch rm) := by
  obtain ⟨h1, h2⟩ := h
  obtain ⟨d1, g1, g2⟩ := saveState_represents h1 (.inl s) t epoch rm hb
  have g3 := saveState_foreign (apart_optim name) h1 h2 (.inl s) t epoch rm hb
  rw [g1] at g3
  rcases hs : saveOps name d (.inl s) t epoch rm with ⟨r, ops⟩
  have hd1 : r = .ok () ∧ applyOps d ops = d1 := by
    simpa [saveState, hs] using g1
  obtain ⟨rfl, rfl⟩ := hd1
  by_cases ht : t = .init
  · subst ht
    obtain rfl := hi rfl
    refine ⟨applyOps d ops, ?_, ?_, ?_⟩
    · simp [saveTraining, trainingOps, hs, optimOps]
    · rw [models_save]; exact g2
    · rw [optims_save_init]; exact g3
  · obtain ⟨d2, k1, k2⟩ := saveState_represents g3 (.inr (o, epoch)) t epoch rm hb
    have k3 := saveState_foreign (apart_optim name).symm g3 g2 (.inr (o, epoch)) t epoch rm hb
    rw [k1] at k3
    refine ⟨d2, ?_, ?_, ?_⟩
    · rw [← k1]
      simp only [saveTraining, trainingOps, hs, saveState, optimOps_eq g3 o t epoch rm ht,
        applyOps_append]
    · rw [models_save]; exact k3
    · rw [optims_save _ _ _ _ _ _ ht]; exact k2

/-- Removing the files of an epoch forgets it. -/
theorem Represents.del_epoch_state {d : Dir τ} {a : Ckpt τ} (h : Represents name d a) (k : ℕ) :
    Represents name (d.del (stateFile name .epoch (some k)))
      { a with epoch := fun j => if j = k then none else a.epoch j } := by
  have hr := represents_iff.mp h
  rw [represents_iff]
  have hg : ∀ f, (d.del (epochFile name k)).get? f = if f = epochFile name k then none else d.get? f :=
    fun f => KDict.get?_del h.nodup _ _
  rw [(stateFile_epoch name k).1]
  refine ⟨KDict.nodup_del h.nodup _, ?_, ?_, fun j => ?_, fun j => ?_, fun f hf => hr.known f ?_⟩
  · rw [hg, if_neg (epochFile_ne_defaultFile name k).symm]; exact hr.default
  · rw [hg, if_neg (epochFile_ne_initFile name k).symm]; exact hr.init
  · rw [hg]
    by_cases hj : j = k
    · subst hj; simp
    · rw [if_neg fun e => hj (epochFile_inj.mp e)]
      simp only [if_neg hj]
      exact hr.epoch j
  · rw [hg, if_neg (epochFile_ne_bestFile name k j).symm]; exact hr.best j
  · obtain ⟨v, hv⟩ := KDict.mem_keys_iff.mp hf
    rw [hg] at hv
    split_ifs at hv
    exact KDict.mem_keys_iff.mpr ⟨v, hv⟩

/-- Validating at an epoch raises nothing and leaves the saved pairs alone. -/
theorem validateTraining_represents {d : Dir (TrainFile σ ω)} {a : Ckpt (σ × ω)}
    (h : RepresentsPairs name d a) (s : σ) (o : ω) (k : ℕ) :
    ∃ d', validateTraining name d s o k = (.ok (), d') ∧
      RepresentsPairs name d' (if (a.epoch k).isSome then a else a.dropAfter k) := by
  cases ha : a.epoch k with
  | some p =>
    have h1 : d.get? (stateFile name .epoch (some k)) = some (.full (.inl p.1)) := by
      rw [h.1.epoch]; simp [Ckpt.models, ha]
    refine ⟨d, ?_, by simpa using h⟩
    have h2 := (removeThenRead_ok h.1 (stateFile name .epoch (some k)) k false
      (o := some (.inl p.1)) fun d' hd' => by
        rw [hd'.epoch, dropIf_epoch_self]; simp [Ckpt.models, ha]).1
    simp only [validateTraining, h1, loadState, h2, Ckpt.found]
    rfl
  | none =>
    have h1 : d.get? (stateFile name .epoch (some k)) = none := by
      rw [h.1.epoch]; simp [Ckpt.models, ha]
    obtain ⟨d1, g1, g2⟩ := saveTraining_represents h s o .epoch (some k) true (by simp) (by simp)
    have hk : (a.save (s, o) .epoch (some k) true).epoch k = some (s, o) := by
      simp [Ckpt.save, Ckpt.store, Ckpt.dropIf, Ckpt.dropAfter]
    have h2 := (removeThenRead_ok g2.1 (stateFile name .epoch (some k)) k false
      (o := some (.inl s)) fun d' hd' => by
        rw [hd'.epoch, dropIf_epoch_self]; simp [Ckpt.models, hk]).1
    have h3 : d1.get? (stateFile name .epoch (some k)) = some (.full (.inl s)) := by
      rw [g2.1.epoch]; simp [Ckpt.models, hk]
    have h4 := g2.2.del_foreign fun t e => stateFile_ne_optim name .epoch t (some k) e
    have h5 : (d1.del (stateFile name .epoch (some k))).get?
        (stateFile (optimName name) .epoch (some k)) = some (.full (.inr (o, some k))) := by
      rw [h4.epoch]; simp [Ckpt.optims, hk]
    refine ⟨(d1.del (stateFile name .epoch (some k))).del (stateFile (optimName name) .epoch (some k)),
      by simp only [validateTraining, h1, g1, loadState, h2, Ckpt.found, h3, h5], ?_⟩
    have k1 := (g2.1.del_epoch_state k).del_foreign
      fun t e => (stateFile_ne_optim name t .epoch e (some k)).symm
    have k2 := h4.del_epoch_state k
    constructor
    · convert k1 using 1
      simp [Ckpt.models, Ckpt.dropAfter, Ckpt.save, Ckpt.store, Ckpt.dropIf]
      funext j
      by_cases hj : j = k
      · subst hj; simp [ha]
      · by_cases hl : k < j <;> simp [hj, hl]
    · convert k2 using 1
      simp [Ckpt.optims, Ckpt.dropAfter, Ckpt.save, Ckpt.store, Ckpt.dropIf]
      funext j
      by_cases hj : j = k
      · subst hj; simp [ha]
      · by_cases hl : k < j <;> simp [hj, hl]

theorem loadState_keep {d : Dir τ} {a : Ckpt τ} (h : Represents name d a) (req : LoadState) :
    (loadState name d req false).2 = d := by
  have key : ∀ f k, (removeThenRead name d f k false).2 = d := fun f k => rfl
  cases req with
  | default => rfl
  | init => exact key _ _
  | int k => exact key _ _
  | best =>
    simp only [loadState]
    split
    · rfl
    · exact key _ _
    · rfl
  | last =>
    simp only [loadState]
    split <;> rfl

theorem trainOp_represents {d : Dir (TrainFile σ ω)} {a : Ckpt (σ × ω)} (h : RepresentsPairs name d a)
    (op : TrainOp σ ω) (hop : op.Ok) : RepresentsPairs name (op.run name d) (op.effect a) := by
  cases op with
  | save s o t epoch rm =>
    obtain ⟨d', h1, h2⟩ := saveTraining_represents h s o t epoch rm
      (by rintro rfl rfl; exact hop) (by rintro rfl; cases epoch <;> simp_all [TrainOp.Ok])
    simpa [TrainOp.run, TrainOp.effect, h1] using h2
  | load req rm =>
    cases rm with
    | true => exact hop.elim
    | false => simpa [TrainOp.run, TrainOp.effect, loadState_keep h.1] using h
  | validate s o k =>
    obtain ⟨d', h1, h2⟩ := validateTraining_represents h s o k
    simpa [TrainOp.run, TrainOp.effect, h1] using h2

theorem representsPairs_empty (name : FName) :
    RepresentsPairs name ([] : Dir (TrainFile σ ω)) Ckpt.empty :=
  ⟨represents_empty name, represents_empty (optimName name)⟩

/-! ## C79 -/

/-- The directories a history of training operations leads to from an empty one. -/
def ReachableTraining (name : FName) (d : Dir (TrainFile σ ω)) : Prop :=
  ∃ ops : List (TrainOp σ ω), (∀ op ∈ ops, op.Ok) ∧ d = ops.foldl (fun d op => op.run name d) []

/-- **C79** (refinement). After any history of saves of training states, loads without removal and
validations, the directory holds exactly the pairs of the store of pairs: every model state file is
accompanied by the optimizer state file of the same call, and no other. -/
theorem C79_refinement (name : FName) (ops : List (TrainOp σ ω)) (hops : ∀ op ∈ ops, op.Ok) :
    RepresentsPairs name (ops.foldl (fun d op => op.run name d) [])
      (ops.foldl TrainOp.effect Ckpt.empty) := by
  have key : ∀ (d : Dir (TrainFile σ ω)) (a : Ckpt (σ × ω)), RepresentsPairs name d a →
      RepresentsPairs name (ops.foldl (fun d op => op.run name d) d) (ops.foldl TrainOp.effect a) := by
    induction ops with
    | nil => exact fun d a h => h
    | cons op ops ih =>
      intro d a h
      exact ih (fun op' h' => hops op' (List.mem_cons_of_mem _ h')) _ _
        (trainOp_represents h op (hops op List.mem_cons_self))
  exact key _ _ (representsPairs_empty name)

theorem ReachableTraining.represents {d : Dir (TrainFile σ ω)} (h : ReachableTraining name d) :
    ∃ a, RepresentsPairs name d a := by
  obtain ⟨ops, h1, rfl⟩ := h
  exact ⟨_, C79_refinement name ops h1⟩

/-- **C79** (both or neither). In every reachable directory a default, epoch or best model state file
exists exactly if its optimizer state file does, and the optimizer file records the same epoch. -/
theorem C79_paired (name : FName) (d : Dir (TrainFile σ ω)) (hd : ReachableTraining name d)
    (t : StateType) (epoch : Option ℕ) (ht : t ≠ .init) (hb : t = .best → epoch ≠ none) :
    (∃ s o, d.get? (stateFile name t epoch) = some (.full (.inl s)) ∧
      d.get? (stateFile (optimName name) t epoch) = some (.full (.inr (o, epoch)))) ∨
    (d.get? (stateFile name t epoch) = none ∧
      d.get? (stateFile (optimName name) t epoch) = none) := by
  obtain ⟨a, h1, h2⟩ := hd.represents
  have hdef : ∀ e, (d.get? (stateFile name .default e) = d.get? (stateFile name .epoch e)) ∧
      d.get? (stateFile (optimName name) .default e) = d.get? (stateFile (optimName name) .epoch e) :=
    fun e => ⟨rfl, rfl⟩
  have hepoch : (∃ s o, d.get? (stateFile name .epoch epoch) = some (.full (.inl s)) ∧
        d.get? (stateFile (optimName name) .epoch epoch) = some (.full (.inr (o, epoch)))) ∨
      (d.get? (stateFile name .epoch epoch) = none ∧
        d.get? (stateFile (optimName name) .epoch epoch) = none) := by
    cases epoch with
    | none =>
      rw [← (hdef none).1, ← (hdef none).2, h1.default, h2.default]
      cases ha : a.default with
      | none => right; simp [Ckpt.models, Ckpt.optims, ha]
      | some p => left; exact ⟨p.1, p.2, by simp [Ckpt.models, ha], by simp [Ckpt.optims, ha]⟩
    | some k =>
      rw [h1.epoch, h2.epoch]
      cases ha : a.epoch k with
      | none => right; simp [Ckpt.models, Ckpt.optims, ha]
      | some p => left; exact ⟨p.1, p.2, by simp [Ckpt.models, ha], by simp [Ckpt.optims, ha]⟩
  cases t with
  | init => exact absurd rfl ht
  | default => exact hepoch
  | epoch => exact hepoch
  | best =>
    cases epoch with
    | none => exact absurd rfl (hb rfl)
    | some k =>
      rw [h1.best, h2.best]
      cases ha : a.best with
      | none => right; simp [Ckpt.models, Ckpt.optims, ha]
      | some p =>
        by_cases hk : p.1 = k
        · left
          subst hk
          exact ⟨p.2.1, p.2.2, by simp [Ckpt.models, ha], by simp [Ckpt.optims, ha]⟩
        · right
          simp [Ckpt.models, Ckpt.optims, ha, hk]

/-- **C79** (saving). In every reachable directory saving a training state succeeds, and its two files
hold the given model and optimizer states. -/
theorem C79_saved (name : FName) (d : Dir (TrainFile σ ω)) (hd : ReachableTraining name d)
    (s : σ) (o : ω) (t : StateType) (epoch : Option ℕ) (rm : Bool) (ht : t ≠ .init)
    (hb : t = .best → epoch ≠ none) :
    (saveTraining name d s o t epoch rm).1 = .ok () ∧
    (saveTraining name d s o t epoch rm).2.get? (stateFile name t epoch) = some (.full (.inl s)) ∧
    (saveTraining name d s o t epoch rm).2.get? (stateFile (optimName name) t epoch)
      = some (.full (.inr (o, epoch))) := by
  obtain ⟨a, ha⟩ := hd.represents
  obtain ⟨d', h1, h2, h3⟩ := saveTraining_represents ha s o t epoch rm hb fun h => absurd h ht
  rw [h1]
  refine ⟨rfl, ?_, ?_⟩
  · cases t <;> cases epoch <;> first | exact absurd rfl ht | exact absurd rfl (hb rfl) | skip
    · exact h2.default.trans (by cases rm <;> rfl)
    · exact (h2.epoch _).trans (by cases rm <;> simp [Ckpt.save, Ckpt.store, Ckpt.dropIf, Ckpt.dropAfter, Ckpt.models])
    · exact h2.default.trans (by cases rm <;> rfl)
    · exact (h2.epoch _).trans (by cases rm <;> simp [Ckpt.save, Ckpt.store, Ckpt.dropIf, Ckpt.dropAfter, Ckpt.models])
    · exact (h2.best _).trans (by cases rm <;> simp [Ckpt.save, Ckpt.store, Ckpt.dropIf, Ckpt.dropAfter, Ckpt.models])
  · cases t <;> cases epoch <;> first | exact absurd rfl ht | exact absurd rfl (hb rfl) | skip
    · exact h3.default.trans (by cases rm <;> rfl)
    · exact (h3.epoch _).trans (by cases rm <;> simp [Ckpt.save, Ckpt.store, Ckpt.dropIf, Ckpt.dropAfter, Ckpt.optims])
    · exact h3.default.trans (by cases rm <;> rfl)
    · exact (h3.epoch _).trans (by cases rm <;> simp [Ckpt.save, Ckpt.store, Ckpt.dropIf, Ckpt.dropAfter, Ckpt.optims])
    · exact (h3.best _).trans (by cases rm <;> simp [Ckpt.save, Ckpt.store, Ckpt.dropIf, Ckpt.dropAfter, Ckpt.optims])

/-- **C79** (validation). In every reachable directory validating a model raises nothing and leaves
every pair of an epoch up to the current one as it was. -/
theorem C79_validated (name : FName) (d : Dir (TrainFile σ ω)) (hd : ReachableTraining name d)
    (s : σ) (o : ω) (k : ℕ) :
    (validateTraining name d s o k).1 = .ok () ∧
    ReachableTraining name (validateTraining name d s o k).2 ∧
    ∀ j ≤ k, (validateTraining name d s o k).2.get? (stateFile name .epoch (some j))
      = d.get? (stateFile name .epoch (some j)) := by
  obtain ⟨a, ha⟩ := hd.represents
  obtain ⟨d', h1, h2, -⟩ := validateTraining_represents ha s o k
  refine ⟨by rw [h1], ?_, fun j hj => ?_⟩
  · obtain ⟨ops, g1, rfl⟩ := hd
    refine ⟨ops ++ [.validate s o k], fun op hop => ?_, by simp [TrainOp.run]⟩
    rcases List.mem_append.mp hop with h | h
    · exact g1 op h
    · obtain rfl := List.mem_singleton.mp h
      trivial
  · rw [h1, ha.1.epoch, h2.epoch]
    split_ifs
    · rfl
    · simp [Ckpt.models, Ckpt.dropAfter, Nat.not_lt.mpr hj]

example : ∃ d : Dir (TrainFile ℕ ℕ), ReachableTraining "m".toList d ∧
    d.get? (stateFile "m".toList .epoch (some 3)) = some (.full (.inl 10)) ∧
    d.get? (stateFile (optimName "m".toList) .epoch (some 3)) = some (.full (.inr (20, some 3))) ∧
    d.get? (stateFile "m".toList .best (some 2)) = some (.full (.inl 11)) := by
  let ops : List (TrainOp ℕ ℕ) := [.save 11 21 .best (some 2) true, .save 10 20 .epoch (some 3) true]
  have h := C79_refinement "m".toList ops (by simp [ops, TrainOp.Ok])
  refine ⟨_, ⟨ops, by simp [ops, TrainOp.Ok], rfl⟩, ?_, ?_, ?_⟩
  · rw [h.1.epoch]; rfl
  · rw [h.2.epoch]; rfl
  · rw [h.1.best]; rfl

/-- **C79** is violated by resuming: `train_model` loads the state to resume from with removal of the
later model state files, but the optimizer state files of the later epochs stay, alone. -/
theorem C79_resume_violated (name : FName) (d : Dir (TrainFile σ ω)) (hd : ReachableTraining name d)
    (k j : ℕ) (hkj : k < j) (o : ω)
    (ho : d.get? (stateFile (optimName name) .epoch (some j)) = some (.full (.inr (o, some j)))) :
    (loadState name d (.int k) true).2.get? (stateFile name .epoch (some j)) = none ∧
    (loadState name d (.int k) true).2.get? (stateFile (optimName name) .epoch (some j))
      = some (.full (.inr (o, some j))) := by
  obtain ⟨a, h1, h2⟩ := hd.represents
  constructor
  · obtain ⟨a', ⟨-, rfl⟩, g2⟩ := loadState_represents h1 (.int k) true
    rw [g2.epoch]
    simp [Ckpt.dropIf, Ckpt.dropAfter, hkj]
  · rw [(loadState_foreign (apart_optim name) h2 (.int k) true).epoch, ← h2.epoch, ho]

/-- **C79** is violated by a crash: if the process stops between the two writes, the epoch has a
complete model state file and no optimizer state file. -/
theorem C79_crash_violated (name : FName) (d : Dir (TrainFile σ ω)) (hd : ReachableTraining name d)
    (s : σ) (o : ω) (k : ℕ) (rm : Bool)
    (hk : d.get? (stateFile name .epoch (some k)) = none) :
    ∃ n, (applyOps d ((trainingOps name d s o .epoch (some k) rm).2.take n)).get?
        (stateFile name .epoch (some k)) = some (.full (.inl s)) ∧
      (applyOps d ((trainingOps name d s o .epoch (some k) rm).2.take n)).get?
        (stateFile (optimName name) .epoch (some k)) = none := by
  have hpair := C79_paired name d hd .epoch (some k) (by simp) (by simp)
  have hok : d.get? (stateFile (optimName name) .epoch (some k)) = none := by
    rcases hpair with ⟨s', o', h, -⟩ | h
    · rw [hk] at h; simp at h
    · exact h.2
  obtain ⟨a, h1, h2⟩ := hd.represents
  obtain ⟨d1, g1, g2⟩ := saveState_represents h1 (.inl s) .epoch (some k) rm (by simp)
  have g3 := saveState_foreign (apart_optim name) h1 h2 (.inl s) .epoch (some k) rm (by simp)
  rcases hs : saveOps name d (.inl s) .epoch (some k) rm with ⟨r, ops⟩
  have hd1 : r = .ok () ∧ applyOps d ops = d1 := by
    simpa [saveState, hs] using g1
  obtain ⟨rfl, rfl⟩ := hd1
  refine ⟨ops.length, ?_⟩
  have ht : (trainingOps name d s o .epoch (some k) rm).2.take ops.length = ops := by
    simp [trainingOps, hs]
  rw [ht]
  rw [g1] at g3
  refine ⟨?_, ?_⟩
  · rw [g2.epoch]
    cases rm <;> simp [Ckpt.save, Ckpt.store, Ckpt.dropIf, Ckpt.dropAfter]
  · rw [g3.epoch, ← h2.epoch, hok]

/-- **C79** is violated by the early stopping of recurrent constitutive and hybrid models: in every
reachable directory, validating at an epoch whose state is not saved raises a `TypeError`, where the
recurrent neural network model validates. -/
theorem C79_validation_violated (name : FName) (d : Dir (TrainFile σ ω))
    (hd : ReachableTraining name d) (s : σ) (o : ω) (k : ℕ)
    (hk : d.get? (stateFile name .epoch (some k)) = none) :
    (validateTrainingNoType name d k).1 = .error .typeError ∧
      (validateTraining name d s o k).1 = .ok () :=
  ⟨by simp [validateTrainingNoType, hk], (C79_validated name d hd s o k).1⟩

/-- An empty directory is reachable and has no saved epoch. -/
example : ReachableTraining "m".toList ([] : Dir (TrainFile ℕ ℕ)) ∧
    KDict.get? ([] : Dir (TrainFile ℕ ℕ)) (stateFile "m".toList .epoch (some 0)) = none :=
  ⟨⟨[], by simp, rfl⟩, rfl⟩

end Hooke
