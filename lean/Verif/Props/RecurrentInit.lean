import Verif.Spec.RecurrentInit
import Verif.Props.LearnableParameters

/-!
# C127: recurrent constitutive models are rebuilt from their initialization files
-/

namespace Hooke

open Spec

/-! ## What a synchronisation writes -/

/-- Where a learnable parameter is written. -/
noncomputable def syncKeys (material param : String) : List (String × String) :=
  match syncOne material [] param 0 with
  | .ok d => KDict.keys d
  | .error _ => []

/-- The function raises, or writes values in places of its own. -/
def WritesOnly (g : MatParams → ℝ → Py MatParams) : Prop :=
  (∀ d v, g d v = .error .runtimeError) ∨
    ∃ ks : List ((String × String) × (ℝ → ℝ)), ∀ d v, g d v
      = .ok (ks.foldl (fun (d : MatParams) k => d.put k.1 (k.2 v)) d)

theorem writesOnly_ite {c : Prop} [Decidable c] {g g' : MatParams → ℝ → Py MatParams}
    (h : WritesOnly g) (h' : WritesOnly g') :
    WritesOnly fun d v => if c then g d v else g' d v := by
  by_cases hc : c
  · simpa only [hc, if_true] using h
  · simpa only [hc, if_false] using h'

theorem writesOnly_error : WritesOnly fun _ _ => .error .runtimeError := Or.inl fun _ _ => rfl

theorem writesOnly_put (k : String × String) : WritesOnly fun d v => .ok (d.put k v) :=
  Or.inr ⟨[(k, id)], fun _ _ => rfl⟩

theorem writesOnly_puts (k : String × String) (f1 f2 f3 : ℝ → ℝ) (k1 k2 k3 : String × String) :
    WritesOnly fun d v => .ok ((((d.put k v).put k1 (f1 v)).put k2 (f2 v)).put k3 (f3 v)) :=
  Or.inr ⟨[(k, id), (k1, f1), (k2, f2), (k3, f3)], fun _ _ => rfl⟩

theorem syncOne_form (material param : String) :
    WritesOnly fun d v => syncOne material d param v := by
  unfold syncOne
  repeat' first
    | exact writesOnly_error
    | exact writesOnly_put _
    | exact writesOnly_puts _ (fun v => (2 / √3) * Real.cos v) (fun v => (3 / √3) * Real.sin v)
        (fun v => (3 / √3) * Real.sin v) _ _ _
    | refine writesOnly_ite ?_ ?_

theorem puts_keys (ks : List ((String × String) × (ℝ → ℝ))) (v : ℝ) (d : MatParams)
    (k : String × String) : k ∈ KDict.keys (ks.foldl (fun (d : MatParams) k => d.put k.1 (k.2 v)) d)
      ↔ k ∈ d.keys ∨ k ∈ ks.map Prod.fst := by
  induction ks generalizing d with
  | nil => simp
  | cons a ks ih =>
    rw [List.foldl_cons, ih, KDict.keys_put]
    split_ifs with h
    · constructor
      · rintro (h1 | h1)
        · exact Or.inl h1
        · exact Or.inr (by simp [h1])
      · rintro (h1 | h1)
        · exact Or.inl h1
        · rw [List.map_cons, List.mem_cons] at h1
          rcases h1 with rfl | h1
          · exact Or.inl h
          · exact Or.inr h1
    · simp only [List.mem_append, List.map_cons, List.mem_cons, List.not_mem_nil, or_false]
      tauto

theorem puts_get (ks : List ((String × String) × (ℝ → ℝ))) (v : ℝ) (d e : MatParams)
    (k : String × String) (h : k ∈ ks.map Prod.fst ∨ d.get? k = e.get? k) :
    KDict.get? (ks.foldl (fun (d : MatParams) k => d.put k.1 (k.2 v)) d) k
      = KDict.get? (ks.foldl (fun (d : MatParams) k => d.put k.1 (k.2 v)) e) k := by
  induction ks generalizing d e with
  | nil => simpa using h
  | cons a ks ih =>
    rw [List.foldl_cons, List.foldl_cons]
    refine ih _ _ ?_
    by_cases hk : k = a.1
    · subst hk
      exact Or.inr (by rw [KDict.get?_put_self, KDict.get?_put_self])
    · rw [KDict.get?_put_ne _ _ hk, KDict.get?_put_ne _ _ hk]
      rw [List.map_cons, List.mem_cons] at h
      tauto

theorem puts_other (ks : List ((String × String) × (ℝ → ℝ))) (v : ℝ) (d : MatParams)
    (k : String × String) (h : k ∉ ks.map Prod.fst) :
    KDict.get? (ks.foldl (fun (d : MatParams) k => d.put k.1 (k.2 v)) d) k = d.get? k := by
  induction ks generalizing d with
  | nil => rfl
  | cons a ks ih =>
    rw [List.map_cons, List.mem_cons, not_or] at h
    rw [List.foldl_cons, ih _ h.2, KDict.get?_put_ne _ _ h.1]

theorem syncOne_sync {material param : String} {d d' : MatParams} {v : ℝ}
    (h : syncOne material d param v = .ok d') :
    (∀ k, k ∉ syncKeys material param → d'.get? k = d.get? k) ∧
      ∀ e, ∃ e', syncOne material e param v = .ok e' ∧
        ∀ k, (k ∈ syncKeys material param ∨ d.get? k = e.get? k) → d'.get? k = e'.get? k := by
  rcases syncOne_form material param with hf | ⟨ks, hf⟩ <;> beta_reduce at hf
  · rw [hf] at h; cases h
  · have hk : ∀ k, k ∈ syncKeys material param ↔ k ∈ ks.map Prod.fst := by
      intro k
      unfold syncKeys
      rw [hf]
      dsimp only
      rw [puts_keys]
      simp [KDict.keys]
    rw [hf] at h
    cases h
    refine ⟨fun k hn => puts_other ks v d k (fun hm => hn ((hk k).mpr hm)), fun e => ⟨_, hf e v, ?_⟩⟩
    intro k hkk
    exact puts_get ks v d e k (hkk.imp_left (hk k).mp)

theorem syncFold_form {material : String} {s : LearnState} (l : List (String × ℝ)) {d d' : MatParams}
    (h : l.foldlM (fun (d : MatParams) p => do
      let v ← syncValue s p.1 p.2
      syncOne material d p.1 v) d = .ok d') :
    (∀ k, (∀ p ∈ l, k ∉ syncKeys material p.1) → d'.get? k = d.get? k) ∧
      ∀ e, ∃ e', l.foldlM (fun (d : MatParams) p => do
        let v ← syncValue s p.1 p.2
        syncOne material d p.1 v) e = .ok e' ∧
        ∀ k, ((∃ p ∈ l, k ∈ syncKeys material p.1) ∨ d.get? k = e.get? k) →
          d'.get? k = e'.get? k := by
  induction l generalizing d with
  | nil =>
    cases h
    exact ⟨fun _ _ => rfl, fun e => ⟨e, rfl, by simp⟩⟩
  | cons p l ih =>
    rw [List.foldlM_cons] at h
    obtain ⟨d1, h1, h2⟩ := bind_ok h
    obtain ⟨v, hv, h1⟩ := bind_ok h1
    obtain ⟨a1, a2⟩ := syncOne_sync h1
    obtain ⟨b1, b2⟩ := ih h2
    refine ⟨?_, ?_⟩
    · intro k hk
      rw [b1 k fun q hq => hk q (by simp [hq]), a1 k (hk p (by simp))]
    · intro e
      obtain ⟨e1, c1, c2⟩ := a2 e
      obtain ⟨e', c3, c4⟩ := b2 e1
      refine ⟨e', ?_, ?_⟩
      · rw [List.foldlM_cons, hv]
        simp only [bind, Except.bind]
        rw [c1]
        exact c3
      · intro k hk
        refine c4 k ?_
        by_cases hl : ∃ q ∈ l, k ∈ syncKeys material q.1
        · exact Or.inl hl
        · refine Or.inr (c2 k ?_)
          rcases hk with ⟨q, hq, hqk⟩ | hk
          · rcases List.mem_cons.mp hq with rfl | hq
            · exact Or.inl hqk
            · exact absurd ⟨q, hq, hqk⟩ hl
          · exact Or.inr hk

/-! ## Events keep the file -/

/-- What is true of a model that saves its initialization file. -/
structure RcInv {σ : Type} (m0 : RcObj σ) (dir : String) (isDir : String → Bool) (m : RcObj σ)
    (w : RcWorld σ) : Prop where
  saved : m.saved = m0.saved
  addr : m.addr = m0.addr
  directory : m.directory = some dir
  autoSync : m.autoSync = m0.autoSync
  isSave : m.isSaveInit = true
  names : m.learn.params.keys = m0.learn.params.keys
  bounds : m.learn.bounds = m0.learn.bounds
  normBounds : m.learn.normBounds = m0.learn.normBounds
  normalized : m.learn.isNormalized = m0.learn.isNormalized
  isDir : w.isDir = isDir
  file : ∃ f, w.file dir = some f ∧ f.saved = m0.saved ∧ f.scalers = m.scalers ∧
    ∀ k, (∀ n ∈ m0.learn.params.keys, k ∉ syncKeys m0.saved.material n) →
      f.params.get? k = (w.heap.dict m0.addr).get? k

theorem rcSave_inv {σ : Type} {m0 m : RcObj σ} {dir : String} {isDir : String → Bool}
    {w w' : RcWorld σ} (hs : m.saved = m0.saved) (ha : m.addr = m0.addr)
    (hd : m.directory = some dir) (hi : w.isDir = isDir) (h : m.save w = .ok w') :
    w'.isDir = isDir ∧ ∃ f, w'.file dir = some f ∧ f.saved = m0.saved ∧ f.scalers = m.scalers ∧
      ∀ k, (∀ n ∈ m0.learn.params.keys, k ∉ syncKeys m0.saved.material n) →
      f.params.get? k = (w'.heap.dict m0.addr).get? k := by
  unfold RcObj.save at h
  rw [hd] at h
  obtain ⟨_, h1, h⟩ := bind_ok h
  cases h1
  obtain ⟨_, -, h⟩ := bind_ok h
  cases h
  refine ⟨hi, ⟨m.saved, w.heap.dict m.addr, m.scalers⟩, by simp, hs, rfl, ?_⟩
  intro k _
  rw [ha]

theorem rcEvent_inv {σ : Type} {m0 m m' : RcObj σ} {dir : String} {isDir : String → Bool}
    {w w' : RcWorld σ} {e : RcEvent σ} (hI : RcInv m0 dir isDir m w)
    (h : rcEvent e (m, w) = .ok (m', w')) : RcInv m0 dir isDir m' w' := by
  cases e with
  | step v =>
    cases h
    refine { hI with names := ?_ }
    rw [← hI.names]
    simp [LearnState.withValues, KDict.keys, Function.comp_def]
  | forward =>
    simp only [rcEvent] at h
    cases hf : m.forward w with
    | error e => rw [hf] at h; cases h
    | ok r =>
      rw [hf] at h
      cases h
      unfold RcObj.forward at hf
      split_ifs at hf with hs
      · obtain ⟨d, h1, h2⟩ := bind_ok hf
        cases h2
        refine { hI with isDir := hI.isDir, file := ?_ }
        obtain ⟨f, f1, f2, f3, f4⟩ := hI.file
        refine ⟨f, f1, f2, f3, ?_⟩
        intro k hk
        rw [f4 k hk]
        have e1 : ((w.heap.set m.addr d).dict m0.addr) = d := by simp [DictHeap.set, hI.addr]
        dsimp only
        rw [e1]
        rw [hI.addr] at h1
        refine ((syncFold_form _ h1).1 k ?_).symm
        intro p hp
        rw [hI.saved]
        exact hk p.1 (hI.names ▸ List.mem_map_of_mem (f := Prod.fst) hp)
      · cases hf
        exact hI
  | scalers s =>
    simp only [rcEvent] at h
    rw [if_pos hI.isSave] at h
    cases hf : ({ m with scalers := s } : RcObj σ).save w with
    | error e => rw [hf] at h; cases h
    | ok r =>
      rw [hf] at h
      cases h
      have := rcSave_inv (m0 := m0) (m := { m with scalers := s }) hI.saved hI.addr hI.directory
        hI.isDir hf
      exact { hI with isDir := this.1, file := this.2 }
  | save =>
    simp only [rcEvent] at h
    cases hf : m.save w with
    | error e => rw [hf] at h; cases h
    | ok r =>
      rw [hf] at h
      cases h
      have := rcSave_inv (m0 := m0) hI.saved hI.addr hI.directory hI.isDir hf
      exact { hI with isDir := this.1, file := this.2 }

theorem rcEvents_inv {σ : Type} {m0 : RcObj σ} {dir : String} {isDir : String → Bool}
    (es : List (RcEvent σ)) {x y : RcObj σ × RcWorld σ} (hI : RcInv m0 dir isDir x.1 x.2)
    (h : rcEvents es x = .ok y) : RcInv m0 dir isDir y.1 y.2 := by
  induction es generalizing x with
  | nil => cases h; exact hI
  | cons e es ih =>
    unfold rcEvents at h
    rw [List.foldlM_cons] at h
    obtain ⟨z, h1, h2⟩ := bind_ok h
    exact ih (rcEvent_inv (w := x.2) (m := x.1) hI h1) h2

theorem rcChecks_dir {σ : Type} {cuda : Bool} {a b : RcArgs} {w w' : RcWorld σ} {s : LearnState}
    (h : rcChecks cuda a w = .ok s) (hs : b.saved = a.saved) (hd : b.directory = a.directory)
    (hw : w'.isDir = w.isDir) : rcChecks cuda b w' = .ok s := by
  unfold rcChecks at h ⊢
  rw [hs, hd, hw]
  exact h

/-- **C127 (rebuilt).** A model that saves its initialization file may be trained, compute, have its
scalers set and be saved any number of times: the model initialized from its directory has the same
arguments, learnable parameters and bounds, the scalers of the model, and the initial values of its
learnable parameters; given the current values it computes with the same material parameters. -/
theorem C127_rebuilt {σ : Type} {cuda : Bool} {a : RcArgs} {dir : String} {w0 w1 w : RcWorld σ}
    {m0 m : RcObj σ} {es : List (RcEvent σ)} (hd : a.directory = some dir)
    (hc : rcConstruct cuda a true w0 = .ok (m0, w1)) (he : rcEvents es (m0, w1) = .ok (m, w)) :
    ∃ m' w', rcFromFile cuda dir w = .ok (m', w') ∧ SameModel m m' ∧ m'.saved = a.saved ∧
      m'.learn = m0.learn ∧ m'.addr = w.heap.next ∧
      (a.autoSync = true → ∀ d wd, m.forward w = .ok (d, wd) →
        ∃ d' wd', ({ m' with learn := m.learn } : RcObj σ).forward w' = .ok (d', wd') ∧
          SameParams d' d) := by
  unfold rcConstruct at hc
  obtain ⟨learn, hl, hc⟩ := bind_ok hc
  dsimp only at hc
  rw [if_pos rfl] at hc
  generalize hm : (RcObj.mk (σ := σ) a.saved a.addr a.directory a.autoSync
    (if isVmapName a.saved.material then false else a.checkFail) true learn ⟨none, none⟩) = mm at hc
  cases hsv : mm.save w0 with
  | error e => rw [hsv] at hc; cases hc
  | ok ww =>
    rw [hsv] at hc
    cases hc
    have hdir : w0.isDir dir = true := by
      subst hm
      unfold RcObj.save at hsv
      dsimp only at hsv
      rw [hd] at hsv
      obtain ⟨_, e1, hsv⟩ := bind_ok hsv
      cases e1
      obtain ⟨_, e2, -⟩ := bind_ok hsv
      exact Bool.eq_true_of_not_eq_false (raiseIf_ok.mp e2)
    have hI0 : RcInv m0 dir w0.isDir m0 w1 := by
      have := rcSave_inv (m0 := m0) (m := m0) rfl rfl (by subst hm; exact hd) rfl hsv
      exact ⟨rfl, rfl, by subst hm; exact hd, rfl, by subst hm; rfl, rfl, rfl, rfl, rfl, this.1,
        this.2⟩
    have hI := rcEvents_inv es hI0 he
    obtain ⟨f, f1, f2, f3, f4⟩ := hI.file
    have hsaved : m0.saved = a.saved := by subst hm; rfl
    have hlearn : m0.learn = learn := by subst hm; rfl
    have hauto : m0.autoSync = a.autoSync := by subst hm; rfl
    let h' : DictHeap := { (w.heap.set w.heap.next f.params) with next := w.heap.next + 1 }
    have hck : rcChecks cuda ⟨f.saved, w.heap.next, some dir, true, true⟩ { w with heap := h' }
        = .ok learn := rcChecks_dir hl (f2.trans hsaved) (by rw [hd]) hI.isDir
    have hld : rcFromFile cuda dir w = .ok (⟨f.saved, w.heap.next, some dir, true,
        (if isVmapName f.saved.material then false else true), false, learn, f.scalers⟩,
        { w with heap := h' }) := by
      unfold rcFromFile
      rw [(raiseIf_ok (u := ())).mpr (by rw [hI.isDir, hdir]; simp), f1]
      simp only [orRaise, bind, Except.bind]
      unfold rcConstruct
      simp only [bind, Except.bind]
      rw [hck]
      rfl
    refine ⟨_, _, hld, ?_, f2.trans hsaved, hlearn.symm, rfl, ?_⟩
    · exact ⟨f2.trans hI.saved.symm, hI.directory.symm, f3, by rw [hI.names, hlearn],
        by rw [hI.bounds, hlearn], by rw [hI.normBounds, hlearn], by rw [hI.normalized, hlearn]⟩
    · intro hs d wd hfw
      unfold RcObj.forward at hfw ⊢
      rw [if_pos (by rw [hI.autoSync, hauto, hs])] at hfw
      rw [if_pos rfl]
      obtain ⟨d1, hs1, hs2⟩ := bind_ok hfw
      cases hs2
      obtain ⟨e', g1, g2⟩ := (syncFold_form _ hs1).2 f.params
      have hheap : h'.dict w.heap.next = f.params := by simp [h', DictHeap.set]
      have hmat : f.saved.material = m.saved.material := by rw [f2, hI.saved]
      refine ⟨e', { w with heap := h'.set w.heap.next e' }, ?_, ?_⟩
      · dsimp only
        rw [hheap, hmat]
        unfold syncParameters
        rw [g1]
        rfl
      · intro k
        refine (g2 k ?_).symm
        by_cases hk : ∀ n ∈ m0.learn.params.keys, k ∉ syncKeys m0.saved.material n
        · right
          rw [f4 k hk, hI.addr]
        · left
          push Not at hk
          obtain ⟨n, hn, hk⟩ := hk
          rw [← hI.names] at hn
          obtain ⟨p, hp, rfl⟩ := List.mem_map.mp hn
          exact ⟨p, hp, by rw [hI.saved]; exact hk⟩

/-- **C127 (separate).** Computations with a model do not change the material parameters with which a
model with another dictionary computes. -/
theorem C127_separate {σ : Type} {m m' : RcObj σ} {w w1 : RcWorld σ} {d : MatParams}
    (ha : m.addr ≠ m'.addr) (h : m.forward w = .ok (d, w1)) :
    (m'.forward w1).map Prod.fst = (m'.forward w).map Prod.fst := by
  have e : w1.heap.dict m'.addr = w.heap.dict m'.addr := by
    unfold RcObj.forward at h
    split_ifs at h with hs
    · obtain ⟨d1, -, h2⟩ := bind_ok h
      cases h2
      simp [DictHeap.set, Ne.symm ha]
    · cases h; rfl
  unfold RcObj.forward
  split_ifs with hs
  · rw [e]
    cases syncParameters m'.saved.material m'.learn (w.heap.dict m'.addr) <;> rfl
  · rw [e]; rfl

/-- **C127 (own dictionary).** A model initialized from a file shares its dictionary with no model that
exists. -/
theorem C127_own {σ : Type} {cuda : Bool} {dir : String} {w w' : RcWorld σ} {m m' : RcObj σ}
    (hm : m.addr < w.heap.next) (h : rcFromFile cuda dir w = .ok (m', w')) :
    m'.addr ≠ m.addr ∧ w'.heap.dict m.addr = w.heap.dict m.addr := by
  unfold rcFromFile at h
  obtain ⟨_, -, h⟩ := bind_ok h
  obtain ⟨f, -, h⟩ := bind_ok h
  obtain ⟨r, h1, h2⟩ := bind_ok h
  cases h2
  unfold rcConstruct at h1
  obtain ⟨_, -, h1⟩ := bind_ok h1
  cases h1
  exact ⟨by dsimp only; omega, by simp [DictHeap.set, hm.ne]⟩

/-! ## Faults -/

/-- **C127 is violated for options.** A model built without synchronisation, or without the check of
failed state updates, is rebuilt with them. -/
theorem C127_options_violated {σ : Type} {cuda : Bool} {dir : String} {w w' : RcWorld σ}
    {m' : RcObj σ} (h : rcFromFile cuda dir w = .ok (m', w')) :
    m'.autoSync = true ∧ (isVmapName m'.saved.material = false → m'.checkFail = true) := by
  unfold rcFromFile at h
  obtain ⟨_, -, h⟩ := bind_ok h
  obtain ⟨f, -, h⟩ := bind_ok h
  obtain ⟨r, h1, h2⟩ := bind_ok h
  cases h2
  unfold rcConstruct at h1
  obtain ⟨_, -, h1⟩ := bind_ok h1
  cases h1
  refine ⟨rfl, fun hv => ?_⟩
  dsimp only at hv ⊢
  rw [hv]
  rfl

/-- **C127 (acceptance).** A model that is not saved is built exactly if its learnable parameters are
accepted, its problem is plane strain or three-dimensional, its directory exists if it has one, its name is
a text or missing, its device is available, and its constitutive model is known; it has no scalers. -/
theorem C127_accepted {σ : Type} {cuda : Bool} {a : RcArgs} {w : RcWorld σ} :
    (∃ m, rcConstruct cuda a false w = .ok (m, w)) ↔
      (∃ s, setModelParameters a.saved.isNormalized a.saved.learnable = .ok s) ∧
      (a.saved.problemType = 1 ∨ a.saved.problemType = 4) ∧
      (∀ s, a.directory = some s → w.isDir s = true) ∧ a.saved.name.isStrOrNone = true ∧
      (a.saved.device = "cpu" ∨ (a.saved.device = "cuda" ∧ cuda = true)) ∧
      a.saved.material ∈ ["elastic", "von_mises", "von_mises_mixed", "drucker_prager", "lou_zhang_yoon",
        "von_mises_vmap", "von_mises_mixed_vmap", "drucker_prager_vmap", "lou_zhang_yoon_vmap"] := by
  constructor
  · rintro ⟨m, h⟩
    unfold rcConstruct at h
    obtain ⟨s, h, -⟩ := bind_ok h
    unfold rcChecks at h
    obtain ⟨s', h0, h⟩ := bind_ok h
    obtain ⟨_, h1, h⟩ := bind_ok h
    obtain ⟨_, h2, h⟩ := bind_ok h
    obtain ⟨_, h3, h⟩ := bind_ok h
    obtain ⟨_, h4, h⟩ := bind_ok h
    obtain ⟨_, h5, h⟩ := bind_ok h
    obtain ⟨_, h6, h⟩ := bind_ok h
    have h1 := raiseIf_ok.mp h1
    have h2 := raiseIf_ok.mp h2
    have h3 := raiseIf_ok.mp h3
    have h4 := raiseIf_ok.mp h4
    have h5 := raiseIf_ok.mp h5
    have h6 := raiseIf_ok.mp h6
    refine ⟨⟨s', h0⟩, by simpa [or_iff_not_imp_left] using h1, ?_, by simpa using h3, ?_, not_not.mp h6⟩
    · intro d hd
      by_contra hcon
      exact h2 ⟨d, hd, by simpa using hcon⟩
    · by_cases hc : a.saved.device = "cpu"
      · exact Or.inl hc
      · right
        have hcu : a.saved.device = "cuda" := by
          by_contra hcon
          exact h4 ⟨hc, hcon⟩
        refine ⟨hcu, ?_⟩
        by_contra hcon
        exact h5 ⟨hcu, by simpa using hcon⟩
  · rintro ⟨⟨s, h0⟩, h1, h2, h3, h4, h6⟩
    have hk : rcChecks cuda a w = .ok s := by
      unfold rcChecks
      rw [h0]
      simp only [bind, Except.bind]
      rw [(raiseIf_ok (u := ())).mpr (by simpa [or_iff_not_imp_left] using h1)]
      dsimp only
      rw [(raiseIf_ok (u := ())).mpr (by
        rintro ⟨d, hd, hf⟩
        rw [h2 d hd] at hf
        cases hf)]
      dsimp only
      rw [(raiseIf_ok (u := ())).mpr (by simp [h3])]
      dsimp only
      rw [(raiseIf_ok (u := ())).mpr (by
        rintro ⟨n1, n2⟩
        rcases h4 with h4 | h4
        · exact n1 h4
        · exact n2 h4.1)]
      dsimp only
      rw [(raiseIf_ok (u := ())).mpr (by
        rintro ⟨n1, n2⟩
        rcases h4 with h4 | h4
        · rw [h4] at n1
          revert n1
          decide
        · rw [h4.2] at n2
          cases n2)]
      dsimp only
      have h6' : ¬a.saved.material ∉ rcMaterials := not_not.mpr h6
      rw [(raiseIf_ok (u := ())).mpr h6']
      rfl
    unfold rcConstruct
    simp only [hk, bind, Except.bind]
    exact ⟨_, rfl⟩

/-- **C127 (scalers).** A model has the scalers last set, whatever happens afterwards. -/
theorem C127_scalers {σ : Type} {s : Scalers2 σ} {es : List (RcEvent σ)} (hes : ∀ e ∈ es, ∀ t, e ≠ .scalers t)
    {x y : RcObj σ × RcWorld σ} (h : rcEvents (.scalers s :: es) x = .ok y) : y.1.scalers = s := by
  unfold rcEvents at h
  rw [List.foldlM_cons] at h
  obtain ⟨z, h1, h2⟩ := bind_ok h
  have hz : z.1.scalers = s := by
    obtain ⟨m, w⟩ := x
    simp only [rcEvent] at h1
    split_ifs at h1 with hc
    · cases hs : (({ m with scalers := s } : RcObj σ).save w) with
      | error e => rw [hs] at h1; cases h1
      | ok w' => rw [hs] at h1; cases h1; rfl
    · cases h1; rfl
  clear h h1
  induction es generalizing z with
  | nil => cases h2; exact hz
  | cons e es ih =>
    rw [List.foldlM_cons] at h2
    obtain ⟨u, h1, h2⟩ := bind_ok h2
    refine ih (fun e he => hes e (List.mem_cons_of_mem _ he)) u h2 ?_
    obtain ⟨m, w⟩ := z
    cases e with
    | step v => cases h1; exact hz
    | forward =>
      simp only [rcEvent] at h1
      cases hs : m.forward w with
      | error e => rw [hs] at h1; cases h1
      | ok w' => rw [hs] at h1; cases h1; exact hz
    | scalers t => exact absurd rfl (hes _ (by simp) t)
    | save =>
      simp only [rcEvent] at h1
      cases hs : m.save w with
      | error e => rw [hs] at h1; cases h1
      | ok w' => rw [hs] at h1; cases h1; exact hz

/-- **C127 is violated for models without directory.** They are documented, but the constructor raises
unless told not to save the initialization file. -/
theorem C127_nodir_violated {σ : Type} {cuda : Bool} {a : RcArgs} {w : RcWorld σ} {s : LearnState}
    (h : rcChecks cuda a w = .ok s) (hd : a.directory = none) :
    rcConstruct cuda a true w = .error .typeError := by
  unfold rcConstruct
  rw [h]
  simp [bind, Except.bind, RcObj.save, hd, orRaise, Except.map]

/-- An elastic model with Young's modulus `e` learnable, at the given dictionary. -/
noncomputable def elasticModel (addr : ℕ) (learn : List (String × ℝ)) : RcObj Unit :=
  { saved := ⟨6, 6, [], "infinitesimal", 4, "elastic", .none, [], false, false, false, "cpu"⟩
    addr := addr, directory := none, autoSync := true, checkFail := true, isSaveInit := false
    learn := ⟨false, learn, [], []⟩, scalers := ⟨none, none⟩ }

/-- **C127 is violated for models of one dictionary.** If two models are given the same dictionary of
material parameters, the second, for which Young's modulus is given and not learnable, computes with the
modulus that the first has learned, and the dictionary of the caller is changed. -/
theorem C127_shared_violated (w : RcWorld Unit) (E e : ℝ) (hE : E ≠ e)
    (hd : w.heap.dict 0 = [(("", "E"), E)]) :
    ∃ d w1 d', (elasticModel 0 [("E", e)]).forward w = .ok (d, w1) ∧
      ((elasticModel 0 []).forward w).map Prod.fst = .ok [(("", "E"), E)] ∧
      ((elasticModel 0 []).forward w1).map Prod.fst = .ok d' ∧ d'.get? ("", "E") = some e ∧
      (w1.heap.dict 0).get? ("", "E") ≠ some E := by
  have hs : syncParameters "elastic" ⟨false, [("E", e)], [], []⟩ (w.heap.dict 0)
      = .ok [(("", "E"), e)] := by
    rw [hd]
    unfold syncParameters
    rw [List.foldlM_cons]
    have h1 : syncOne "elastic" [(("", "E"), E)] "E" (1 * e) = .ok [(("", "E"), e)] := by
      simp [syncOne, KDict.put]
    have h2 : syncValue ⟨false, [("E", e)], [], []⟩ "E" e = .ok (1 * e) := rfl
    simp only [h2, bind, Except.bind, h1]
    rfl
  have hf : (elasticModel 0 [("E", e)]).forward w
      = .ok ([(("", "E"), e)], { w with heap := w.heap.set 0 [(("", "E"), e)] }) := by
    unfold RcObj.forward
    rw [if_pos (show (elasticModel 0 [("E", e)]).autoSync = true from rfl)]
    have : syncParameters (elasticModel 0 [("E", e)]).saved.material
      (elasticModel 0 [("E", e)]).learn (w.heap.dict (elasticModel 0 [("E", e)]).addr)
      = .ok [(("", "E"), e)] := hs
    rw [this]
    rfl
  refine ⟨_, _, [(("", "E"), e)], hf, ?_, ?_, ?_, ?_⟩
  · have : (elasticModel 0 []).forward w = .ok (w.heap.dict 0,
      { w with heap := w.heap.set 0 (w.heap.dict 0) }) := rfl
    rw [this, hd]
    rfl
  · rfl
  · simp [KDict.get?]
  · simp [DictHeap.set, KDict.get?, Ne.symm hE]

/-- Non-vacuity: a model that is constructed with its file, trained, computes and gets scalers. -/
example (dir : String) (s : Scalers2 Unit) (x : ℝ) : ∃ m0 w1 m w,
    rcConstruct (σ := Unit) false ⟨⟨6, 6, [⟨"E", 100, 50, 200⟩], "infinitesimal", 4, "elastic",
      .str "m", [], false, false, false, "cpu"⟩, 0, some dir, true, false⟩ true
      ⟨⟨fun _ => [(("", "E"), 100), (("", "v"), 3)], 1⟩, fun _ => true, fun _ => none⟩ = .ok (m0, w1) ∧
    rcEvents [.step fun _ => x, .forward, .scalers s, .step fun _ => 2 * x] (m0, w1) = .ok (m, w) ∧
    m.learn.params = [("E", 2 * x)] ∧ m.scalers = s ∧
    (w.heap.dict 0).get? ("", "E") = some x := by
  have h1 : setModelParameters false [⟨"E", 100, 50, 200⟩]
      = .ok ⟨false, [("E", 100)], [("E", (50, 200))], []⟩ := by
    unfold setModelParameters
    rw [List.foldlM_cons]
    have : setOneParameter ⟨false, [], [], []⟩ ⟨"E", 100, 50, 200⟩
        = .ok ⟨false, [("E", 100)], [("E", (50, 200))], []⟩ := by
      unfold setOneParameter
      rw [(raiseIf_ok (u := ())).mpr (by norm_num)]
      rfl
    rw [this]
    rfl
  let sv : RcSaved := ⟨6, 6, [⟨"E", 100, 50, 200⟩], "infinitesimal", 4, "elastic",
      .str "m", [], false, false, false, "cpu"⟩
  let d0 : MatParams := [(("", "E"), 100), (("", "v"), 3)]
  let w0 : RcWorld Unit := ⟨⟨fun _ => d0, 1⟩, fun _ => true, fun _ => none⟩
  have h2 : rcChecks false ⟨sv, 0, some dir, true, false⟩ w0
      = .ok ⟨false, [("E", 100)], [("E", (50, 200))], []⟩ := by
    unfold rcChecks
    have : setModelParameters sv.isNormalized sv.learnable
      = .ok ⟨false, [("E", 100)], [("E", (50, 200))], []⟩ := h1
    simp only [this, bind, Except.bind]
    simp [raiseIf, sv, w0, rcMaterials, ArgVal.isStrOrNone, pure, Except.pure]
  let m0 : RcObj Unit := ⟨sv, 0, some dir, true, false, true,
    ⟨false, [("E", 100)], [("E", (50, 200))], []⟩, ⟨none, none⟩⟩
  let w1 : RcWorld Unit := { w0 with file := fun k => if k = dir then some ⟨sv, d0, ⟨none, none⟩⟩
                                else none }
  have h3 : rcConstruct (σ := Unit) false ⟨sv, 0, some dir, true, false⟩ true w0 = .ok (m0, w1) := by
    unfold rcConstruct
    rw [h2]
    have hv : isVmapName sv.material = false := by decide
    simp only [bind, Except.bind, hv]
    rfl
  let dx : MatParams := [(("", "E"), x), (("", "v"), 3)]
  let m1 : RcObj Unit := { m0 with learn := ⟨false, [("E", x)], [("E", (50, 200))], []⟩ }
  have h4 : m1.forward w1 = .ok (dx, { w1 with heap := w1.heap.set 0 dx }) := by
    unfold RcObj.forward
    rw [if_pos rfl]
    have : syncParameters m1.saved.material m1.learn (w1.heap.dict m1.addr) = .ok dx := by
      unfold syncParameters
      have e : m1.learn.params = [("E", x)] := rfl
      rw [e, List.foldlM_cons]
      have : syncOne "elastic" d0 "E" (1 * x) = .ok dx := by
        simp [syncOne, KDict.put, d0, dx]
      have e2 : syncValue m1.learn "E" x = .ok (1 * x) := rfl
      simp only [e2, bind, Except.bind]
      have e3 : m1.saved.material = "elastic" := rfl
      have e4 : w1.heap.dict m1.addr = d0 := rfl
      rw [e3, e4, this]
      rfl
    rw [this]
    rfl
  let w2 : RcWorld Unit := { w1 with heap := w1.heap.set 0 dx }
  let m2 : RcObj Unit := { m1 with scalers := s }
  let w3 : RcWorld Unit := { w2 with file := fun k => if k = dir then some ⟨sv, dx, s⟩
                                else w2.file k }
  have h5 : m2.save w2 = .ok w3 := rfl
  refine ⟨m0, w1, { m2 with learn := ⟨false, [("E", 2 * x)], [("E", (50, 200))], []⟩ }, w3, h3, ?_,
    rfl, rfl, ?_⟩
  · unfold rcEvents
    rw [List.foldlM_cons]
    have e1 : rcEvent (.step fun _ => x) (m0, w1) = .ok (m1, w1) := rfl
    have e2 : rcEvent .forward (m1, w1) = .ok (m1, w2) := by
      simp only [rcEvent]
      rw [h4]
      rfl
    have e3 : rcEvent (.scalers s) (m1, w2) = .ok (m2, w3) := rfl
    rw [e1]
    simp only [bind, Except.bind]
    rw [List.foldlM_cons, e2]
    simp only [bind, Except.bind]
    rw [List.foldlM_cons, e3]
    rfl
  · simp [w3, w2, DictHeap.set, dx, KDict.get?]

end Hooke
