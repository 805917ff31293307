import Verif.Spec.HybridInit
import Verif.Props.HybridSetup
import Verif.Lemmas.StrainPath

/-!
# C150: hybrid models are rebuilt from their initialization files
-/

namespace Hooke

noncomputable section

open Spec

variable {ω : Type}

theorem mapM_checkScalers_ok {l : List HybEntry} :
    (∃ r, (sortEntries l).mapM checkScalers = .ok r) ↔ ∀ e ∈ l, checkScalers e = .ok () := by
  have hm : ∀ e, e ∈ sortEntries l ↔ e ∈ l := fun e => by
    unfold sortEntries
    rw [List.mem_mergeSort, List.mem_mergeSort]
  constructor
  · rintro ⟨r, hr⟩ e he
    by_contra hc
    rw [mapM_checkScalers ((hm e).2 he) hc] at hr
    cases hr
  · intro h
    exact ⟨_, mapM_of_forall (g := fun _ => ()) fun e he => h e ((hm e).1 he)⟩

/-- When the constructor accepts its arguments. -/
structure HybAccepted (cuda : Bool) (s : HybSaved) (items : List HybItem) (directory : Option String)
    (w : HybWorld ω) : Prop where
  distinct : items.Pairwise fun i j => i.indices ≠ j.indices
  dir : ∀ k, directory = some k → w.isDir k = true
  name : s.name.isStrOrNone = true
  device : s.device = "cpu" ∨ s.device = "cuda"
  cuda : s.device = "cuda" → cuda = true
  scalers : ∀ i ∈ items, checkScalers (w.heap.entry i) = .ok ()
  type : s.type ≠ .unknown

theorem hybChecks_iff {cuda : Bool} {s : HybSaved} {items : List HybItem} {directory : Option String}
    {w : HybWorld ω} : hybChecks cuda s items directory w = .ok () ↔ HybAccepted cuda s items directory w := by
  have hp : (items.map w.heap.entry).Pairwise (fun a b => a.indices ≠ b.indices) ↔
      items.Pairwise fun i j => i.indices ≠ j.indices := by
    rw [List.pairwise_map]
    rfl
  unfold hybChecks
  constructor
  · intro h
    obtain ⟨chs, h1, h⟩ := bind_ok h
    obtain ⟨u2, h2, h⟩ := bind_ok h
    obtain ⟨u3, h3, h⟩ := bind_ok h
    obtain ⟨u4, h4, h⟩ := bind_ok h
    obtain ⟨u5, h5, h⟩ := bind_ok h
    obtain ⟨r, h6, h⟩ := bind_ok h
    rw [raiseIf_ok] at h2 h3 h4 h5 h
    refine ⟨?_, ?_, ?_, ?_, ?_, ?_, h⟩
    · by_contra hc
      rw [C80_duplicate _ (fun hh => hc (hp.1 hh))] at h1
      cases h1
    · intro k hk
      by_contra hc
      exact h2 ⟨k, hk, Bool.eq_false_iff.2 hc⟩
    · exact Bool.eq_true_of_not_eq_false h3
    · tauto
    · intro hd
      by_contra hc
      exact h5 ⟨hd, Bool.eq_false_iff.2 hc⟩
    · intro i hi
      exact mapM_checkScalers_ok.1 ⟨r, h6⟩ _ (List.mem_map.2 ⟨i, hi, rfl⟩)
  · rintro ⟨h1, h2, h3, h4, h5, h6, h7⟩
    obtain ⟨chs, hc, -⟩ := C80_channels _ (hp.2 h1)
    obtain ⟨r, hr⟩ := (mapM_checkScalers_ok (l := items.map w.heap.entry)).2 (by
      intro e he
      obtain ⟨i, hi, rfl⟩ := List.mem_map.1 he
      exact h6 i hi)
    simp only [hc, hr, bind, Except.bind, raiseIf]
    rw [if_neg (by rintro ⟨k, hk, hf⟩; rw [h2 k hk] at hf; cases hf)]
    simp only
    rw [if_neg (by simp [h3])]
    simp only
    rw [if_neg (by tauto)]
    simp only
    rw [if_neg (by rintro ⟨hd, hf⟩; rw [h5 hd] at hf; cases hf)]
    simp only
    rw [if_neg h7]

theorem hybSave_ok {m : HybObj} {w w' : HybWorld ω} (h : m.save w = .ok w') :
    ∃ dir, m.directory = some dir ∧ w.isDir dir = true ∧ w' =
      { w with file := fun k => if k = dir then some ⟨m.saved, m.items, w.heap, m.scalers⟩ else w.file k } := by
  unfold HybObj.save at h
  obtain ⟨dir, h1, h⟩ := bind_ok h
  obtain ⟨u, h2, h⟩ := bind_ok h
  rw [orRaise_ok] at h1
  rw [raiseIf_ok] at h2
  exact ⟨dir, h1, Bool.eq_true_of_not_eq_false h2, (Except.ok.inj h).symm⟩

/-- What holds of a hybrid model that saves its initialization file, between events: `saved` are the weights on
file. -/
structure HybInv (cuda : Bool) (s : HybSaved) (items : List HybItem) (dir : String) (n : ℕ) (m : HybObj)
    (w : HybWorld ω) (saved : ℕ → ω) : Prop where
  hs : m.saved = s
  hi : m.items = items
  hd : m.directory = some dir
  hsave : m.isSaveInit = true
  next : w.heap.next = n
  ok : HybAccepted cuda s items (some dir) w
  file : ∃ f, w.file dir = some f ∧ f.saved = s ∧ f.items = items ∧ f.scalers = m.scalers ∧ f.heap.next = n ∧
    ∀ a ∈ items.map HybItem.addr, f.heap.obj a = { w.heap.obj a with weights := saved a }

theorem inv_saved {cuda : Bool} {s : HybSaved} {items : List HybItem} {dir : String} {n : ℕ} {m : HybObj}
    {w w' : HybWorld ω} (h1 : m.saved = s) (h2 : m.items = items) (h3 : m.directory = some dir)
    (h4 : m.isSaveInit = true) (h5 : w.heap.next = n) (h6 : HybAccepted cuda s items (some dir) w)
    (h : m.save w = .ok w') : HybInv cuda s items dir n m w' (fun a => (w.heap.obj a).weights) ∧
      w'.heap = w.heap := by
  obtain ⟨dir', hd, hi, rfl⟩ := hybSave_ok h
  rw [h3] at hd
  obtain rfl := Option.some.inj hd
  exact ⟨⟨h1, h2, h3, h4, h5, ⟨h6.1, h6.2, h6.3, h6.4, h6.5, h6.6, h6.7⟩,
    ⟨_, if_pos rfl, h1, h2, rfl, h5, fun a _ => rfl⟩⟩, rfl⟩

theorem event_inv {cuda : Bool} {s : HybSaved} {items : List HybItem} {dir : String} {n : ℕ}
    (es : List (HybEvent ω)) : ∀ {m m' : HybObj} {w w' : HybWorld ω} {saved cur : ℕ → ω},
    HybInv cuda s items dir n m w saved →
    (∀ a ∈ items.map HybItem.addr, (w.heap.obj a).weights = cur a) →
    hybEvents es (m, w) = .ok (m', w') →
    ∃ saved', (∀ a ∈ items.map HybItem.addr, saved' a = weightsOnFile cur saved es a) ∧
      HybInv cuda s items dir n m' w' saved' := by
  induction es with
  | nil =>
    intro m m' w w' saved cur h _ he
    obtain ⟨rfl, rfl⟩ := Prod.mk.inj (Except.ok.inj he)
    exact ⟨saved, fun _ _ => rfl, h⟩
  | cons e es ih =>
    intro m m' w w' saved cur h hc he
    unfold hybEvents at he
    rw [List.foldlM_cons] at he
    obtain ⟨⟨m₁, w₁⟩, h1, he⟩ := bind_ok he
    have hsv : ∀ {q : HybObj} {v : HybWorld ω}, q.saved = s → q.items = items → q.directory = some dir →
        q.isSaveInit = true → q.save w = .ok v → hybEvents es (q, v) = .ok (m', w') →
        ∃ saved', (∀ a ∈ items.map HybItem.addr, saved' a = weightsOnFile cur cur es a) ∧
          HybInv cuda s items dir n m' w' saved' := by
      intro q v q1 q2 q3 q4 hq hev
      obtain ⟨hi, hh⟩ := inv_saved q1 q2 q3 q4 h.next h.ok hq
      have hi' : HybInv cuda s items dir n q v cur := by
        obtain ⟨f, f1, f2, f3, f4, f5, f6⟩ := hi.file
        refine ⟨hi.1, hi.2, hi.3, hi.4, hi.5, hi.6, f, f1, f2, f3, f4, f5, fun a ha => ?_⟩
        rw [f6 a ha, hc a ha]
      exact ih hi' (fun a ha => by rw [hh]; exact hc a ha) hev
    cases e with
    | step v =>
      obtain ⟨rfl, rfl⟩ := Prod.mk.inj (Except.ok.inj h1)
      refine ih (saved := saved) (cur := v) ?_ ?_ he
      · obtain ⟨f, f1, f2, f3, f4, f5, f6⟩ := h.file
        refine ⟨h.1, h.2, h.3, h.4, h.5, ⟨h.ok.1, h.ok.2, h.ok.3, h.ok.4, h.ok.5, fun i hi => ?_, h.ok.7⟩,
          f, f1, f2, f3, f4, f5, fun a ha => ?_⟩
        · have := h.ok.6 i hi
          have hm : i.addr ∈ m.items.map HybItem.addr := by
            rw [h.hi]
            exact List.mem_map.2 ⟨i, hi, rfl⟩
          rw [← this]
          unfold checkScalers SubHeap.entry HybObj.setWeights
          simp only [hm, if_true]
        · rw [f6 a ha]
          have hm : a ∈ m.items.map HybItem.addr := by rw [h.hi]; exact ha
          unfold HybObj.setWeights
          simp only [hm, if_true]
      · intro a ha
        have hm : a ∈ m.items.map HybItem.addr := by rw [h.hi]; exact ha
        unfold HybObj.setWeights
        simp only [hm, if_true]
    | scalers sc =>
      have hsv' := h.hsave
      simp only [hybEvent, if_pos hsv'] at h1
      cases hq : HybObj.save { m with scalers := sc } w with
      | error e => rw [hq] at h1; cases h1
      | ok v =>
        rw [hq] at h1
        obtain ⟨rfl, rfl⟩ := Prod.mk.inj (Except.ok.inj h1)
        exact hsv (q := { m with scalers := sc }) h.1 h.2 h.3 h.4 hq he
    | save =>
      simp only [hybEvent] at h1
      cases hq : m.save w with
      | error e => rw [hq] at h1; cases h1
      | ok v =>
        rw [hq] at h1
        obtain ⟨rfl, rfl⟩ := Prod.mk.inj (Except.ok.inj h1)
        exact hsv h.1 h.2 h.3 h.4 hq he

theorem setDevice_entry_scalers (h : SubHeap ω) (items : List HybItem) (dev : String) (i : HybItem) :
    (h.setDevice items dev).entry i = h.entry i := by
  unfold SubHeap.entry SubHeap.setDevice
  by_cases hm : i.addr ∈ items.map HybItem.addr <;> simp only [hm, if_true, if_false]

theorem hybConstruct_inv {cuda : Bool} {s : HybSaved} {items : List HybItem} {dir : String}
    {w w' : HybWorld ω} {m : HybObj} (h : hybConstruct cuda s items (some dir) true w = .ok (m, w')) :
    HybInv cuda s items dir w.heap.next m w' (fun a => (w.heap.obj a).weights) ∧
      (∀ a, (w'.heap.obj a).weights = (w.heap.obj a).weights) := by
  unfold hybConstruct at h
  obtain ⟨u, h1, h⟩ := bind_ok h
  have h1 := hybChecks_iff.1 h1
  simp only [if_true] at h
  have hw : ∀ a, ((w.heap.setDevice items s.device).obj a).weights = (w.heap.obj a).weights := fun a => by
    unfold SubHeap.setDevice
    by_cases hm : a ∈ items.map HybItem.addr <;> simp only [hm, if_true, if_false]
  cases hq : HybObj.save ⟨s, items, some dir, true, ⟨none, none⟩⟩
      { w with heap := w.heap.setDevice items s.device } with
  | error e => rw [hq] at h; cases h
  | ok v =>
    rw [hq] at h
    obtain ⟨rfl, rfl⟩ := Prod.mk.inj (Except.ok.inj h)
    obtain ⟨hi, hh⟩ := inv_saved (cuda := cuda) (s := s) (items := items) (dir := dir) (n := w.heap.next)
      (w := { w with heap := w.heap.setDevice items s.device }) rfl rfl rfl rfl rfl ⟨h1.1, h1.2, h1.3, h1.4, h1.5, fun i hi => by
        rw [setDevice_entry_scalers]; exact h1.6 i hi, h1.7⟩ hq
    refine ⟨?_, fun a => by rw [hh]; exact hw a⟩
    obtain ⟨f, f1, f2, f3, f4, f5, f6⟩ := hi.file
    refine ⟨hi.1, hi.2, hi.3, hi.4, hi.5, hi.6, f, f1, f2, f3, f4, f5, fun a ha => ?_⟩
    rw [f6 a ha]
    exact congrArg (fun z => { v.heap.obj a with weights := z }) (hw a)

theorem loadState_obj (g : ℕ → ω) (L : List (HybItem × ω)) : ∀ (w : HybWorld ω),
    (∀ p ∈ L, p.2 = g p.1.addr) →
    (L.foldl (fun (w : HybWorld ω) p =>
      { w with heap := { w.heap with obj := fun a =>
          if a = p.1.addr then { w.heap.obj a with weights := p.2 } else w.heap.obj a } }) w).heap.obj =
      fun a => if a ∈ L.map (fun p => p.1.addr) then { w.heap.obj a with weights := g a } else w.heap.obj a := by
  induction L with
  | nil => intro w _; simp
  | cons p L ih =>
    intro w hp
    rw [List.foldl_cons, ih _ fun q hq => hp q (List.mem_cons_of_mem _ hq)]
    funext a
    have := hp p List.mem_cons_self
    simp only [List.map_cons, List.mem_cons]
    by_cases h1 : a = p.1.addr
    · subst h1
      by_cases h2 : p.1.addr ∈ L.map (fun p => p.1.addr)
      · simp [h2]
      · simp [h2, this]
    · by_cases h2 : a ∈ L.map (fun p => p.1.addr)
      · simp [h1, h2]
      · simp [h1, h2]

/-- **C150 (rebuilt).** A hybrid model that saves its initialization file may be trained, have its scalers set
and be saved any number of times in any order: the model initialized from its directory has the same arguments,
hybridized models in the same places, and the current scalers; its weights are those of the last time the file
was written, and with the current state loaded it computes the same as the model. It shares no hybridized model
with an existing model and leaves all of them unchanged. -/
theorem C150_rebuilt {cuda : Bool} {s : HybSaved} {items : List HybItem} {dir : String}
    {w₀ w₁ w₂ : HybWorld ω} {m m' : HybObj} {es : List (HybEvent ω)}
    (h : hybConstruct cuda s items (some dir) true w₀ = .ok (m, w₁))
    (he : hybEvents es (m, w₁) = .ok (m', w₂)) :
    ∃ r w₃, hybFromFile cuda dir w₂ = .ok (r, w₃) ∧ r.saved = s ∧ m'.saved = s ∧ m'.items = items ∧
      r.directory = m'.directory ∧ r.scalers = m'.scalers ∧ SameItems m'.items r.items ∧
      (∀ i ∈ r.items, w₂.heap.next ≤ i.addr) ∧ (∀ a < w₂.heap.next, w₃.heap.obj a = w₂.heap.obj a) ∧
      r.state w₃ = items.map (fun i => weightsOnFile (fun a => (w₀.heap.obj a).weights)
        (fun a => (w₀.heap.obj a).weights) es i.addr) ∧
      ∀ x, r.forward (r.loadState (m'.state w₂) w₃) x = m'.forward w₂ x := by
  obtain ⟨hi, hw⟩ := hybConstruct_inv h
  obtain ⟨saved, hsv, hi⟩ := event_inv es hi (fun a _ => hw a) he
  obtain ⟨f, f1, f2, f3, f4, f5, f6⟩ := hi.file
  -- the objects of the file, at their new addresses
  have hnew : ∀ a ∈ items.map HybItem.addr, (w₂.heap.unpickle f.heap).obj (w₂.heap.next + a) =
      { w₂.heap.obj a with weights := saved a } := by
    intro a ha
    unfold SubHeap.unpickle
    simp only [show ¬ w₂.heap.next + a < w₂.heap.next by omega, if_false, Nat.add_sub_cancel_left]
    exact f6 a ha
  have haddr : (items.map (·.moved w₂.heap.next)).map HybItem.addr =
      (items.map HybItem.addr).map (w₂.heap.next + ·) := by
    rw [List.map_map, List.map_map]
    rfl
  have hacc : HybAccepted cuda s (items.map (·.moved w₂.heap.next)) (some dir)
      { w₂ with heap := w₂.heap.unpickle f.heap } := by
    refine ⟨?_, hi.ok.2, hi.ok.3, hi.ok.4, hi.ok.5, fun j hj => ?_, hi.ok.7⟩
    · rw [List.pairwise_map]
      exact hi.ok.1
    · obtain ⟨i, hii, rfl⟩ := List.mem_map.1 hj
      rw [← hi.ok.6 i hii]
      unfold checkScalers SubHeap.entry HybItem.moved
      simp only [hnew i.addr (List.mem_map.2 ⟨i, hii, rfl⟩)]
  set h₃ : SubHeap ω := (w₂.heap.unpickle f.heap).setDevice (items.map (·.moved w₂.heap.next)) s.device with hh₃
  have hcon : hybConstruct cuda f.saved (f.items.map (·.moved w₂.heap.next)) (some dir) false
      { w₂ with heap := w₂.heap.unpickle f.heap } =
      .ok (⟨s, items.map (·.moved w₂.heap.next), some dir, false, ⟨none, none⟩⟩, { w₂ with heap := h₃ }) := by
    rw [f2, f3]
    unfold hybConstruct
    rw [hybChecks_iff.2 hacc]
    rfl
  obtain ⟨q, hq⟩ := (mapM_checkScalers_ok (l := (items.map (·.moved w₂.heap.next)).map h₃.entry)).2 (by
    intro e hee
    obtain ⟨j, hj, rfl⟩ := List.mem_map.1 hee
    rw [hh₃, setDevice_entry_scalers]
    exact hacc.6 j hj)
  have hobj : ∀ a ∈ items.map HybItem.addr, h₃.obj (w₂.heap.next + a) =
      { w₂.heap.obj a with weights := saved a, device := (w₂.heap.obj a).device.map fun _ => s.device } := by
    intro a ha
    have : w₂.heap.next + a ∈ (items.map (·.moved w₂.heap.next)).map HybItem.addr := by
      rw [haddr]
      exact List.mem_map.2 ⟨a, ha, rfl⟩
    rw [hh₃]
    unfold SubHeap.setDevice
    simp only [this, if_true, hnew a ha]
  refine ⟨⟨s, items.map (·.moved w₂.heap.next), some dir, false, m'.scalers⟩, { w₂ with heap := h₃ }, ?_, rfl,
    hi.hs, hi.hi, hi.hd.symm, rfl, ?_, ?_, ?_, ?_, ?_⟩
  · unfold hybFromFile hybLoad
    have hdir : w₂.isDir dir = true := hi.ok.2 dir rfl
    simp only [raiseIf, hdir, f1, orRaise, bind, Except.bind]
    rw [hcon]
    simp only
    rw [hq, f4]
    rfl
  · rw [hi.hi]
    unfold SameItems
    rw [List.forall₂_map_right_iff]
    exact List.forall₂_same.2 fun i _ => ⟨rfl, rfl, rfl⟩
  · intro j hj
    obtain ⟨i, -, rfl⟩ := List.mem_map.1 hj
    exact Nat.le_add_right _ _
  · intro a ha
    have : a ∉ (items.map (·.moved w₂.heap.next)).map HybItem.addr := by
      rw [haddr]
      intro hm
      obtain ⟨b, -, e⟩ := List.mem_map.1 hm
      omega
    change h₃.obj a = _
    rw [hh₃]
    unfold SubHeap.setDevice SubHeap.unpickle
    simp only [this, if_false, ha, if_true]
  · unfold HybObj.state
    simp only
    rw [List.map_map]
    refine List.map_congr_left fun i hii => ?_
    have ha : i.addr ∈ items.map HybItem.addr := List.mem_map.2 ⟨i, hii, rfl⟩
    rw [← hsv _ ha]
    exact congrArg SubObj.weights (hobj i.addr ha)
  · intro x
    have hst : (m'.state w₂) = items.map fun i => (w₂.heap.obj i.addr).weights := by
      unfold HybObj.state
      rw [hi.hi]
    have hz : (items.map (·.moved w₂.heap.next)).zip (m'.state w₂) =
        items.map fun i => (i.moved w₂.heap.next, (w₂.heap.obj i.addr).weights) := by
      rw [hst, List.zip_map']
    have hl := loadState_obj (fun a => (w₂.heap.obj (a - w₂.heap.next)).weights)
      ((items.map (·.moved w₂.heap.next)).zip (m'.state w₂)) { w₂ with heap := h₃ } (by
        rw [hz]
        intro p hp
        obtain ⟨i, -, rfl⟩ := List.mem_map.1 hp
        simp [HybItem.moved])
    have hent : (items.map (·.moved w₂.heap.next)).map (HybObj.loadState
        ⟨s, items.map (·.moved w₂.heap.next), some dir, false, m'.scalers⟩ (m'.state w₂)
        { w₂ with heap := h₃ }).heap.entry = items.map w₂.heap.entry := by
      rw [List.map_map]
      refine List.map_congr_left fun i hii => ?_
      have ha : i.addr ∈ items.map HybItem.addr := List.mem_map.2 ⟨i, hii, rfl⟩
      have hm : w₂.heap.next + i.addr ∈ ((items.map (·.moved w₂.heap.next)).zip (m'.state w₂)).map
          (fun p => p.1.addr) := by
        rw [hz, List.map_map]
        exact List.mem_map.2 ⟨i, hii, rfl⟩
      have ho : (HybObj.loadState ⟨s, items.map (·.moved w₂.heap.next), some dir, false, m'.scalers⟩
          (m'.state w₂) { w₂ with heap := h₃ }).heap.obj (w₂.heap.next + i.addr) =
          { w₂.heap.obj i.addr with device := (w₂.heap.obj i.addr).device.map fun _ => s.device } := by
        unfold HybObj.loadState
        rw [hl]
        simp only [hm, if_true, Nat.add_sub_cancel_left]
        rw [hobj i.addr ha]
      generalize (HybObj.loadState ⟨s, items.map (·.moved w₂.heap.next), some dir, false, m'.scalers⟩
          (m'.state w₂) { w₂ with heap := h₃ }).heap = q at ho ⊢
      simp only [Function.comp, SubHeap.entry, HybItem.moved, ho]
    unfold HybObj.forward
    simp only [hent, hi.hi, hi.hs]

/-- **C150 (no side effects).** Training a hybrid model does not change what a hybrid model computes which has
no hybridized model in common with it. -/
theorem C150_separate {m m' : HybObj} (h : SharesNothing m m') (v : ℕ → ω) (w : HybWorld ω) (x : FeatTensor) :
    m'.forward (m.setWeights v w) x = m'.forward w x := by
  have : m'.items.map (m.setWeights v w).heap.entry = m'.items.map w.heap.entry := by
    refine List.map_congr_left fun j hj => ?_
    have : j.addr ∉ m.items.map HybItem.addr := by
      intro hm
      obtain ⟨i, hi, e⟩ := List.mem_map.1 hm
      exact h i hi j hj e
    unfold SubHeap.entry HybObj.setWeights
    simp only [this, if_false]
  unfold HybObj.forward
  rw [this]

/-- **C150 is violated for a model without directory.** The directory may be `None` according to the
documentation, but then the constructor raises TypeError, unless it is told not to save the initialization
file. -/
theorem C150_no_directory_violated {cuda : Bool} {s : HybSaved} {items : List HybItem} {w : HybWorld ω}
    (h : HybAccepted cuda s items none w) :
    hybConstruct cuda s items none true w = .error .typeError ∧
      ∃ r, hybConstruct cuda s items none false w = .ok r := by
  unfold hybConstruct
  rw [hybChecks_iff.2 h]
  exact ⟨rfl, _, rfl⟩

/-- **C150 is violated for the path of a file in the current directory.** The directory of the path is empty,
and the model is rejected with RuntimeError, although the file is right. -/
theorem C150_path_violated (cuda : Bool) (cwd : String) (w : HybWorld ω) (hd : w.isDir "" = false)
    {f : HybFile ω} (hf : w.file cwd = some f)
    (hp : f.items.Pairwise fun i j => i.indices ≠ j.indices) :
    hybFromPath cuda cwd "" w = .error .runtimeError := by
  unfold hybFromPath hybLoad
  simp only [if_true, hf, orRaise, bind, Except.bind]
  have : hybConstruct cuda f.saved (f.items.map (·.moved w.heap.next)) (some "") false
      { w with heap := w.heap.unpickle f.heap } = .error .runtimeError := by
    unfold hybConstruct hybChecks
    obtain ⟨chs, hc, -⟩ := C80_channels ((f.items.map (·.moved w.heap.next)).map
      (w.heap.unpickle f.heap).entry) (by
        rw [List.map_map, List.pairwise_map]
        exact hp)
    rw [hc]
    simp only [bind, Except.bind, raiseIf]
    rw [if_pos ⟨"", rfl, hd⟩]
  rw [this]

/-- **C150 is violated for the scalers of a rebuilt model.** Scalers set on a model that was initialized from a
file never get into a file: the model initialized from the file again has the scalers of the file. -/
theorem C150_rebuilt_scalers_violated {cuda : Bool} {dir : String} {w w' w'' : HybWorld ω} {m m' : HybObj}
    (h : hybFromFile cuda dir w = .ok (m, w')) (sc : Scalers2 HybScaler)
    (he : hybEvent (m, w') (.scalers sc) = .ok (m', w'')) :
    m'.scalers = sc ∧ w''.file = w.file := by
  unfold hybFromFile hybLoad at h
  obtain ⟨-, -, h⟩ := bind_ok h
  obtain ⟨f, -, h⟩ := bind_ok h
  obtain ⟨⟨q, v⟩, h1, h⟩ := bind_ok h
  obtain ⟨-, -, h⟩ := bind_ok h
  obtain ⟨rfl, rfl⟩ := Prod.mk.inj (Except.ok.inj h)
  unfold hybConstruct at h1
  obtain ⟨-, -, h1⟩ := bind_ok h1
  simp only [Bool.false_eq_true, if_false] at h1
  obtain ⟨rfl, rfl⟩ := Prod.mk.inj (Except.ok.inj h1)
  simp only [hybEvent, Bool.false_eq_true, if_false] at he
  obtain ⟨rfl, rfl⟩ := Prod.mk.inj (Except.ok.inj he)
  exact ⟨rfl, rfl⟩

/-- Two models which share their channel, saved in an existing directory, trained, saved and trained again. -/
example : ∃ (m m' : HybObj) (w₀ w₁ w₂ : HybWorld ℕ),
    hybConstruct false ⟨6, 6, .str "hybrid_model", .identity, false, false, "cpu"⟩
      [⟨"a".toList, 0, (0, 0), false⟩, ⟨"b".toList, 1, (0, 1), true⟩] (some "/m") true w₀ = .ok (m, w₁) ∧
    hybEvents [.step fun a => a + 5, .save, .step fun a => a + 7] (m, w₁) = .ok (m', w₂) ∧
    m'.state w₂ = [7, 8] ∧
    ∃ r w₃, hybFromFile false "/m" w₂ = .ok (r, w₃) ∧ r.state w₃ = [5, 6] := by
  let o : SubObj ℕ := ⟨none, none, false, none, none, 0, fun _ x => .ok (.tensor x)⟩
  let w₀ : HybWorld ℕ := ⟨⟨fun _ => o, 2⟩, fun k => k == "/m", fun _ => none⟩
  have hacc : HybAccepted false ⟨6, 6, .str "hybrid_model", .identity, false, false, "cpu"⟩
      [⟨"a".toList, 0, (0, 0), false⟩, ⟨"b".toList, 1, (0, 1), true⟩] (some "/m") w₀ := by
    refine ⟨by simp, ?_, rfl, .inl rfl, by simp, ?_, by simp⟩
    · intro k hk
      rw [← Option.some.inj hk]
      simp [w₀]
    · intro i _
      rfl
  obtain ⟨m, w₁, h⟩ : ∃ m w₁, hybConstruct false ⟨6, 6, .str "hybrid_model", .identity, false, false, "cpu"⟩
      [⟨"a".toList, 0, (0, 0), false⟩, ⟨"b".toList, 1, (0, 1), true⟩] (some "/m") true w₀ = .ok (m, w₁) := by
    unfold hybConstruct
    rw [hybChecks_iff.2 hacc]
    simp only [bind, Except.bind, if_true]
    unfold HybObj.save
    simp [orRaise, raiseIf, w₀, Except.map, bind, Except.bind]
  obtain ⟨hi, -⟩ := hybConstruct_inv h
  have hev : ∃ w₂, hybEvents [.step fun a => a + 5, .save, .step fun a => a + 7] (m, w₁) = .ok (m, w₂) ∧
      m.state w₂ = [7, 8] := by
    have hd : w₁.isDir "/m" = true := hi.ok.2 _ rfl
    have hd' : (m.setWeights (fun a => a + 5) w₁).isDir "/m" = true := hd
    obtain ⟨v, hv⟩ : ∃ v, m.save (m.setWeights (fun a => a + 5) w₁) = .ok v := by
      unfold HybObj.save
      rw [hi.hd]
      simp only [orRaise, raiseIf, hd', bind, Except.bind, Bool.true_eq_false, if_false]
      exact ⟨_, rfl⟩
    refine ⟨m.setWeights (fun a => a + 7) v, ?_, ?_⟩
    · simp only [hybEvents, List.foldlM_cons, List.foldlM_nil, hybEvent, bind, Except.bind, pure, Except.pure,
        hv, Except.map]
    · unfold HybObj.state HybObj.setWeights
      rw [hi.hi]
      rfl
  obtain ⟨w₂, hev, hst⟩ := hev
  obtain ⟨r, w₃, h1, -, -, -, -, -, -, -, -, h2, -⟩ := C150_rebuilt h hev
  exact ⟨m, m, w₀, w₁, w₂, h, hev, hst, r, w₃, h1, h2⟩

end

end Hooke
