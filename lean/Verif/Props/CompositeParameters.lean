import Verif.Spec.CompositeParameters
import Verif.Props.ConvexityMapping
import Verif.Props.TimeSeriesBatch

/-!
# C118: parameters of composite material models
-/

namespace Hooke

open Spec

/-! ### One model -/

/-- The parameters of a model come from a declaration and a training. -/
abbrev Trained (s : LearnState) : Prop := Declared LearnReach s

/-- What is known of one model. -/
theorem trained_own {s : LearnState} (h : Trained s) :
    ∃ own, getDetached s false = .ok own ∧ own.keys = s.params.keys ∧
      s.bounds.keys = s.params.keys ∧ s.params.keys.Nodup := by
  obtain ⟨isNorm, ps, hn, hr⟩ := h
  obtain ⟨f, rfl⟩ := reach_stateWith hn hr
  refine ⟨_, detached_phys isNorm ps hn f, ?_, ?_, ?_⟩
  · simp [KDict.keys, stateWith, Function.comp_def]
  · simp [KDict.keys, stateWith, initState, Function.comp_def]
  · simpa [KDict.keys, stateWith, Function.comp_def] using hn

/-- Clamping one model. -/
theorem trained_enforce {s : LearnState} (h : Trained s) :
    ∃ s' own own', enforceBounds s = .ok s' ∧ Trained s' ∧ enforceBounds s' = .ok s' ∧
      s'.bounds = s.bounds ∧ s'.params.keys = s.params.keys ∧
      getDetached s false = .ok own ∧ getDetached s' false = .ok own' ∧
      ∀ name x, (name, x) ∈ own → ∃ lo hi y, (name, (lo, hi)) ∈ s.bounds ∧ (name, y) ∈ own' ∧
        lo ≤ y ∧ y ≤ hi ∧ (lo ≤ x → x ≤ hi → y = x) ∧ (x < lo → y = lo) ∧ (hi < x → y = hi) := by
  obtain ⟨isNorm, ps, hn, hr⟩ := h
  obtain ⟨s', own, own', h1, h2, h3, h4, h5, h6⟩ := C62_bounds isNorm ps hn s hr
  obtain ⟨f, rfl⟩ := reach_stateWith hn hr
  obtain ⟨f', rfl⟩ := reach_stateWith hn h2
  refine ⟨_, own, own', h1, ⟨isNorm, ps, hn, h2⟩, h6, rfl, ?_, h3, h4, fun name x hx => ?_⟩
  · simp [KDict.keys, stateWith, Function.comp_def]
  · rw [detached_phys isNorm ps hn f, Except.ok.injEq] at h3
    rw [detached_phys isNorm ps hn f', Except.ok.injEq] at h4
    subst h3 h4
    obtain ⟨p, hp, he⟩ := List.mem_map.1 hx
    cases he
    obtain ⟨a, b, ha, hb, hrest⟩ := h5 p hp
    rw [get?_map_names ps hn (fun p => physOf isNorm p (f p.name)) hp, Option.some.injEq] at ha
    rw [get?_map_names ps hn (fun p => physOf isNorm p (f' p.name)) hp, Option.some.injEq] at hb
    subst ha hb
    exact ⟨p.lower, p.upper, _, List.mem_map.2 ⟨p, hp, rfl⟩, List.mem_map.2 ⟨p, hp, rfl⟩, hrest⟩

/-! ### Storing items -/

/-- Stores items one after the other. -/
def putItems {β : Type} (items d : PyDict β) : PyDict β := items.foldl (fun d p => d.put p.1 p.2) d

theorem putItems_append {β : Type} (a b d : PyDict β) :
    putItems (a ++ b) d = putItems b (putItems a d) := by
  simp [putItems, List.foldl_append]

theorem putLabelled_eq {β : Type} (pre : String) (items d : PyDict β) :
    putLabelled pre items d = putItems (items.map fun q => (pre ++ q.1, q.2)) d := by
  simp [putLabelled, putItems, List.foldl_map]

theorem putItems_nodup {β : Type} (items d : PyDict β) (h : (KDict.keys (d ++ items)).Nodup) :
    putItems items d = d ++ items := by
  induction items generalizing d with
  | nil => simp [putItems]
  | cons p items ih =>
    have hp : p.1 ∉ d.keys := by
      intro hm
      simp only [KDict.keys, List.map_append, List.map_cons] at h
      exact (List.nodup_append.1 h).2.2 _ hm _ List.mem_cons_self rfl
    have hc : putItems (p :: items) d = putItems items (d.put p.1 p.2) := rfl
    rw [hc, put_of_notMem d p.1 p.2 hp, ih _ (by simpa using h)]
    simp

theorem keys_putItems_congr {β γ : Type} (a : PyDict β) (b : PyDict γ) (d : PyDict β) (e : PyDict γ)
    (h : a.keys = b.keys) (hd : d.keys = e.keys) : (putItems a d).keys = (putItems b e).keys := by
  induction a generalizing b d e with
  | nil =>
    cases b with
    | nil => exact hd
    | cons q b => simp [KDict.keys] at h
  | cons p a ih =>
    cases b with
    | nil => simp [KDict.keys] at h
    | cons q b =>
      simp only [KDict.keys, List.map_cons, List.cons.injEq] at h
      refine ih b (d.put p.1 p.2) (e.put q.1 q.2) h.2 ?_
      rw [KDict.keys_put, KDict.keys_put, hd, h.1]

theorem mem_keys_putItems {β : Type} (a d : PyDict β) (l : String) :
    l ∈ (putItems a d).keys ↔ l ∈ d.keys ∨ l ∈ a.keys := by
  induction a generalizing d with
  | nil => simp [putItems, KDict.keys]
  | cons p a ih =>
    have hc : putItems (p :: a) d = putItems a (d.put p.1 p.2) := rfl
    rw [hc, ih, KDict.keys_put]
    have : KDict.keys (p :: a) = p.1 :: KDict.keys a := rfl
    rw [this, List.mem_cons]
    split_ifs with hm
    · constructor
      · tauto
      · rintro (h | rfl | h)
        · exact .inl h
        · exact .inl hm
        · exact .inr h
    · rw [List.mem_append, List.mem_singleton]
      tauto

/-- The labelled items of a list of models. -/
def flatItems {β : Type} (f : LearnState → PyDict β) (l : List (String × LearnState)) : PyDict β :=
  l.flatMap fun p => (f p.2).map fun q => (p.1 ++ q.1, q.2)

theorem keys_flatItems {β : Type} (f : LearnState → PyDict β) (l : List (String × LearnState))
    (h : ∀ p ∈ l, (f p.2).keys = p.2.params.keys) : (flatItems f l).keys = labelsOf l := by
  unfold flatItems labelsOf
  simp only [KDict.keys, List.map_flatMap]
  refine List.flatMap_congr fun p hp => ?_
  have := h p hp
  simp only [KDict.keys] at this
  rw [← this, List.map_map, List.map_map]
  rfl

open Classical in
/-- The physical values of a model. -/
noncomputable def ownPhys (s : LearnState) : PyDict ℝ :=
  match getDetached s false with
  | .ok d => d
  | .error _ => []

theorem ownPhys_eq {s : LearnState} {own : PyDict ℝ} (h : getDetached s false = .ok own) :
    ownPhys s = own := by
  simp [ownPhys, h]

theorem ownPhys_ok {s : LearnState} (h : Trained s) : getDetached s false = .ok (ownPhys s) := by
  obtain ⟨own, h1, -⟩ := trained_own h
  rw [ownPhys_eq h1, h1]

/-! ### Collecting -/

theorem explicitOf_cons (start : String) (nm : String × SubModel) (l : List (String × SubModel)) :
    explicitOf start (nm :: l) = explicitOf start [nm] ++ explicitOf start l := by
  simp [explicitOf]

/-- The items of one submodel. -/
theorem sub_items {β : Type} (f : LearnState → PyDict β) (start n : String) (d : PyDict β)
    (g : SubModel → PyDict β) (hg : ∀ s, g (.explicit s) = f s) (ho : g .opaque = []) (m : SubModel) :
    putLabelled (start ++ n ++ "_") (g m) d = putItems (flatItems f (explicitOf start [(n, m)])) d := by
  cases m with
  | «opaque» => rw [ho]; rfl
  | explicit s => simp [explicitOf, flatItems, putLabelled_eq, hg]

theorem subs_bounds (start : String) (nms : List (String × SubModel)) (d : PyDict (ℝ × ℝ)) :
    nms.foldl (fun d nm => putLabelled (start ++ nm.1 ++ "_") (subBounds nm.2) d) d
      = putItems (flatItems LearnState.bounds (explicitOf start nms)) d := by
  induction nms generalizing d with
  | nil => rfl
  | cons nm nms ih =>
    rw [List.foldl_cons, ih, explicitOf_cons,
      sub_items LearnState.bounds start nm.1 d subBounds (fun _ => rfl) rfl]
    simp only [flatItems, List.flatMap_append, putItems_append]

theorem subDetached_trained (start n : String) (d : PyDict ℝ) (m : SubModel)
    (h : ∀ p ∈ explicitOf start [(n, m)], Trained p.2) :
    (do let items ← subDetached false m
        .ok (putLabelled (start ++ n ++ "_") items d) : Py (PyDict ℝ))
      = .ok (putItems (flatItems ownPhys (explicitOf start [(n, m)])) d) := by
  cases m with
  | «opaque» => rfl
  | explicit s =>
    have hs : Trained s := h (start ++ n ++ "_", s) (by simp [explicitOf])
    simp only [subDetached, ownPhys_ok hs, bind, Except.bind]
    rw [putLabelled_eq]
    simp [explicitOf, flatItems]

theorem subs_detached (start : String) (nms : List (String × SubModel)) (d : PyDict ℝ)
    (h : ∀ p ∈ explicitOf start nms, Trained p.2) :
    nms.foldlM (fun d nm => do
        let items ← subDetached false nm.2
        .ok (putLabelled (start ++ nm.1 ++ "_") items d)) d
      = (.ok (putItems (flatItems ownPhys (explicitOf start nms)) d) : Py (PyDict ℝ)) := by
  induction nms generalizing d with
  | nil => rfl
  | cons nm nms ih =>
    rw [explicitOf_cons] at h ⊢
    have h1 := subDetached_trained start nm.1 d nm.2 fun p hp => h p (List.mem_append_left _ hp)
    rw [List.foldlM_cons, h1]
    simp only [bind, Except.bind] at ih ⊢
    rw [ih _ fun p hp => h p (List.mem_append_right _ hp)]
    simp only [flatItems, List.flatMap_append, putItems_append]

/-- The models with explicit parameters of one material model. -/
def explicitMat (km : String × MatModel) : List (String × LearnState) :=
  match km.2 with
  | .hybrid h => explicitOf ("model_" ++ km.1 ++ "_") (h.names.zip h.models)
  | .single m => explicitOf "model_" [(km.1, m)]

theorem explicitModels_cons (km : String × MatModel) (ms : MatModels) :
    explicitModels (km :: ms) = explicitMat km ++ explicitModels ms := rfl

theorem mat_bounds (d : PyDict (ℝ × ℝ)) (km : String × MatModel) :
    matBounds d km.1 km.2 = putItems (flatItems LearnState.bounds (explicitMat km)) d := by
  obtain ⟨k, m⟩ := km
  cases m with
  | hybrid h => exact subs_bounds ("model_" ++ k ++ "_") _ d
  | single m => exact sub_items LearnState.bounds "model_" k d subBounds (fun _ => rfl) rfl m

theorem mat_detached (d : PyDict ℝ) (km : String × MatModel)
    (h : ∀ p ∈ explicitMat km, Trained p.2) :
    matDetached d km.1 km.2 = .ok (putItems (flatItems ownPhys (explicitMat km)) d) := by
  obtain ⟨k, m⟩ := km
  cases m with
  | hybrid hy => exact subs_detached ("model_" ++ k ++ "_") _ d h
  | single m => exact subDetached_trained "model_" k d m h

theorem finder_bounds_aux (ms : MatModels) (d : PyDict (ℝ × ℝ)) :
    ms.foldl (fun d km => matBounds d km.1 km.2) d
      = putItems (flatItems LearnState.bounds (explicitModels ms)) d := by
  induction ms generalizing d with
  | nil => rfl
  | cons km ms ih =>
    rw [List.foldl_cons, ih, mat_bounds, explicitModels_cons]
    simp only [flatItems, List.flatMap_append, putItems_append]

theorem finder_detached_aux (ms : MatModels) (d : PyDict ℝ)
    (h : ∀ p ∈ explicitModels ms, Trained p.2) :
    ms.foldlM (fun d km => matDetached d km.1 km.2) d
      = .ok (putItems (flatItems ownPhys (explicitModels ms)) d) := by
  induction ms generalizing d with
  | nil => rfl
  | cons km ms ih =>
    rw [explicitModels_cons] at h ⊢
    rw [List.foldlM_cons, mat_detached d km fun p hp => h p (List.mem_append_left _ hp)]
    simp only [bind, Except.bind] at ih ⊢
    rw [ih _ fun p hp => h p (List.mem_append_right _ hp)]
    simp only [flatItems, List.flatMap_append, putItems_append]

theorem ownPhys_keys {s : LearnState} (h : Trained s) : (ownPhys s).keys = s.params.keys := by
  obtain ⟨own, h1, h2, -⟩ := trained_own h
  rw [ownPhys_eq h1, h2]

/-- Everything about the collected parameters, for a list of models. -/
theorem collected (l : List (String × LearnState)) (h : ∀ p ∈ l, Trained p.2) :
    (putItems (flatItems ownPhys l) []).keys = (putItems (flatItems LearnState.bounds l) []).keys ∧
    (∀ x, x ∈ (putItems (flatItems ownPhys l) []).keys ↔ x ∈ labelsOf l) ∧
    ((labelsOf l).Nodup → putItems (flatItems ownPhys l) [] = flatItems ownPhys l ∧
      putItems (flatItems LearnState.bounds l) [] = flatItems LearnState.bounds l ∧
      (flatItems ownPhys l).keys = labelsOf l ∧ (flatItems LearnState.bounds l).keys = labelsOf l) := by
  have h1 := keys_flatItems ownPhys l fun p hp => ownPhys_keys (h p hp)
  have h2 := keys_flatItems LearnState.bounds l fun p hp => (trained_own (h p hp)).choose_spec.2.2.1
  refine ⟨keys_putItems_congr _ _ _ _ (by rw [h1, h2]) rfl, fun x => ?_, fun hd => ⟨?_, ?_, h1, h2⟩⟩
  · rw [mem_keys_putItems, h1]
    simp [KDict.keys]
  · exact putItems_nodup _ [] (by rw [List.nil_append, h1]; exact hd)
  · exact putItems_nodup _ [] (by rw [List.nil_append, h2]; exact hd)

theorem mem_flatItems {β : Type} (f : LearnState → PyDict β) (l : List (String × LearnState))
    (x : String) (v : β) :
    (x, v) ∈ flatItems f l ↔ ∃ pre s name, (pre, s) ∈ l ∧ x = pre ++ name ∧ (name, v) ∈ f s := by
  unfold flatItems
  simp only [List.mem_flatMap, List.mem_map, Prod.mk.injEq, Prod.exists]
  constructor
  · rintro ⟨pre, s, hp, name, w, hm, rfl, rfl⟩
    exact ⟨pre, s, name, hp, rfl, hm⟩
  · rintro ⟨pre, s, name, hp, rfl, hm⟩
    exact ⟨pre, s, hp, name, v, hm, rfl, rfl⟩

/-- Looking up a label among distinct ones. -/
theorem get?_flatItems {β : Type} (f : LearnState → PyDict β) (l : List (String × LearnState))
    (h : (flatItems f l).keys.Nodup) (x : String) (v : β) :
    (flatItems f l).get? x = some v
      ↔ ∃ pre s name, (pre, s) ∈ l ∧ x = pre ++ name ∧ (name, v) ∈ f s := by
  rw [← mem_flatItems]
  exact ⟨fun hg => mem_of_get? hg, fun hm => get?_of_mem _ h _ _ hm⟩

/-- **C118.** The parameters of the material models of a specimen, each in a state of a training, can
always be collected.  The collected values and the collected bounds have the same labels in the same
order, and these are the labels of the parameters of the models with explicit parameters. -/
theorem C118_labels (ms : MatModels) (h : ∀ p ∈ explicitModels ms, Trained p.2) :
    ∃ phys, finderDetached ms = .ok phys ∧ phys.keys = (finderBounds ms).keys ∧
      ∀ l, l ∈ phys.keys ↔ l ∈ labelsOf (explicitModels ms) := by
  obtain ⟨h1, h2, -⟩ := collected (explicitModels ms) h
  refine ⟨_, finder_detached_aux ms [] h, ?_, h2⟩
  rw [h1]
  unfold finderBounds
  rw [finder_bounds_aux]

/-- **C118.** If the labels are distinct every parameter is collected once: a label holds a value
exactly when it is the label of a parameter with that physical value, and the bounds under a label
are those declared for the parameter. -/
theorem C118_parameters (ms : MatModels) (h : ∀ p ∈ explicitModels ms, Trained p.2)
    (hd : (labelsOf (explicitModels ms)).Nodup) :
    ∃ phys, finderDetached ms = .ok phys ∧
      phys.keys = labelsOf (explicitModels ms) ∧ (finderBounds ms).keys = labelsOf (explicitModels ms) ∧
      (∀ l x, phys.get? l = some x ↔ ∃ pre s name own, (pre, s) ∈ explicitModels ms ∧
        l = pre ++ name ∧ getDetached s false = .ok own ∧ own.get? name = some x) ∧
      (∀ l b, (finderBounds ms).get? l = some b ↔ ∃ pre s name, (pre, s) ∈ explicitModels ms ∧
        l = pre ++ name ∧ s.bounds.get? name = some b) := by
  obtain ⟨-, -, h3⟩ := collected (explicitModels ms) h
  obtain ⟨e1, e2, k1, k2⟩ := h3 hd
  have hb : finderBounds ms = flatItems LearnState.bounds (explicitModels ms) := by
    unfold finderBounds
    rw [finder_bounds_aux, e2]
  refine ⟨_, finder_detached_aux ms [] h, by rw [e1, k1], by rw [hb, k2], fun l x => ?_, fun l b => ?_⟩
  · rw [e1, get?_flatItems _ _ (by rw [k1]; exact hd)]
    constructor
    · rintro ⟨pre, s, name, hp, rfl, hm⟩
      have ht := h _ hp
      obtain ⟨own, o1, o2, -, o4⟩ := trained_own ht
      refine ⟨pre, s, name, own, hp, rfl, o1, get?_of_mem own (by rw [o2]; exact o4) _ _ ?_⟩
      rw [← ownPhys_eq o1]
      exact hm
    · rintro ⟨pre, s, name, own, hp, rfl, o1, hg⟩
      exact ⟨pre, s, name, hp, rfl, by rw [ownPhys_eq o1]; exact mem_of_get? hg⟩
  · rw [hb, get?_flatItems _ _ (by rw [k2]; exact hd)]
    constructor
    · rintro ⟨pre, s, name, hp, rfl, hm⟩
      obtain ⟨own, -, -, o3, o4⟩ := trained_own (h _ hp)
      exact ⟨pre, s, name, hp, rfl, get?_of_mem _ (by rw [o3]; exact o4) _ _ hm⟩
    · rintro ⟨pre, s, name, hp, rfl, hg⟩
      exact ⟨pre, s, name, hp, rfl, mem_of_get? hg⟩

/-! ### Distinct labels -/

theorem underscore_split {a b x y : List Char} (ha : '_' ∉ a) (hb : '_' ∉ b)
    (h : a ++ '_' :: x = b ++ '_' :: y) : a = b ∧ x = y := by
  induction a generalizing b with
  | nil =>
    cases b with
    | nil => exact ⟨rfl, (List.cons.inj h).2⟩
    | cons c b =>
      exact absurd ((List.cons.inj h).1 ▸ List.mem_cons_self) hb
  | cons c a ih =>
    cases b with
    | nil => exact absurd ((List.cons.inj h).1 ▸ List.mem_cons_self) ha
    | cons c' b =>
      rw [List.cons_append, List.cons_append, List.cons.injEq] at h
      obtain ⟨rfl, h⟩ := h
      rw [List.mem_cons, not_or] at ha hb
      obtain ⟨rfl, rfl⟩ := ih ha.2 hb.2 h
      exact ⟨rfl, rfl⟩

theorem label_split {start a b x y : String} (ha : '_' ∉ a.toList) (hb : '_' ∉ b.toList)
    (h : start ++ a ++ "_" ++ x = start ++ b ++ "_" ++ y) : a = b ∧ x = y := by
  have h' : start.toList ++ (a.toList ++ '_' :: x.toList)
      = start.toList ++ (b.toList ++ '_' :: y.toList) := by
    have := congrArg String.toList h
    simp only [String.toList_append, List.append_assoc] at this
    exact this
  obtain ⟨h1, h2⟩ := underscore_split ha hb (List.append_cancel_left h')
  exact ⟨String.toList_injective h1, String.toList_injective h2⟩

theorem mem_labelsOf {l : List (String × LearnState)} {x : String} :
    x ∈ labelsOf l ↔ ∃ pre s name, (pre, s) ∈ l ∧ name ∈ s.params.keys ∧ x = pre ++ name := by
  unfold labelsOf
  simp only [List.mem_flatMap, List.mem_map, Prod.exists]
  constructor
  · rintro ⟨pre, s, h, name, hn, rfl⟩
    exact ⟨pre, s, name, h, hn, rfl⟩
  · rintro ⟨pre, s, name, h, hn, rfl⟩
    exact ⟨pre, s, h, name, hn, rfl⟩

theorem mem_explicitOf {start : String} {nms : List (String × SubModel)} {pre : String}
    {s : LearnState} :
    (pre, s) ∈ explicitOf start nms ↔ ∃ n, (n, SubModel.explicit s) ∈ nms ∧ pre = start ++ n ++ "_" := by
  unfold explicitOf
  simp only [List.mem_flatMap, Prod.exists]
  constructor
  · rintro ⟨n, m, hm, he⟩
    cases m with
    | «opaque» => simp at he
    | explicit t =>
      simp only [List.mem_singleton, Prod.mk.injEq] at he
      obtain ⟨rfl, rfl⟩ := he
      exact ⟨n, hm, rfl⟩
  · rintro ⟨n, hm, rfl⟩
    exact ⟨n, _, hm, by simp⟩

theorem labels_of_one (pre : String) (s : LearnState) (h : Trained s) :
    (labelsOf [(pre, s)]).Nodup := by
  obtain ⟨-, -, -, -, hk⟩ := trained_own h
  have : labelsOf [(pre, s)] = s.params.keys.map fun name => pre ++ name := by simp [labelsOf]
  rw [this]
  exact hk.map fun a b hab => String.append_right_inj pre |>.1 hab

theorem labels_explicitOf_nodup (start : String) (nms : List (String × SubModel))
    (h : ∀ p ∈ explicitOf start nms, Trained p.2) (hn : (nms.map Prod.fst).Nodup)
    (hu : ∀ n ∈ nms.map Prod.fst, '_' ∉ n.toList) : (labelsOf (explicitOf start nms)).Nodup := by
  have hf : labelsOf (explicitOf start nms) = nms.flatMap fun nm => labelsOf (explicitOf start [nm]) := by
    simp [labelsOf, explicitOf, List.flatMap_assoc]
  rw [hf, List.nodup_flatMap]
  constructor
  · rintro ⟨n, m⟩ hm
    cases m with
    | «opaque» => simp [explicitOf, labelsOf]
    | explicit s =>
      have : explicitOf start [(n, SubModel.explicit s)] = [(start ++ n ++ "_", s)] := by
        simp [explicitOf]
      rw [this]
      exact labels_of_one _ _ (h _ (mem_explicitOf.2 ⟨n, hm, rfl⟩))
  · rw [List.Nodup, List.pairwise_map] at hn
    refine List.Pairwise.imp_of_mem ?_ hn
    rintro ⟨a, m⟩ ⟨b, m'⟩ ha hb hne x hx hy
    obtain ⟨pre, s, name, hp, -, rfl⟩ := mem_labelsOf.1 hx
    obtain ⟨pre', s', name', hp', -, he⟩ := mem_labelsOf.1 hy
    obtain ⟨n, hn1, rfl⟩ := mem_explicitOf.1 hp
    obtain ⟨n', hn2, rfl⟩ := mem_explicitOf.1 hp'
    rw [List.mem_singleton] at hn1 hn2
    cases hn1
    cases hn2
    exact hne (label_split (hu _ (List.mem_map.2 ⟨_, ha, rfl⟩)) (hu _ (List.mem_map.2 ⟨_, hb, rfl⟩)) he).1

/-- Every label of a material model starts with its key. -/
theorem mat_label_start {km : String × MatModel} {x : String} (h : x ∈ labelsOf (explicitMat km)) :
    ∃ rest, x = "model_" ++ km.1 ++ "_" ++ rest := by
  obtain ⟨k, m⟩ := km
  obtain ⟨pre, s, name, hp, -, rfl⟩ := mem_labelsOf.1 h
  cases m with
  | hybrid hy =>
    obtain ⟨n, -, rfl⟩ := mem_explicitOf.1 hp
    exact ⟨n ++ "_" ++ name, by simp only [String.append_assoc]⟩
  | single m =>
    obtain ⟨n, hn, rfl⟩ := mem_explicitOf.1 hp
    rw [List.mem_singleton] at hn
    cases hn
    exact ⟨name, rfl⟩

theorem map_fst_zip_prefix {α β : Type} (a : List α) (b : List β) :
    (a.zip b).map Prod.fst <+: a := by
  induction a generalizing b with
  | nil => simp
  | cons x a ih =>
    cases b with
    | nil => simp
    | cons y b => simpa using ih b

/-- **C118.** The labels are distinct if neither the keys of the material models nor the names of
hybridized models contain an underscore, and the hybridized models of a hybrid model have distinct
names. -/
theorem C118_distinct (ms : MatModels) (h : ∀ p ∈ explicitModels ms, Trained p.2)
    (hk : ms.keys.Nodup) (hu : ∀ k ∈ ms.keys, '_' ∉ k.toList)
    (hh : ∀ k hy, (k, MatModel.hybrid hy) ∈ ms → hy.names.Nodup ∧ ∀ n ∈ hy.names, '_' ∉ n.toList) :
    (labelsOf (explicitModels ms)).Nodup := by
  have hf : labelsOf (explicitModels ms) = ms.flatMap fun km => labelsOf (explicitMat km) := by
    have : explicitModels ms = ms.flatMap explicitMat := rfl
    rw [this]
    simp [labelsOf, List.flatMap_assoc]
  have hin : ∀ km ∈ ms, ∀ p ∈ explicitMat km, Trained p.2 := fun km hkm p hp =>
    h p (by
      have : explicitModels ms = ms.flatMap explicitMat := rfl
      rw [this]
      exact List.mem_flatMap.2 ⟨km, hkm, hp⟩)
  rw [hf, List.nodup_flatMap]
  constructor
  · rintro ⟨k, m⟩ hm
    have ht := hin _ hm
    cases m with
    | hybrid hy =>
      obtain ⟨h1, h2⟩ := hh k hy hm
      have hsub : (hy.names.zip hy.models).map Prod.fst <+: hy.names :=
        map_fst_zip_prefix _ _
      exact labels_explicitOf_nodup _ _ ht (hsub.sublist.nodup h1) fun n hn => h2 n (hsub.subset hn)
    | single m =>
      exact labels_explicitOf_nodup _ _ ht (by simp) (by
        simp only [List.map_cons, List.map_nil, List.mem_singleton]
        rintro n rfl
        exact hu _ (List.mem_map.2 ⟨_, hm, rfl⟩))
  · rw [KDict.keys, List.Nodup, List.pairwise_map] at hk
    refine List.Pairwise.imp_of_mem ?_ hk
    intro a b ha hb hne x hx hy
    obtain ⟨r, rfl⟩ := mat_label_start hx
    obtain ⟨r', he⟩ := mat_label_start hy
    exact hne (label_split (hu _ (List.mem_map.2 ⟨_, ha, rfl⟩)) (hu _ (List.mem_map.2 ⟨_, hb, rfl⟩)) he).1

/-! ### Enforcing the bounds -/

/-- Every hybrid model has as many names as models. -/
def Named (ms : MatModels) : Prop :=
  ∀ k hy, (k, MatModel.hybrid hy) ∈ ms → hy.names.length = hy.models.length

/-- Changes the states of explicit parameters. -/
def SubModel.mapState (f : LearnState → LearnState) : SubModel → SubModel
  | .explicit s => .explicit (f s)
  | .opaque => .opaque

/-- Changes the states of explicit parameters. -/
def MatModel.mapState (f : LearnState → LearnState) : MatModel → MatModel
  | .hybrid h => .hybrid { h with models := h.models.map (SubModel.mapState f) }
  | .single m => .single (m.mapState f)

theorem explicitOf_map (f : LearnState → LearnState) (start : String)
    (nms : List (String × SubModel)) :
    explicitOf start (nms.map fun nm => (nm.1, nm.2.mapState f))
      = (explicitOf start nms).map fun p => (p.1, f p.2) := by
  unfold explicitOf
  rw [List.flatMap_map, List.map_flatMap]
  refine List.flatMap_congr fun nm _ => ?_
  obtain ⟨n, m⟩ := nm
  cases m <;> rfl

theorem explicitMat_map (f : LearnState → LearnState) (km : String × MatModel) :
    explicitMat (km.1, km.2.mapState f) = (explicitMat km).map fun p => (p.1, f p.2) := by
  obtain ⟨k, m⟩ := km
  cases m with
  | hybrid h =>
    have := explicitOf_map f ("model_" ++ k ++ "_") (h.names.zip h.models)
    have hz : (h.names.zip h.models).map (fun nm => (nm.1, nm.2.mapState f))
        = h.names.zip (h.models.map (SubModel.mapState f)) := by
      rw [List.zip_map_right]
      rfl
    rw [hz] at this
    exact this
  | single m => exact explicitOf_map f "model_" [(k, m)]

theorem explicitModels_map (f : LearnState → LearnState) (ms : MatModels) :
    explicitModels (ms.map fun km => (km.1, km.2.mapState f))
      = (explicitModels ms).map fun p => (p.1, f p.2) := by
  have : ∀ ms, explicitModels ms = ms.flatMap explicitMat := fun _ => rfl
  rw [this, this, List.flatMap_map, List.map_flatMap]
  exact List.flatMap_congr fun km _ => explicitMat_map f km

/-- A function applied to each model with explicit parameters. -/
theorem finder_mapM (g : LearnState → Py LearnState) (f : LearnState → LearnState) (ms : MatModels)
    (hn : Named ms) (h : ∀ p ∈ explicitModels ms, g p.2 = .ok (f p.2)) :
    finderConstrain g ms = .ok (ms.map fun km => (km.1, km.2.mapState f)) := by
  have hsub : ∀ start (nms : List (String × SubModel)),
      (∀ p ∈ explicitOf start nms, g p.2 = .ok (f p.2)) →
      ∀ nm ∈ nms, subConstrain g nm.2 = .ok (nm.2.mapState f) := by
    rintro start nms h1 ⟨n, m⟩ hm
    cases m with
    | «opaque» => rfl
    | explicit s =>
      simp only [subConstrain, h1 _ (mem_explicitOf.2 ⟨n, hm, rfl⟩), bind, Except.bind]
      rfl
  refine mapM_of_forall fun km hkm => ?_
  have h1 : ∀ p ∈ explicitMat km, g p.2 = .ok (f p.2) := fun p hp => h p (by
    have : explicitModels ms = ms.flatMap explicitMat := rfl
    rw [this]
    exact List.mem_flatMap.2 ⟨km, hkm, hp⟩)
  obtain ⟨k, m⟩ := km
  cases m with
  | hybrid hy =>
    have hl := hn k hy hkm
    have h2 := hsub _ _ h1
    have h3 : hy.models.mapM (subConstrain g) = .ok (hy.models.map (SubModel.mapState f)) :=
      mapM_of_forall fun m hm => by
        obtain ⟨i, hi, rfl⟩ := List.mem_iff_getElem.1 hm
        have hi' : i < hy.names.length := by omega
        refine h2 (hy.names[i], hy.models[i]) ?_
        exact List.mem_iff_getElem.2 ⟨i, by simp; omega, by simp⟩
    simp only [matConstrain, h3, bind, Except.bind]
    rfl
  | single m =>
    have h2 := hsub _ _ h1 _ (List.mem_singleton.2 rfl)
    simp only [matConstrain, h2, bind, Except.bind]
    rfl

theorem subEnforce_eq : subEnforce = subConstrain enforceBounds := by
  funext m
  cases m <;> rfl

theorem matEnforce_eq : matEnforce = matConstrain enforceBounds := by
  funext m
  cases m <;> simp only [matEnforce, matConstrain, subEnforce_eq]

theorem finderEnforce_eq (ms : MatModels) : finderEnforce ms = finderConstrain enforceBounds ms := by
  simp only [finderEnforce, finderConstrain, matEnforce_eq]

/-- The state after clamping. -/
noncomputable def clamped (s : LearnState) : LearnState :=
  match enforceBounds s with
  | .ok s' => s'
  | .error _ => s

theorem clamped_facts {s : LearnState} (h : Trained s) :
    enforceBounds s = .ok (clamped s) ∧ Trained (clamped s) ∧
      enforceBounds (clamped s) = .ok (clamped s) ∧ (clamped s).bounds = s.bounds ∧
      (clamped s).params.keys = s.params.keys ∧
      ∀ name x, (name, x) ∈ ownPhys s → ∃ lo hi y, (name, (lo, hi)) ∈ s.bounds ∧
        (name, y) ∈ ownPhys (clamped s) ∧ lo ≤ y ∧ y ≤ hi ∧ (lo ≤ x → x ≤ hi → y = x) ∧
        (x < lo → y = lo) ∧ (hi < x → y = hi) := by
  obtain ⟨s', own, own', h1, h2, h3, h4, h5, h6, h7, h8⟩ := trained_enforce h
  have : clamped s = s' := by simp [clamped, h1]
  rw [this, ownPhys_eq h6, ownPhys_eq h7]
  exact ⟨h1, h2, h3, h4, h5, h8⟩

/-- **C118.** Enforcing the bounds of a specimen clamps every explicit parameter to its bounds and
changes nothing else: under each label the value afterwards lies in the bounds under that label, is
the previous value if that was inside and the nearest bound otherwise; the labels and bounds stay; and
enforcing the bounds again changes nothing. -/
theorem C118_enforce (ms : MatModels) (h : ∀ p ∈ explicitModels ms, Trained p.2) (hn : Named ms)
    (hd : (labelsOf (explicitModels ms)).Nodup) :
    ∃ ms' phys phys', finderEnforce ms = .ok ms' ∧ finderEnforce ms' = .ok ms' ∧
      (∀ p ∈ explicitModels ms', Trained p.2) ∧ ms'.keys = ms.keys ∧
      finderDetached ms = .ok phys ∧ finderDetached ms' = .ok phys' ∧
      finderBounds ms' = finderBounds ms ∧ phys'.keys = phys.keys ∧
      ∀ l x, phys.get? l = some x → ∃ lo hi y, (finderBounds ms).get? l = some (lo, hi) ∧
        phys'.get? l = some y ∧ lo ≤ y ∧ y ≤ hi ∧ (lo ≤ x → x ≤ hi → y = x) ∧
        (x < lo → y = lo) ∧ (hi < x → y = hi) := by
  set ms' := ms.map fun km => (km.1, km.2.mapState clamped) with hms'
  have hex : explicitModels ms' = (explicitModels ms).map fun p => (p.1, clamped p.2) :=
    explicitModels_map clamped ms
  have ht' : ∀ p ∈ explicitModels ms', Trained p.2 := by
    rw [hex]
    intro p hp
    obtain ⟨q, hq, rfl⟩ := List.mem_map.1 hp
    exact (clamped_facts (h q hq)).2.1
  have hn' : Named ms' := by
    intro k hy hm
    obtain ⟨⟨k', m⟩, hkm, he⟩ := List.mem_map.1 hm
    cases m with
    | single m => simp [MatModel.mapState] at he
    | hybrid hy0 =>
      simp only [MatModel.mapState, Prod.mk.injEq, MatModel.hybrid.injEq] at he
      obtain ⟨rfl, rfl⟩ := he
      simpa using hn _ _ hkm
  have hlab : labelsOf (explicitModels ms') = labelsOf (explicitModels ms) := by
    rw [hex]
    unfold labelsOf
    rw [List.flatMap_map]
    exact List.flatMap_congr fun p hp => by rw [(clamped_facts (h p hp)).2.2.2.2.1]
  have hid : ms'.map (fun km => (km.1, km.2.mapState id)) = ms' := by
    have hs : ∀ m : SubModel, m.mapState id = m := by intro m; cases m <;> rfl
    have : ∀ km : String × MatModel, (km.1, km.2.mapState id) = km := by
      rintro ⟨k, m⟩
      cases m with
      | hybrid hy =>
        simp only [MatModel.mapState]
        have : hy.models.map (SubModel.mapState id) = hy.models := by
          conv_rhs => rw [← List.map_id hy.models]
          exact List.map_congr_left fun m _ => hs m
        rw [this]
      | single m => simp only [MatModel.mapState, hs]
    conv_rhs => rw [← List.map_id ms']
    exact List.map_congr_left fun km _ => this km
  obtain ⟨phys, p1, p2, p3, p4, p5⟩ := C118_parameters ms h hd
  obtain ⟨phys', q1, q2, -, q4, -⟩ := C118_parameters ms' ht' (by rw [hlab]; exact hd)
  refine ⟨ms', phys, phys', ?_, ?_, ht', ?_, p1, q1, ?_, by rw [q2, p2, hlab], fun l x hx => ?_⟩
  · rw [finderEnforce_eq]
    exact finder_mapM enforceBounds clamped ms hn fun p hp => (clamped_facts (h p hp)).1
  · rw [finderEnforce_eq, finder_mapM enforceBounds id ms' hn', hid]
    rw [hex]
    intro p hp
    obtain ⟨q, hq, rfl⟩ := List.mem_map.1 hp
    exact (clamped_facts (h q hq)).2.2.1
  · simp [hms', KDict.keys, Function.comp_def]
  · unfold finderBounds
    rw [finder_bounds_aux, finder_bounds_aux, hex]
    unfold flatItems
    rw [List.flatMap_map]
    congr 1
    exact List.flatMap_congr fun p hp => by rw [(clamped_facts (h p hp)).2.2.2.1]
  · obtain ⟨pre, s, name, own, hp, rfl, ho, hg⟩ := (p4 l x).1 hx
    obtain ⟨-, c2, -, c4, -, c6⟩ := clamped_facts (h _ hp)
    obtain ⟨lo, hi, y, b1, b2, b3⟩ := c6 name x (by rw [ownPhys_eq ho]; exact mem_of_get? hg)
    obtain ⟨-, -, -, o3, o4⟩ := trained_own (h _ hp)
    obtain ⟨own', o1', o2', -, o4'⟩ := trained_own c2
    refine ⟨lo, hi, y, (p5 _ _).2 ⟨pre, s, name, hp, rfl,
      get?_of_mem _ (by rw [o3]; exact o4) _ _ b1⟩, (q4 _ _).2 ⟨pre, clamped s, name, own', ?_, rfl, o1',
      get?_of_mem own' (by rw [o2']; exact o4') _ _ (by rw [← ownPhys_eq o1']; exact b2)⟩, b3⟩
    rw [hex]
    exact List.mem_map.2 ⟨_, hp, rfl⟩

/-! ### Hybrid models -/

theorem hybridizedModel_zip (h : HybridSubs) (hn : h.names.Nodup)
    (hl : h.names.length = h.models.length) (n : String) (m : SubModel)
    (hm : (n, m) ∈ h.names.zip h.models) : hybridizedModel h n = .ok m := by
  obtain ⟨i, hi, he⟩ := List.mem_iff_getElem.1 hm
  have hi1 : i < h.names.length := by simp at hi; omega
  have hi2 : i < h.models.length := by omega
  rw [List.getElem_zip, Prod.mk.injEq] at he
  obtain ⟨rfl, rfl⟩ := he
  unfold hybridizedModel
  rw [(raiseIf_ok (u := ())).mpr (by simp)]
  simp only [bind, Except.bind]
  rw [hn.idxOf_getElem i hi1, List.getElem?_eq_getElem hi2]
  rfl

/-- **C118.** A hybrid model whose hybridized models have distinct names collects the parameters of
each of its models with explicit parameters under `<model>_<parameter>`: if the labels are distinct, a
label holds a value exactly when it is the label of a parameter with that physical value, and
likewise for the bounds. -/
theorem C118_hybrid (h : HybridSubs) (hn : h.names.Nodup) (hl : h.names.length = h.models.length)
    (ht : ∀ p ∈ explicitOf "" (h.names.zip h.models), Trained p.2)
    (hd : (labelsOf (explicitOf "" (h.names.zip h.models))).Nodup) :
    ∃ phys bnds, hybridDetached h false = .ok phys ∧ hybridBounds h = .ok bnds ∧
      phys.keys = bnds.keys ∧
      (∀ l x, phys.get? l = some x ↔ ∃ n s name own, (n, SubModel.explicit s) ∈ h.names.zip h.models ∧
        l = n ++ "_" ++ name ∧ getDetached s false = .ok own ∧ own.get? name = some x) ∧
      (∀ l b, bnds.get? l = some b ↔ ∃ n s name, (n, SubModel.explicit s) ∈ h.names.zip h.models ∧
        l = n ++ "_" ++ name ∧ s.bounds.get? name = some b) := by
  obtain ⟨h1, -, h3⟩ := collected _ ht
  obtain ⟨e1, e2, k1, k2⟩ := h3 hd
  have hnm : h.names = (h.names.zip h.models).map Prod.fst := by
    rw [List.map_fst_zip (by omega)]
  have hz := hybridizedModel_zip h hn hl
  have f1 : hybridDetached h false = .ok (flatItems ownPhys (explicitOf "" (h.names.zip h.models))) := by
    have := subs_detached "" (h.names.zip h.models) [] ht
    rw [e1] at this
    rw [← this]
    unfold hybridDetached
    conv_lhs => rw [hnm, List.foldlM_map]
    have key : ∀ (l : List (String × SubModel)) (d : PyDict ℝ), (∀ nm ∈ l, nm ∈ h.names.zip h.models) →
        l.foldlM (fun d nm => (do
          let m ← hybridizedModel h nm.1
          let items ← subDetached false m
          .ok (putLabelled (nm.1 ++ "_") items d) : Py (PyDict ℝ))) d
        = l.foldlM (fun d nm => (do
          let items ← subDetached false nm.2
          .ok (putLabelled ("" ++ nm.1 ++ "_") items d) : Py (PyDict ℝ))) d := by
      intro l
      induction l with
      | nil => intros; rfl
      | cons nm l ih =>
        intro d hm
        rw [List.foldlM_cons, List.foldlM_cons, hz nm.1 nm.2 (hm nm (by simp)), String.empty_append]
        simp only [bind, Except.bind]
        cases subDetached false nm.2 with
        | error e => rfl
        | ok items => exact ih _ fun x hx => hm x (by simp [hx])
    exact key _ _ fun _ h => h
  have f2 : hybridBounds h
      = .ok (flatItems LearnState.bounds (explicitOf "" (h.names.zip h.models))) := by
    have := subs_bounds "" (h.names.zip h.models) []
    rw [e2] at this
    rw [← this]
    unfold hybridBounds
    conv_lhs => rw [hnm, List.foldlM_map]
    have key : ∀ (l : List (String × SubModel)) (d : PyDict (ℝ × ℝ)),
        (∀ nm ∈ l, nm ∈ h.names.zip h.models) →
        l.foldlM (fun d nm => (do
          let m ← hybridizedModel h nm.1
          .ok (putLabelled (nm.1 ++ "_") (subBounds m) d) : Py (PyDict (ℝ × ℝ)))) d
        = .ok (l.foldl (fun d nm => putLabelled ("" ++ nm.1 ++ "_") (subBounds nm.2) d) d) := by
      intro l
      induction l with
      | nil => intros; rfl
      | cons nm l ih =>
        intro d hm
        rw [List.foldlM_cons, List.foldl_cons, hz nm.1 nm.2 (hm nm (by simp)), String.empty_append]
        simp only [bind, Except.bind]
        exact ih _ fun x hx => hm x (by simp [hx])
    exact key _ _ fun _ h => h
  refine ⟨_, _, f1, f2, by rw [k1, k2], fun l x => ?_, fun l b => ?_⟩
  · rw [get?_flatItems _ _ (by rw [k1]; exact hd)]
    constructor
    · rintro ⟨pre, s, name, hp, rfl, hm⟩
      obtain ⟨n, hnm, rfl⟩ := mem_explicitOf.1 hp
      obtain ⟨own, o1, o2, -, o4⟩ := trained_own (ht _ hp)
      refine ⟨n, s, name, own, hnm, by rw [String.empty_append], o1,
        get?_of_mem own (by rw [o2]; exact o4) _ _ ?_⟩
      rw [← ownPhys_eq o1]
      exact hm
    · rintro ⟨n, s, name, own, hp, rfl, o1, hg⟩
      exact ⟨_, s, name, mem_explicitOf.2 ⟨n, hp, rfl⟩, by rw [String.empty_append],
        by rw [ownPhys_eq o1]; exact mem_of_get? hg⟩
  · rw [get?_flatItems _ _ (by rw [k2]; exact hd)]
    constructor
    · rintro ⟨pre, s, name, hp, rfl, hm⟩
      obtain ⟨n, hnm, rfl⟩ := mem_explicitOf.1 hp
      obtain ⟨own, -, -, o3, o4⟩ := trained_own (ht _ hp)
      exact ⟨n, s, name, hnm, by rw [String.empty_append],
        get?_of_mem _ (by rw [o3]; exact o4) _ _ hm⟩
    · rintro ⟨n, s, name, hp, rfl, hg⟩
      exact ⟨_, s, name, mem_explicitOf.2 ⟨n, hp, rfl⟩, by rw [String.empty_append], mem_of_get? hg⟩

/-- **C118.** The clamping in the training of a hybrid model is that of the material model finder. -/
theorem C118_hybrid_clamp (key : String) (h : HybridSubs) :
    finderEnforce [(key, .hybrid h)]
      = (hybridTrainClamp h).map fun h' => [(key, MatModel.hybrid h')] := by
  simp only [finderEnforce, hybridTrainClamp, matEnforce, List.mapM_cons, List.mapM_nil, bind,
    Except.bind, pure, Except.pure]
  cases h.models.mapM subEnforce <;> rfl

end Hooke
