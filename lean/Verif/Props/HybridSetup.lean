import Verif.Spec.HybridSetup
import Verif.Props.Hybrid

/-!
# C149: hybridized models are set up as asked for
-/

namespace Hooke

noncomputable section

open Spec

theorem buildSub_iff {μ σ ω : Type} {c : ClassOps μ σ ω} {a : HybSetupArgs σ} {d d' : InitDisk σ} {m : μ} :
    buildSub c a d = .ok (m, d') ↔ SubBuilt c a d m d' := by
  unfold buildSub SubBuilt
  cases ha : a.initArgs with
  | some args => cases hc : c.hasSaveInit <;> simp
  | none =>
    cases hp : a.initPath with
    | none => simp
    | some p =>
      cases hf : c.fromFile with
      | none => simp
      | some f =>
        simp only [reduceCtorEq, false_and, exists_false, false_or, true_and]
        constructor
        · intro h
          cases hm : f p d with
          | error e => rw [hm] at h; cases h
          | ok x =>
            rw [hm] at h
            obtain ⟨rfl, rfl⟩ := Prod.mk.inj (Except.ok.inj h)
            exact ⟨rfl, p, f, rfl, rfl, hm⟩
        · rintro ⟨rfl, p', f', h1, h2, h⟩
          obtain rfl := Option.some.inj h1
          obtain rfl := Option.some.inj h2
          rw [h]
          rfl

theorem loadSub_iff {μ σ ω : Type} {c : ClassOps μ σ ω} {states : String → Option ω} {a : HybSetupArgs σ}
    {m m' : μ} : loadSub c states a.statePath m = .ok m' ↔ SubLoaded c states a m m' := by
  unfold loadSub SubLoaded
  cases hp : a.statePath with
  | none => simp [eq_comm]
  | some p =>
    cases hs : states p with
    | none => simp [hs]
    | some w => simp [hs]

theorem scaleSub_iff {μ σ ω : Type} {c : ClassOps μ σ ω} {a : HybSetupArgs σ} {m m' : μ} :
    scaleSub c a.scalers m = .ok m' ↔ SubScaled c a m m' := by
  unfold scaleSub SubScaled
  have e : ∀ (k : PyDict (Option σ)) n, (k.get? n).getD none = scalerNamed k n := fun k n => by
    unfold scalerNamed
    cases k.get? n <;> rfl
  cases hs : a.scalers with
  | none => simp [eq_comm]
  | other => cases c.setScalers <;> simp
  | dict k => cases c.setScalers <;> simp [e]

theorem checkIndices_iff {x : IndexArg} {ij : ℤ × ℤ} :
    checkIndices x = .ok ij ↔ ∃ a b, x = .tuple [a, b] ∧ a.asInt = some ij.1 ∧ b.asInt = some ij.2 := by
  unfold checkIndices
  split
  · next a b =>
    split
    · next i j hi hj =>
      constructor
      · rintro ⟨⟩
        exact ⟨a, b, rfl, hi, hj⟩
      · rintro ⟨a', b', h, h1, h2⟩
        simp only [IndexArg.tuple.injEq, List.cons.injEq, and_true] at h
        obtain ⟨rfl, rfl⟩ := h
        rw [hi] at h1
        rw [hj] at h2
        exact congrArg _ (Prod.ext (Option.some.inj h1) (Option.some.inj h2))
    · next hn =>
      simp only [reduceCtorEq, false_iff, not_exists, not_and]
      rintro a' b' h h1 h2
      simp only [IndexArg.tuple.injEq, List.cons.injEq, and_true] at h
      obtain ⟨rfl, rfl⟩ := h
      exact hn _ _ h1 h2
  · next hn =>
    simp only [reduceCtorEq, false_iff, not_exists, not_and]
    rintro a' b' rfl
    exact absurd rfl (hn a' b')

/-- **C149 (set-up).** The set-up of a hybridized model succeeds exactly if its model can be built, its state
loaded, its scalers set, the indices are two integers and the residual option is a boolean; the returned data
hold this model, these indices and this option. -/
theorem C149_setup {μ σ ω : Type} (c : ClassOps μ σ ω) (states : String → Option ω) (a : HybSetupArgs σ)
    (d d' : InitDisk σ) (h : HybData μ) :
    setHybridized c states a d = .ok (h, d') ↔
      ∃ m₁ m₂, SubBuilt c a d m₁ d' ∧ SubLoaded c states a m₁ m₂ ∧ SubScaled c a m₂ h.model ∧
        (∃ x y, a.indices = .tuple [x, y] ∧ x.asInt = some h.indices.1 ∧ y.asInt = some h.indices.2) ∧
        a.residual = some h.residual := by
  unfold setHybridized
  constructor
  · intro hh
    obtain ⟨⟨m₁, d₁⟩, h1, hh⟩ := bind_ok hh
    obtain ⟨m₂, h2, hh⟩ := bind_ok hh
    obtain ⟨m₃, h3, hh⟩ := bind_ok hh
    obtain ⟨ij, h4, hh⟩ := bind_ok hh
    obtain ⟨r, h5, hh⟩ := bind_ok hh
    obtain ⟨rfl, rfl⟩ := Prod.mk.inj (Except.ok.inj hh)
    exact ⟨m₁, m₂, buildSub_iff.1 h1, loadSub_iff.1 h2, scaleSub_iff.1 h3, checkIndices_iff.1 h4,
      orRaise_ok.1 h5⟩
  · rintro ⟨m₁, m₂, h1, h2, h3, h4, h5⟩
    rw [buildSub_iff.2 h1]
    simp only [bind, Except.bind]
    rw [loadSub_iff.2 h2]
    simp only
    rw [scaleSub_iff.2 h3]
    simp only
    rw [checkIndices_iff.2 h4]
    simp only
    rw [h5]
    rfl

/-- **C149 (rejected).** If the model can be built, its state loaded and its scalers set, wrong indices or a
wrong residual option raise RuntimeError; neither arguments nor a path, a path for a class which cannot be read
from a file, and a missing state file raise RuntimeError. -/
theorem C149_rejected {μ σ ω : Type} (c : ClassOps μ σ ω) (states : String → Option ω) (a : HybSetupArgs σ)
    (d : InitDisk σ) :
    (a.initArgs = none → (a.initPath = none ∨ c.fromFile = none) →
      setHybridized c states a d = .error .runtimeError) ∧
    (∀ m d' p, SubBuilt c a d m d' → a.statePath = some p → states p = none →
      setHybridized c states a d = .error .runtimeError) ∧
    ∀ m₁ m₂ m₃ d', SubBuilt c a d m₁ d' → SubLoaded c states a m₁ m₂ → SubScaled c a m₂ m₃ →
      ((¬ ∃ x y : PyAtom, a.indices = .tuple [x, y] ∧ x.asInt ≠ none ∧ y.asInt ≠ none) ∨
        a.residual = none) → setHybridized c states a d = .error .runtimeError := by
  unfold setHybridized
  refine ⟨fun h1 h2 => ?_, fun m d' p h1 h2 h3 => ?_, fun m₁ m₂ m₃ d' h1 h2 h3 h4 => ?_⟩
  · have : buildSub c a d = .error .runtimeError := by
      unfold buildSub
      rw [h1]
      rcases h2 with h2 | h2
      · rw [h2]
      · cases a.initPath <;> simp [h2]
    rw [this]
    rfl
  · rw [buildSub_iff.2 h1]
    simp only [bind, Except.bind, loadSub, h2, h3]
  · rw [buildSub_iff.2 h1]
    simp only [bind, Except.bind]
    rw [loadSub_iff.2 h2]
    simp only
    rw [scaleSub_iff.2 h3]
    simp only
    have hc : (∃ ij, checkIndices a.indices = .ok ij) ∨ checkIndices a.indices = .error .runtimeError := by
      unfold checkIndices
      split
      · split
        · exact .inl ⟨_, rfl⟩
        · exact .inr rfl
      · exact .inr rfl
    rcases hc with ⟨ij, hc⟩ | hc
    · rcases h4 with h4 | h4
      · obtain ⟨x, y, e, e1, e2⟩ := checkIndices_iff.1 hc
        exact absurd ⟨x, y, e, by simp [e1], by simp [e2]⟩ h4
      · rw [hc, h4]
        rfl
    · rw [hc]

/-- **C149 (arguments win).** The path of an initialization file is ignored if arguments are given. -/
theorem C149_args_win {μ σ ω : Type} (c : ClassOps μ σ ω) (states : String → Option ω) (a : HybSetupArgs σ)
    (d : InitDisk σ) {args : PyDict ArgVal} (h : a.initArgs = some args) (p : Option String) :
    setHybridized c states { a with initPath := p } d = setHybridized c states a d := by
  unfold setHybridized buildSub
  simp only [h]

theorem gruConstruct_noSave {σ : Type} {cuda : Bool} {args : PyDict ArgVal} {d d' : InitDisk σ} {m : GruObj σ}
    (h : gruConstruct cuda args false d = .ok (m, d')) :
    d' = d ∧ m.isSaveInit = false ∧ m.scalers = ⟨none, none⟩ ∧
      m.inNormalized = (args.get? "is_model_in_normalized").getD (.bool false) ∧
      m.outNormalized = (args.get? "is_model_out_normalized").getD (.bool false) := by
  unfold gruConstruct at h
  obtain ⟨-, -, h⟩ := bind_ok h
  obtain ⟨nIn, -, h⟩ := bind_ok h
  obtain ⟨nOut, -, h⟩ := bind_ok h
  obtain ⟨hid, -, h⟩ := bind_ok h
  obtain ⟨dir, -, h⟩ := bind_ok h
  obtain ⟨dir', -, h⟩ := bind_ok h
  obtain ⟨-, -, h⟩ := bind_ok h
  obtain ⟨dev, -, h⟩ := bind_ok h
  obtain ⟨m', hm, h⟩ := bind_ok h
  unfold GruObj.setDevice at hm
  obtain ⟨-, -, hm⟩ := bind_ok hm
  obtain ⟨-, -, hm⟩ := bind_ok hm
  have hm := Except.ok.inj hm
  simp only [Bool.false_eq_true, if_false] at h
  obtain ⟨rfl, rfl⟩ := Prod.mk.inj (Except.ok.inj h)
  subst hm
  exact ⟨rfl, rfl, rfl, rfl, rfl⟩

/-- **C149 (GRU models).** A hybridized GRU model made from arguments writes no file, will never write one, and
has the weights of the state file if one is given. -/
theorem C149_gru {σ ω : Type} (cuda : Bool) (cwd : String) (dirname : String → String) (w₀ : ω)
    (fits : ω → ω → Bool) (states : String → Option ω) (a : HybSetupArgs σ) (d d' : InitDisk σ)
    (h : HybData (GruObj σ × ω)) {args : PyDict ArgVal} (ha : a.initArgs = some args)
    (hh : setHybridized (gruOps cuda cwd dirname w₀ fits) states a d = .ok (h, d')) :
    d' = d ∧ h.model.1.isSaveInit = false ∧ (∃ m, gruConstruct cuda args false d = .ok (m, d) ∧ h.model.1 = m) ∧
      (match a.statePath with
        | none => h.model.2 = w₀
        | some p => states p = some h.model.2) := by
  obtain ⟨m₁, m₂, h1, h2, h3, -, -⟩ := (C149_setup _ _ _ _ _ _).1 hh
  have e1 : ∃ g, gruConstruct cuda args false d = .ok (g, d') ∧ m₁ = (g, w₀) := by
    rcases h1 with ⟨args', e, h1⟩ | ⟨e, -⟩
    · rw [ha] at e
      obtain rfl := Option.some.inj e
      rcases h1 with ⟨-, h1⟩ | ⟨e, -⟩
      · change (gruConstruct cuda args false d).map _ = _ at h1
        cases hg : gruConstruct cuda args false d with
        | error e => rw [hg] at h1; simp [Except.map] at h1
        | ok r =>
          rw [hg] at h1
          obtain ⟨rfl, rfl⟩ := Prod.mk.inj (Except.ok.inj h1)
          exact ⟨r.1, rfl, rfl⟩
      · exact absurd e (by simp [gruOps])
    · rw [ha] at e
      cases e
  obtain ⟨g, hg, rfl⟩ := e1
  obtain ⟨rfl, hs, -⟩ := gruConstruct_noSave hg
  have e3 : h.model = m₂ := by
    rcases h3 with ⟨-, e⟩ | ⟨k, f, -, e, -⟩
    · exact e
    · exact absurd e (by simp [gruOps])
  rw [e3]
  rcases h2 with ⟨e, rfl⟩ | ⟨p, w, e, e', h2⟩
  · rw [e]
    exact ⟨rfl, hs, ⟨g, hg, rfl⟩, rfl⟩
  · change (if fits w₀ w = true then Except.ok (g, w) else Except.error PyErr.runtimeError) = _ at h2
    split at h2
    · obtain rfl := Except.ok.inj h2
      rw [e]
      exact ⟨rfl, hs, ⟨g, hg, rfl⟩, e'⟩
    · cases h2

/-- **C149 is violated for the data scalers of hybridized models.** For every class without a method
`set_data_scalers` (GRU, recurrent constitutive and hybrid models, whose scalers are set by a function instead),
no set-up with data scalers succeeds; one that is right in everything else raises RuntimeError. -/
theorem C149_scalers_violated {μ σ ω : Type} (c : ClassOps μ σ ω) (hc : c.setScalers = none)
    (states : String → Option ω) (a : HybSetupArgs σ) (ha : a.scalers ≠ .none) (d : InitDisk σ) :
    (∀ r, setHybridized c states a d ≠ .ok r) ∧
      ∀ m₁ m₂ d', SubBuilt c a d m₁ d' → SubLoaded c states a m₁ m₂ →
        setHybridized c states a d = .error .runtimeError := by
  refine ⟨fun r hr => ?_, fun m₁ m₂ d' h1 h2 => ?_⟩
  · obtain ⟨m₁, m₂, -, -, h3, -⟩ := (C149_setup c states a d r.2 r.1).1 hr
    rcases h3 with ⟨e, -⟩ | ⟨k, f, -, e, -⟩
    · exact ha e
    · rw [hc] at e
      cases e
  · unfold setHybridized
    rw [buildSub_iff.2 h1]
    simp only [bind, Except.bind]
    rw [loadSub_iff.2 h2]
    have : scaleSub c a.scalers m₂ = .error .runtimeError := by
      unfold scaleSub
      cases hs : a.scalers with
      | none => exact absurd hs ha
      | dict k => simp [hc]
      | other => simp [hc]
    simp only [this]

theorem checkScalers_error {e : HybEntry} (h : checkScalers e ≠ .ok ()) : checkScalers e = .error .runtimeError := by
  unfold checkScalers at h ⊢
  split
  · next hc => rw [if_pos hc] at h; exact absurd rfl h
  · next hc =>
    rw [if_neg hc] at h
    cases hs : e.scalers with
    | none => rfl
    | some p =>
      rw [hs] at h
      obtain ⟨i, o⟩ := p
      simp only at h ⊢
      split
      · rfl
      · next h1 =>
        rw [if_neg h1] at h
        split
        · rfl
        · next h2 => rw [if_neg h2] at h; exact absurd rfl h

theorem mapM_checkScalers {l : List HybEntry} {e : HybEntry} (he : e ∈ l) (h : checkScalers e ≠ .ok ()) :
    l.mapM checkScalers = .error .runtimeError := by
  induction l with
  | nil => cases he
  | cons x xs ih =>
    rw [List.mapM_cons]
    by_cases hx : checkScalers x = .ok ()
    · rw [hx]
      rcases List.mem_cons.1 he with rfl | he
      · exact absurd hx h
      · simp only [bind, Except.bind]
        rw [ih he]
    · rw [checkScalers_error hx]
      rfl

theorem hybridInit_error {l : List HybEntry} {e : HybEntry} (he : e ∈ l) (h : checkScalers e ≠ .ok ())
    (ty : HybType) (n : Bool) : hybridInit l ty n = .error .runtimeError := by
  unfold hybridInit
  have hm : (sortEntries l).mapM checkScalers = .error .runtimeError :=
    mapM_checkScalers (by
      unfold sortEntries
      exact List.mem_mergeSort.2 (List.mem_mergeSort.2 he)) h
  by_cases hl : l.Pairwise fun a b => a.indices ≠ b.indices
  · obtain ⟨chs, hc, -⟩ := C80_channels l hl
    rw [hc]
    simp only [bind, Except.bind, hm]
  · rw [C80_duplicate l hl]
    rfl

/-- **C149 is violated for normalized GRU models made from arguments.** With data scalers the set-up raises;
without them, every hybrid model that holds the GRU model raises RuntimeError when it is built: in no way does a
GRU model made from arguments take part in a hybrid model with its own normalization. -/
theorem C149_gru_normalized_violated {ω : Type} (cuda : Bool) (cwd : String) (dirname : String → String)
    (w₀ : ω) (fits : ω → ω → Bool) (states : String → Option ω) (a : HybSetupArgs HybScaler)
    (d d' : InitDisk HybScaler) (h : HybData (GruObj HybScaler × ω)) {args : PyDict ArgVal}
    (ha : a.initArgs = some args)
    (hn : args.get? "is_model_in_normalized" = some (.bool true) ∨
      args.get? "is_model_out_normalized" = some (.bool true))
    (hh : setHybridized (gruOps cuda cwd dirname w₀ fits) states a d = .ok (h, d'))
    (name : List Char) (call : ω → FeatTensor → Py ModelOut) (l : List HybEntry)
    (hl : gruEntry name h call ∈ l) (ty : HybType) (outNorm : Bool) :
    hybridInit l ty outNorm = .error .runtimeError := by
  obtain ⟨-, -, ⟨m, hm, e⟩, -⟩ := C149_gru cuda cwd dirname w₀ fits states a d d' h ha hh
  obtain ⟨-, -, hs, hi, ho⟩ := gruConstruct_noSave hm
  refine hybridInit_error hl ?_ ty outNorm
  unfold checkScalers gruEntry
  rw [e, hs, hi, ho]
  rcases hn with hn | hn
  · simp [hn, isNormalized, ArgVal.truthy]
  · rw [hn]
    generalize (KDict.get? args "is_model_in_normalized").getD (ArgVal.bool false) = x
    by_cases hx : x.truthy <;> simp [isNormalized, ArgVal.truthy, hx]

/-- **C149 is violated for the training script of hybrid models.** All of its schemes hold a GRU model with
data scalers, so none of them ever gets to build its hybrid model; if everything else succeeds, RuntimeError is
raised. -/
theorem C149_schemes_violated {σ ω β : Type} (cuda : Bool) (cwd : String) (dirname : String → String) (w₀ : ω)
    (fits : ω → ω → Bool) (item : HybData (GruObj σ × ω) → β) (rcm layer : Py β) (device : String)
    (fitIn fitOut : Py σ) (d : InitDisk σ) (scheme : ℕ) :
    (∀ r, schemeModels (gruOps cuda cwd dirname w₀ fits) item rcm layer device fitIn fitOut d scheme ≠ .ok r) ∧
      ((∃ r, rcm = .ok r) → (∃ s, fitIn = .ok s) → (∃ s, fitOut = .ok s) → device = "cpu" →
        schemeModels (gruOps cuda cwd dirname w₀ fits) item rcm layer device fitIn fitOut d scheme =
          .error .runtimeError) := by
  have key : ∀ i j name, ∀ r, setHybridizedGru (gruOps cuda cwd dirname w₀ fits) i j name device fitIn fitOut d
      ≠ .ok r := by
    intro i j name r hr
    unfold setHybridizedGru at hr
    obtain ⟨n, -, hr⟩ := bind_ok hr
    obtain ⟨si, -, hr⟩ := bind_ok hr
    obtain ⟨so, -, hr⟩ := bind_ok hr
    exact (C149_scalers_violated _ rfl _ _ (by simp) d).1 r hr
  have key2 : ∀ i j name n s t, hybridGruWidths name = .ok n → fitIn = .ok s → fitOut = .ok t → device = "cpu" →
      setHybridizedGru (gruOps cuda cwd dirname w₀ fits) i j name device fitIn fitOut d =
        .error .runtimeError := by
    rintro i j name n s t hn rfl rfl rfl
    unfold setHybridizedGru
    rw [hn]
    simp only [bind, Except.bind]
    obtain ⟨m, hm⟩ : ∃ m : GruObj σ, gruConstruct cuda [("n_features_in", .nat n.1), ("n_features_out", .nat n.2),
        ("hidden_layer_size", .nat 444), ("n_recurrent_layers", .nat 3), ("dropout", .nat 0),
        ("model_directory", .none), ("model_name", .none), ("is_model_in_normalized", .bool true),
        ("is_model_out_normalized", .bool true), ("gru_model_source", .str "custom"),
        ("device_type", .str "cpu")] false d = .ok (m, d) := by
      simp [gruConstruct, KDict.keys, KDict.get?, gruArgNames, raiseIf, orRaise, bind, Except.bind,
        checkDirectory, ArgVal.isStrOrNone, ArgVal.asStr, GruObj.setDevice]
    refine (C149_scalers_violated _ rfl _ _ (by simp) d).2 (m, w₀) (m, w₀) d ?_ (.inl ⟨rfl, rfl⟩)
    refine .inl ⟨_, rfl, .inl ⟨rfl, ?_⟩⟩
    simp only [gruOps, Option.getD_some, hm]
    rfl
  constructor
  · intro r hr
    rcases scheme with _ | _ | _ | _ | _ | n
    · obtain ⟨g, hg, -⟩ := bind_ok hr
      exact key _ _ _ _ hg
    · obtain ⟨g, hg, -⟩ := bind_ok hr
      exact key _ _ _ _ hg
    · obtain ⟨g, hg, -⟩ := bind_ok hr
      exact key _ _ _ _ hg
    · obtain ⟨g, hg, -⟩ := bind_ok hr
      exact key _ _ _ _ hg
    · obtain ⟨r', hr', hr⟩ := bind_ok hr
      obtain ⟨g, hg, -⟩ := bind_ok hr
      exact key _ _ _ _ hg
    · cases hr
  · rintro ⟨q, hq⟩ ⟨s, hs⟩ ⟨t, ht⟩ hd
    rcases scheme with _ | _ | _ | _ | _ | n
    · simp only [schemeModels]
      rw [key2 0 0 _ _ s t rfl hs ht hd]; rfl
    · simp only [schemeModels]
      rw [key2 0 0 _ _ s t rfl hs ht hd]; rfl
    · simp only [schemeModels]
      rw [key2 0 0 _ _ s t rfl hs ht hd]; rfl
    · simp only [schemeModels]
      rw [key2 0 0 _ _ s t rfl hs ht hd]; rfl
    · simp only [schemeModels, hq, bind, Except.bind]
      rw [key2 1 0 _ _ s t rfl hs ht hd]
    · rfl

/-- A polynomial regressor with a scaler of its input, from a state file, in second place of the channel. -/
example : ∃ h, setHybridized (polyOps (σ := ℕ) (ω := ℕ) false 0 fun _ _ => true) (fun _ => some 7)
    ⟨some [("n_features_in", .nat 6), ("is_model_in_normalized", .bool true)], none, some "state.pt",
      .dict [("features_in", some 3)], .tuple [.int 0, .bool true], some true⟩
    ⟨fun _ => false, fun _ => none⟩ = .ok (h, ⟨fun _ => false, fun _ => none⟩) ∧
    h.model.scalers = ⟨some 3, none⟩ ∧ h.model.weights = 7 ∧ h.indices = (0, 1) ∧ h.residual = true := by
  refine ⟨⟨⟨[("n_features_in", .nat 6), ("is_model_in_normalized", .bool true)], .bool true, .bool false,
    ⟨some 3, none⟩, 7⟩, (0, 1), true⟩, ?_, rfl, rfl, rfl, rfl⟩
  simp [setHybridized, buildSub, polyOps, loadSub, scaleSub, checkIndices, PyAtom.asInt, raiseIf, orRaise, bind,
    Except.bind, KDict.keys, KDict.get?, ArgVal.asStr, pure, Except.pure]

/-- A GRU model with normalized input and no scalers: its set-up succeeds. -/
example : ∃ h, setHybridized (gruOps (σ := HybScaler) (ω := ℕ) false "/" id 0 fun _ _ => true) (fun _ => none)
    ⟨some [("n_features_in", .nat 6), ("n_features_out", .nat 6), ("hidden_layer_size", .nat 20),
      ("model_directory", .none), ("is_model_in_normalized", .bool true)], none, none, .none,
      .tuple [.int 0, .int 0], some false⟩
    ⟨fun _ => false, fun _ => none⟩ = .ok h := by
  simp [setHybridized, buildSub, gruOps, loadSub, scaleSub, checkIndices, PyAtom.asInt, raiseIf, orRaise, bind,
    Except.bind, KDict.keys, KDict.get?, ArgVal.asStr, pure, Except.pure, gruConstruct, gruArgNames,
    checkDirectory, ArgVal.isStrOrNone, GruObj.setDevice, Except.map]

end

end Hooke
