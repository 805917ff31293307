import Verif.Spec.FinderObject
import Verif.Props.ForceEquilibrium
import Verif.Lemmas.PyDict
import Verif.Lemmas.StrainPath

/-!
# C161: construction of a material model finder, specimen data and loss
-/

noncomputable section

open Classical

namespace Hooke

open Spec

/-! ### Construction -/

theorem lossTypeArg_ok (s : String) (ty : LossType) : lossTypeArg s = .ok ty ↔
    (s = "pointwise" ∧ ty = .pointwise) ∨ (s = "dirichlet_sets" ∧ ty = .dirichletSets) := by
  unfold lossTypeArg
  by_cases h1 : s = "pointwise"
  · subst h1
    simp [eq_comm]
  · by_cases h2 : s = "dirichlet_sets"
    · subst h2
      simp [eq_comm]
    · simp [h1, h2]

theorem deviceArg_ok (cuda : Bool) (s : String) (d : Device) : deviceArg cuda s = .ok d ↔
    (s = "cpu" ∧ d = .cpu) ∨ (s = "cuda" ∧ cuda = true ∧ d = .cuda) := by
  unfold deviceArg
  by_cases h1 : s = "cpu"
  · subst h1
    simp [eq_comm]
  · by_cases h2 : s = "cuda"
    · subst h2
      cases cuda <;> simp [eq_comm]
    · simp [h1, h2]

/-- **C161 (construction).** A finder is built exactly if the directory exists, the name is a string, the
loss type is one of the two known ones and the device is available; everything else is reported with
`RuntimeError`.  The finder has no specimen, it computes the reactions of Dirichlet sets exactly if that was
asked for together with the loss type `dirichlet_sets`, and it starts with an empty directory
`material_models`: whatever was there is deleted, the other entries are kept. -/
theorem C161_construction (cuda : Bool) (dir : Option FinderDir) (a : FinderArgs) :
    ((∃ F, (finderInit cuda dir a).2 = .ok F) ↔
      dir ≠ none ∧ a.name ≠ none ∧ a.lossType ∈ ["pointwise", "dirichlet_sets"] ∧
        (a.device = "cpu" ∨ a.device = "cuda" ∧ cuda = true)) ∧
    (∀ e, (finderInit cuda dir a).2 = .error e → e = .runtimeError) ∧
    ∀ F d, (finderInit cuda dir a).2 = .ok F → dir = some d →
      (finderInit cuda dir a).1 = some ⟨some [], d.rest⟩ ∧ F.dir = ⟨some [], d.rest⟩ ∧
      F.specimen = none ∧ F.factor = none ∧ F.weights = none ∧ some F.name = a.name ∧
      F.normalization = a.normalization ∧
      (F.lossType = .dirichletSets ↔ a.lossType = "dirichlet_sets") ∧
      (F.computeSets = true ↔ a.computeSets = true ∧ a.lossType = "dirichlet_sets") ∧
      (F.device = .cuda ↔ a.device = "cuda") := by
  unfold finderInit
  cases dir with
  | none => simp
  | some d =>
    cases hn : a.name with
    | none => simp
    | some name =>
      cases hl : lossTypeArg a.lossType with
      | error e =>
        have he : e = .runtimeError := by
          unfold lossTypeArg at hl
          split_ifs at hl
          cases hl
          rfl
        have hnot : a.lossType ∉ ["pointwise", "dirichlet_sets"] := by
          intro hm
          simp only [List.mem_cons, List.not_mem_nil, or_false] at hm
          rcases hm with h | h <;> rw [h] at hl <;> simp [lossTypeArg] at hl
        simp only [reduceCtorEq, exists_false, false_iff, Except.error.injEq]
        exact ⟨fun h => hnot h.2.2.1, fun e' h => h ▸ he, fun F d h => absurd h (by simp)⟩
      | ok ty =>
        have hty := (lossTypeArg_ok _ _).mp hl
        cases hd : deviceArg cuda a.device with
        | error e =>
          have he : e = .runtimeError := by
            unfold deviceArg at hd
            split_ifs at hd <;> cases hd <;> rfl
          have hnot : ¬ (a.device = "cpu" ∨ a.device = "cuda" ∧ cuda = true) := by
            rintro (h | ⟨h, h'⟩)
            · rw [h] at hd
              simp [deviceArg] at hd
            · rw [h, h'] at hd
              simp [deviceArg] at hd
          simp only [reduceCtorEq, exists_false, false_iff, Except.error.injEq]
          exact ⟨fun h => hnot h.2.2.2, fun e' h => h ▸ he, fun F d h => absurd h (by simp)⟩
        | ok dev =>
          have hdev := (deviceArg_ok _ _ _).mp hd
          refine ⟨⟨fun _ => ⟨by simp, by simp, ?_, ?_⟩, fun _ => ⟨_, rfl⟩⟩, fun e h => (by cases h), ?_⟩
          · rcases hty with ⟨h, -⟩ | ⟨h, -⟩ <;> simp [h]
          · rcases hdev with ⟨h, -⟩ | ⟨h, h', -⟩
            · exact .inl h
            · exact .inr ⟨h, h'⟩
          · intro F d' h hd'
            cases h
            cases hd'
            refine ⟨rfl, rfl, rfl, rfl, rfl, rfl, rfl, ?_, ?_, ?_⟩
            · rcases hty with ⟨h, rfl⟩ | ⟨h, rfl⟩ <;> simp [h]
            · rcases hty with ⟨h, rfl⟩ | ⟨h, rfl⟩ <;> simp [h]
            · rcases hdev with ⟨h, rfl⟩ | ⟨h, -, rfl⟩ <;> simp [h]

/-- **C161 is violated for a refused construction.** With a loss type or device that is refused, the models
saved in the directory have been deleted before the exception is raised. -/
theorem C161_construction_violated (cuda : Bool) (d : FinderDir) (a : FinderArgs) (hn : a.name ≠ none)
    (h : a.lossType ∉ ["pointwise", "dirichlet_sets"] ∨ a.device ∉ ["cpu", "cuda"]) :
    (finderInit cuda (some d) a).2 = .error .runtimeError ∧
    (finderInit cuda (some d) a).1 = some ⟨some [], d.rest⟩ := by
  obtain ⟨name, hname⟩ := Option.ne_none_iff_exists'.mp hn
  unfold finderInit
  rw [hname]
  cases hl : lossTypeArg a.lossType with
  | error e =>
    unfold lossTypeArg at hl
    split_ifs at hl
    cases hl
    exact ⟨rfl, rfl⟩
  | ok ty =>
    have hty : a.lossType ∈ ["pointwise", "dirichlet_sets"] := by
      rcases (lossTypeArg_ok _ _).mp hl with ⟨h, -⟩ | ⟨h, -⟩ <;> simp [h]
    have hd := h.resolve_left (not_not.mpr hty)
    simp only [List.mem_cons, List.not_mem_nil, or_false, not_or] at hd
    have : deviceArg cuda a.device = .error .runtimeError := by
      unfold deviceArg
      rw [if_neg hd.1, if_neg hd.2]
    rw [this]
    exact ⟨rfl, rfl⟩

example : (finderInit false (some ⟨some [("model_1", ["state.pt"])], ["data"]⟩)
      ⟨some "finder", "pointwise", false, true, "cpu"⟩).2.toOption.map (fun F => F.computeSets) = some false ∧
    (finderInit false (some ⟨some [("model_1", ["state.pt"])], ["data"]⟩)
      ⟨some "finder", "sets", false, true, "cpu"⟩).1 = some ⟨some [], ["data"]⟩ := by
  refine ⟨by simp [finderInit, lossTypeArg, deviceArg, Except.toOption], ?_⟩
  exact (C161_construction_violated _ _ _ (by simp) (.inl (by decide))).2

/-! ### Calls of `set_specimen_data` -/

theorem setForceScaler_keeps (F : FinderObj) (c : FinderCall) :
    (setForceScaler F c).1.lossType = F.lossType ∧
    (setForceScaler F c).1.normalization = F.normalization ∧
    (setForceScaler F c).1.device = F.device ∧ (setForceScaler F c).1.specimen = F.specimen ∧
    (setForceScaler F c).1.dir = F.dir ∧ (setForceScaler F c).1.factor = F.factor ∧
    (setForceScaler F c).1.weights = F.weights := by
  unfold setForceScaler
  split_ifs
  · cases c.forceMin <;> cases c.forceMax <;> simp only <;> (try split_ifs) <;> simp
  · exact ⟨rfl, rfl, rfl, rfl, rfl, rfl, rfl⟩

theorem setLossWeights_keeps (F : FinderObj) (c : FinderCall) :
    (setLossWeights F c).1.lossType = F.lossType ∧
    (setLossWeights F c).1.normalization = F.normalization ∧
    (setLossWeights F c).1.device = F.device ∧ (setLossWeights F c).1.specimen = F.specimen ∧
    (setLossWeights F c).1.dir = F.dir ∧ (setLossWeights F c).1.factor = F.factor ∧
    (setLossWeights F c).1.scaler = F.scaler := by
  unfold setLossWeights
  cases c.weights <;> simp only <;> (try split_ifs) <;> simp

theorem setSpecimen_keeps (F : FinderObj) (c : FinderCall) :
    (setSpecimen F c).1.lossType = F.lossType ∧ (setSpecimen F c).1.normalization = F.normalization ∧
    (setSpecimen F c).1.device = F.device := by
  unfold setSpecimen
  cases c.specimen.check F.lossType with
  | error e => exact ⟨rfl, rfl, rfl⟩
  | ok u =>
    simp only
    have h := setForceScaler_keeps { F with specimen := some c.specimen, dir := setModelDirs F.dir c.keys } c
    rcases hs : setForceScaler { F with specimen := some c.specimen, dir := setModelDirs F.dir c.keys } c
      with ⟨F', _ | e⟩
    · rw [hs] at h
      have h' := setLossWeights_keeps { F' with factor := some c.factor } c
      exact ⟨h'.1.trans h.1, h'.2.1.trans h.2.1, h'.2.2.1.trans h.2.2.1⟩
    · rw [hs] at h
      exact ⟨h.1, h.2.1, h.2.2.1⟩

theorem afterCalls_keeps (cs : List FinderCall) : ∀ F : FinderObj,
    (afterCalls F cs).lossType = F.lossType ∧ (afterCalls F cs).normalization = F.normalization ∧
    (afterCalls F cs).device = F.device := by
  induction cs with
  | nil => exact fun F => ⟨rfl, rfl, rfl⟩
  | cons c cs ih =>
    intro F
    have h1 := ih (setSpecimen F c).1
    have h2 := setSpecimen_keeps F c
    exact ⟨h1.1.trans h2.1, h1.2.1.trans h2.2.1, h1.2.2.trans h2.2.2⟩

/-- The state after an accepted call. -/
theorem setSpecimen_ok {F F' : FinderObj} {c : FinderCall} (h : setSpecimen F c = (F', none)) :
    F'.specimen = some c.specimen ∧ F'.factor = some c.factor ∧
    F'.dir = setModelDirs F.dir c.keys ∧
    F'.weights = some (match c.weights with
      | .tensor _ vals => vals
      | _ => List.replicate c.specimen.T 1) ∧
    (F.normalization = true → ∃ mn mx, c.forceMin = some mn ∧ c.forceMax = some mx ∧
      mn.length = c.specimen.n ∧ mx.length = c.specimen.n ∧ F'.scaler = some (some (mn, mx))) := by
  unfold setSpecimen at h
  cases hc : c.specimen.check F.lossType with
  | error e =>
    rw [hc] at h
    simp at h
  | ok u =>
    rw [hc] at h
    simp only at h
    generalize hG : ({ F with specimen := some c.specimen, dir := setModelDirs F.dir c.keys } : FinderObj)
      = G at h
    have hk := setForceScaler_keeps G c
    rcases hs : setForceScaler G c with ⟨H, _ | e⟩
    · rw [hs] at h hk
      simp only at h hk
      have hw := setLossWeights_keeps { H with factor := some c.factor } c
      rw [h] at hw
      simp only at hw
      refine ⟨?_, hw.2.2.2.2.2.1, ?_, ?_, ?_⟩
      · rw [hw.2.2.2.1, hk.2.2.2.1, ← hG]
      · rw [hw.2.2.2.2.1, hk.2.2.2.2.1, ← hG]
      · unfold setLossWeights at h
        cases hcw : c.weights with
        | none => rw [hcw] at h; cases h; rfl
        | other => rw [hcw] at h; cases h; rfl
        | tensor shape vals =>
          rw [hcw] at h
          simp only at h
          split_ifs at h
          · simp at h
          · simp at h
          · cases h
            rfl
      · intro hn
        have hGn : G.normalization = true := by rw [← hG]; exact hn
        unfold setForceScaler at hs
        rw [if_pos hGn] at hs
        cases h1 : c.forceMin with
        | none => rw [h1] at hs; simp at hs
        | some mn =>
          cases h2 : c.forceMax with
          | none => rw [h1, h2] at hs; simp at hs
          | some mx =>
            rw [h1, h2] at hs
            simp only at hs
            split_ifs at hs with hl
            · cases hs
              exact ⟨mn, mx, rfl, rfl, hl.1, hl.2, hw.2.2.2.2.2.2⟩
            · simp at hs
    · rw [hs] at h
      simp at h

/-- **C161 (specimen data).** A call of `set_specimen_data` is accepted exactly if the labels of the boundary
conditions fit the loss type, bounds of every direction are given for normalised forces, and weights given
as a tensor have one value for each time; it is refused with `RuntimeError` otherwise.  After an accepted
call the directories of the material models are there without files, and the others are as before. -/
theorem C161_specimen (F : FinderObj) (c : FinderCall) :
    ((setSpecimen F c).2 = none ↔
      c.specimen.check F.lossType = .ok () ∧
      (F.normalization = true → ∃ mn mx, c.forceMin = some mn ∧ c.forceMax = some mx ∧
        mn.length = c.specimen.n ∧ mx.length = c.specimen.n) ∧
      ∀ shape vals, c.weights = .tensor shape vals → shape = [c.specimen.T]) ∧
    (∀ e, (setSpecimen F c).2 = some e → e = .runtimeError) ∧
    ((setSpecimen F c).2 = none → ∀ m, F.dir.models = some m → ∃ m',
      (setSpecimen F c).1.dir = ⟨some m', F.dir.rest⟩ ∧
      (∀ k ∈ c.keys, m'.get? ("model_" ++ k) = some []) ∧
      ∀ x, (∀ k ∈ c.keys, x ≠ "model_" ++ k) → m'.get? x = m.get? x) := by
  have hcheck : ∀ e, c.specimen.check F.lossType = .error e → e = .runtimeError := by
    intro e he
    unfold FinderSpecimen.check at he
    cases hb : c.specimen.bc with
    | none => rw [hb] at he; cases he
    | some bc =>
      rw [hb] at he
      simp only at he
      unfold checkDirichletBc at he
      cases hl : F.lossType with
      | pointwise =>
        rw [hl] at he
        simp only [raiseIf] at he
        split_ifs at he
        cases he
        rfl
      | dirichletSets =>
        rw [hl] at he
        simp only [raiseIf, bind, Except.bind] at he
        split_ifs at he <;> cases he <;> rfl
  have hscaler : ∀ G : FinderObj, G.normalization = F.normalization →
      ((setForceScaler G c).2 = none ↔ (F.normalization = true → ∃ mn mx, c.forceMin = some mn ∧
        c.forceMax = some mx ∧ mn.length = c.specimen.n ∧ mx.length = c.specimen.n)) ∧
      ∀ e, (setForceScaler G c).2 = some e → e = .runtimeError := by
    intro G hG
    unfold setForceScaler
    rw [hG]
    by_cases hn : F.normalization = true
    · rw [if_pos hn]
      cases h1 : c.forceMin with
      | none => simp [hn, eq_comm]
      | some mn =>
        cases h2 : c.forceMax with
        | none => simp [hn, eq_comm]
        | some mx =>
          simp only
          split_ifs with hl
          · simp [hl]
          · simp only [Option.some.injEq, false_iff]
            refine ⟨fun h => ?_, fun e he => he.symm⟩
            obtain ⟨mn', mx', e1, e2, l1, l2⟩ := h hn
            cases e1
            cases e2
            exact hl ⟨l1, l2⟩
    · rw [if_neg hn]
      simp [hn]
  have hweights : ∀ G : FinderObj,
      ((setLossWeights G c).2 = none ↔ ∀ shape vals, c.weights = .tensor shape vals →
        shape = [c.specimen.T]) ∧ ∀ e, (setLossWeights G c).2 = some e → e = .runtimeError := by
    intro G
    unfold setLossWeights
    cases hw : c.weights with
    | none => simp
    | other => simp
    | tensor shape vals =>
      simp only [WeightsArg.tensor.injEq]
      split_ifs with h1 h2
      · simp only [Option.some.injEq, false_iff]
        refine ⟨fun h => h1 ?_, fun e he => he.symm⟩
        rw [h shape vals ⟨rfl, rfl⟩]
        rfl
      · simp only [Option.some.injEq, false_iff]
        refine ⟨fun h => h2 ?_, fun e he => he.symm⟩
        rw [h shape vals ⟨rfl, rfl⟩]
        rfl
      · simp only [true_iff, reduceCtorEq, false_implies, implies_true, and_true]
        rintro _ _ ⟨rfl, -⟩
        obtain ⟨k, rfl⟩ := List.length_eq_one_iff.mp (not_not.mp h1)
        simpa using h2
  refine ⟨?_, ?_, ?_⟩
  · unfold setSpecimen
    cases hc : c.specimen.check F.lossType with
    | error e => simp
    | ok u =>
      simp only [true_and]
      have h1 := (hscaler { F with specimen := some c.specimen, dir := setModelDirs F.dir c.keys } rfl).1
      rcases hs : setForceScaler { F with specimen := some c.specimen, dir := setModelDirs F.dir c.keys } c
        with ⟨H, _ | e⟩
      · rw [hs] at h1
        simp only
        rw [(hweights _).1]
        exact ⟨fun h => ⟨h1.mp rfl, h⟩, fun h => h.2⟩
      · rw [hs] at h1
        simp only [reduceCtorEq, false_iff] at h1 ⊢
        exact fun h => h1 h.1
  · intro e
    unfold setSpecimen
    cases hc : c.specimen.check F.lossType with
    | error e' =>
      intro h
      exact hcheck e (hc.trans (by rw [Option.some.inj h]))
    | ok u =>
      simp only
      have h1 := (hscaler { F with specimen := some c.specimen, dir := setModelDirs F.dir c.keys } rfl).2
      rcases hs : setForceScaler { F with specimen := some c.specimen, dir := setModelDirs F.dir c.keys } c
        with ⟨H, _ | e'⟩
      · exact (hweights _).2 e
      · rw [hs] at h1
        exact h1 e
  · intro h m hm
    obtain ⟨-, -, hdir, -⟩ := setSpecimen_ok (F := F) (F' := (setSpecimen F c).1) (c := c)
      (Prod.ext rfl h)
    have key : ∀ (keys : List String) (m : KDict String (List String)),
        (∀ k ∈ keys, (keys.foldl (fun m k => m.put ("model_" ++ k) []) m).get? ("model_" ++ k) = some []) ∧
        ∀ x, (∀ k ∈ keys, x ≠ "model_" ++ k) →
          (keys.foldl (fun m k => m.put ("model_" ++ k) []) m).get? x = m.get? x := by
      intro keys
      induction keys using List.reverseRecOn with
      | nil => exact fun m => ⟨fun k hk => absurd hk (by simp), fun x _ => rfl⟩
      | append_singleton ks k ih =>
        intro m
        rw [List.foldl_append]
        simp only [List.foldl_cons, List.foldl_nil]
        refine ⟨fun k' hk' => ?_, fun x hx => ?_⟩
        · by_cases he : "model_" ++ k' = "model_" ++ k
          · rw [he, KDict.get?_put_self]
          · rw [KDict.get?_put_ne _ _ he]
            rcases List.mem_append.mp hk' with h' | h'
            · exact (ih m).1 k' h'
            · simp only [List.mem_singleton] at h'
              exact absurd (by rw [h']) he
        · rw [KDict.get?_put_ne _ _ (hx k (by simp))]
          exact (ih m).2 x fun k' hk' => hx k' (by simp [hk'])
    refine ⟨_, ?_, (key c.keys m).1, (key c.keys m).2⟩
    rw [hdir]
    unfold setModelDirs
    rw [hm]
    rfl

/-! ### The loss -/

theorem residualLoss_eq {N n : ℕ} (ty : LossType) (b : Option ((Fin n → ℝ) × (Fin n → ℝ)))
    (Fi R : NodeMat N n ℝ) (bc : NodeMat N n ℤ) :
    loopLoss ⟨ty, b⟩ Fi (fun _ _ => 0) R bc = residualLoss b Fi R bc := by
  rw [loopLoss_eq]
  unfold pointwiseLoss residualLoss
  have h : ∀ (F : NodeMat N n ℝ) i j, normForces (⟨ty, b⟩ : LossConfig n) F i j = scaledForce b j (F i j) := by
    intro F i j
    unfold normForces scaledForce
    cases b with
    | none => rfl
    | some b =>
      obtain ⟨mn, mx⟩ := b
      simp only [forceScale]
      ring
  simp only [h]

theorem foldlM_add {α : Type} (l : List α) (g : ℝ → α → Py ℝ) (f : α → ℝ)
    (hg : ∀ acc, ∀ x ∈ l, g acc x = .ok (acc + f x)) (a : ℝ) :
    l.foldlM g a = .ok (a + (l.map f).sum) := by
  induction l generalizing a with
  | nil => simp [pure, Except.pure]
  | cons x l ih =>
    rw [List.foldlM_cons, hg a x (by simp)]
    simp only [bind, Except.bind]
    rw [ih fun acc y hy => hg acc y (by simp [hy])]
    simp [add_assoc]

theorem lossConfig_of {F : FinderObj} {S : FinderSpecimen}
    {b : Option ((Fin S.n → ℝ) × (Fin S.n → ℝ))}
    (h : (F.normalization = false ∧ b = none) ∨ (F.normalization = true ∧ ∃ mn mx : Fin S.n → ℝ,
      b = some (mn, mx) ∧ F.scaler = some (some (List.ofFn mn, List.ofFn mx)))) :
    F.lossConfig S = .ok ⟨F.lossType, b⟩ := by
  unfold FinderObj.lossConfig
  rcases h with ⟨h, rfl⟩ | ⟨h, mn, mx, rfl, hs⟩
  · rw [if_neg (by rw [h]; decide)]
  · rw [if_pos h, hs]
    simp

theorem sequential_of {F : FinderObj} {S : FinderSpecimen} (hS : F.specimen = some S)
    {b : Option ((Fin S.n → ℝ) × (Fin S.n → ℝ))} (hb : F.lossConfig S = .ok ⟨F.lossType, b⟩)
    {v : List ℝ} (hv : F.weights = some v) {w : Fin S.T → ℝ} (hw : ∀ t : Fin S.T, v[(t : ℕ)]? = some (w t)) :
    F.sequential = .ok (∑ t, w t * residualLoss b (S.internal t) (S.reaction t) S.flags) := by
  unfold FinderObj.sequential
  rw [hS]
  simp only [orRaise, bind, Except.bind]
  rw [foldlM_add _ _ (fun t => w t * residualLoss b (S.internal t) (S.reaction t) S.flags),
    finRange_sum, zero_add]
  intro acc t _
  rw [hv]
  simp only
  rw [hw t]
  simp only
  rw [hb]
  simp only [pure, Except.pure]
  rw [residualLoss_eq]

theorem vectorised_of {F : FinderObj} {S : FinderSpecimen} (hS : F.specimen = some S)
    (hty : F.lossType = .pointwise) {bc : Fin S.T → NodeMat S.N S.n ℤ} (hbc : S.bc = some bc)
    {b : Option ((Fin S.n → ℝ) × (Fin S.n → ℝ))} (hb : F.lossConfig S = .ok ⟨F.lossType, b⟩)
    {w : Fin S.T → ℝ} (hv : F.weights = some (List.ofFn w)) :
    F.vectorised
      = .ok (∑ t, w t * residualLoss b (S.internal t) (S.reaction t) (bc ⟨0, S.pos⟩)) := by
  have hhead : (List.ofFn bc).head? = some (bc ⟨0, S.pos⟩) := by
    rw [List.head?_eq_getElem?, List.getElem?_eq_getElem (by simpa using S.pos)]
    simp
  have hmap : (List.finRange S.T).mapM
      (fun t => vLoss ⟨F.lossType, b⟩ (S.internal t) (fun _ _ => 0) (S.reaction t) (bc ⟨0, S.pos⟩))
      = .ok ((List.finRange S.T).map fun t =>
        residualLoss b (S.internal t) (S.reaction t) (bc ⟨0, S.pos⟩)) :=
    mapM_of_forall fun t _ => by
      rw [C59_loop _ hty, residualLoss_eq]
  unfold FinderObj.vectorised
  rw [hS]
  simp only [orRaise, bind, Except.bind]
  rw [hbc]
  simp only
  rw [hhead]
  simp only
  rw [hv]
  simp only
  rw [hb]
  simp only
  rw [hmap]
  simp only
  unfold broadcastMul
  rw [if_pos (by simp)]
  simp only [pure, Except.pure]
  rw [List.ofFn_eq_map, List.zipWith_map, List.zipWith_self, finRange_sum]

/-- **C161 (loss).** Whatever calls of `set_specimen_data` were made before, accepted or refused: after an
accepted call the loss is the weighted sum over the times of the squared residuals of that specimen, with
the weights of that call (1 if there are none), multiplied by its scaling factor, for forces scaled by its
bounds if the finder normalises them.  The sequential modes use the flags of the mesh; for the pointwise
loss, the vectorised mode uses the labels at the first time. -/
theorem C161_loss (F F' : FinderObj) (cs : List FinderCall) (c : FinderCall)
    (h : setSpecimen (afterCalls F cs) c = (F', none))
    (w : Fin c.specimen.T → ℝ) (hw : RequestedWeights c w)
    (b : Option ((Fin c.specimen.n → ℝ) × (Fin c.specimen.n → ℝ)))
    (hb : RequestedBounds F.normalization c b) :
    F'.forward "sequential_element" = .ok (weightedLoss c.factor w fun t =>
      residualLoss b (c.specimen.internal t) (c.specimen.reaction t) c.specimen.flags) ∧
    (F.device = .cpu → F'.forward "sequential_time" = F'.forward "sequential_element") ∧
    (F.lossType = .pointwise → ∀ bc, c.specimen.bc = some bc →
      F'.forward "sequential_element_vmap" = .ok (weightedLoss c.factor w fun t =>
        residualLoss b (c.specimen.internal t) (c.specimen.reaction t) (bc ⟨0, c.specimen.pos⟩))) := by
  obtain ⟨k1, k2, k3⟩ := afterCalls_keeps cs F
  have hk := setSpecimen_keeps (afterCalls F cs) c
  rw [h] at hk
  obtain ⟨m1, m2, m3⟩ : F'.lossType = F.lossType ∧ F'.normalization = F.normalization ∧
      F'.device = F.device := ⟨hk.1.trans k1, hk.2.1.trans k2, hk.2.2.trans k3⟩
  obtain ⟨h1, h2, -, h4, h5⟩ := setSpecimen_ok h
  have hv : F'.weights = some (List.ofFn w) := by
    rw [h4]
    rcases hw with ⟨hw, hone⟩ | hw
    · rw [hw]
      simp only [Option.some.injEq]
      have : w = fun _ => 1 := funext hone
      rw [this, List.ofFn_const]
    · rw [hw]
  have hget : ∀ t : Fin c.specimen.T, (List.ofFn w)[(t : ℕ)]? = some (w t) := by
    intro t
    rw [List.getElem?_eq_getElem (by simp)]
    simp
  have hcfg : F'.lossConfig c.specimen = .ok ⟨F'.lossType, b⟩ := by
    refine lossConfig_of ?_
    rw [m2]
    rcases hb with hb | ⟨hn, mn, mx, rfl, e1, e2⟩
    · exact .inl hb
    · obtain ⟨mn', mx', f1, f2, -, -, f5⟩ := h5 (k2.trans hn)
      rw [e1] at f1
      rw [e2] at f2
      cases f1
      cases f2
      exact .inr ⟨hn, mn, mx, rfl, f5⟩
  have hseq := sequential_of h1 hcfg hv hget
  refine ⟨?_, ?_, ?_⟩
  · unfold FinderObj.forward
    rw [if_neg (by decide), if_pos rfl, hseq]
    simp only [bind, Except.bind]
    rw [h2]
    simp only [orRaise, pure, Except.pure]
    rw [scaledLoss_eq]
    rfl
  · intro hd
    unfold FinderObj.forward
    rw [if_pos rfl, if_neg (by rw [m3, hd]; decide), if_neg (by decide), if_pos rfl]
  · intro hty bc hbc
    unfold FinderObj.forward
    rw [if_neg (by decide), if_neg (by decide), if_pos rfl,
      vectorised_of h1 (m1.trans hty) hbc hcfg hv]
    simp only [bind, Except.bind]
    rw [h2]
    simp only [orRaise, pure, Except.pure]
    rw [scaledLoss_eq]
    rfl

/-- **C161 (modes).** The mode `sequential_time` is refused on CUDA and an unknown mode is refused, both with
`RuntimeError`, whatever the finder holds; without specimen data every known mode raises
`AttributeError`. -/
theorem C161_modes (F : FinderObj) :
    (F.device = .cuda → F.forward "sequential_time" = .error .runtimeError) ∧
    (∀ mode ∉ ["sequential_time", "sequential_element", "sequential_element_vmap"],
      F.forward mode = .error .runtimeError) ∧
    (F.specimen = none → F.device = .cpu →
      ∀ mode ∈ ["sequential_time", "sequential_element", "sequential_element_vmap"],
      F.forward mode = .error .attributeError) := by
  refine ⟨fun h => ?_, fun mode hm => ?_, fun h hd mode hm => ?_⟩
  · unfold FinderObj.forward
    rw [if_pos rfl, if_pos h]
    rfl
  · simp only [List.mem_cons, List.not_mem_nil, or_false, not_or] at hm
    unfold FinderObj.forward
    rw [if_neg hm.1, if_neg hm.2.1, if_neg hm.2.2]
    rfl
  · have h1 : F.sequential = .error .attributeError := by
      unfold FinderObj.sequential
      rw [h]
      rfl
    have h2 : F.vectorised = .error .attributeError := by
      unfold FinderObj.vectorised
      rw [h]
      rfl
    simp only [List.mem_cons, List.not_mem_nil, or_false] at hm
    unfold FinderObj.forward
    rcases hm with rfl | rfl | rfl
    · rw [if_pos rfl, if_neg (by rw [hd]; decide), h1]
      rfl
    · rw [if_neg (by decide), if_pos rfl, h1]
      rfl
    · rw [if_neg (by decide), if_neg (by decide), if_pos rfl, h2]
      rfl

/-- **C161 is violated for a refused call.** A call that is refused because of the number of its weights has
already replaced the specimen and the scaling factor, but not the weights: if the new specimen has no more
times than the previous one, the loss of the new specimen is computed with the first weights of the
previous call, without an error. -/
theorem C161_refused_violated (F F' : FinderObj) (c c' : FinderCall) (h : setSpecimen F c = (F', none))
    (hn : F.normalization = false) (hd : F.device = .cpu) (v : List ℝ)
    (hv : c.weights = .tensor [v.length] v) (hT : c'.specimen.T ≤ v.length)
    (hc : c'.specimen.check F.lossType = .ok ()) (u : List ℝ) (hu : u.length ≠ c'.specimen.T)
    (hw : c'.weights = .tensor [u.length] u) :
    (setSpecimen F' c').2 = some .runtimeError ∧
    (setSpecimen F' c').1.forward "sequential_time" = .ok (weightedLoss c'.factor
      (fun t : Fin c'.specimen.T => v.getD t 0) fun t =>
        residualLoss none (c'.specimen.internal t) (c'.specimen.reaction t) c'.specimen.flags) := by
  have hk := setSpecimen_keeps F c
  rw [h] at hk
  obtain ⟨k1, k2, k3⟩ := hk
  simp only at k1 k2 k3
  obtain ⟨-, -, -, h4, -⟩ := setSpecimen_ok h
  rw [hv] at h4
  simp only at h4
  have hset : setSpecimen F' c' = ({ F' with
      specimen := some c'.specimen, dir := setModelDirs F'.dir c'.keys, factor := some c'.factor },
      some .runtimeError) := by
    unfold setSpecimen setForceScaler setLossWeights
    rw [k1, hc]
    simp [k2, hn, hw, hu]
  rw [hset]
  refine ⟨rfl, ?_⟩
  generalize hG : ({ F' with
      specimen := some c'.specimen, dir := setModelDirs F'.dir c'.keys, factor := some c'.factor } :
      FinderObj) = G
  have g1 : G.specimen = some c'.specimen := by rw [← hG]
  have g2 : G.weights = some v := by rw [← hG]; exact h4
  have g3 : G.factor = some c'.factor := by rw [← hG]
  have g4 : G.device = .cpu := by rw [← hG]; exact k3.trans hd
  have g5 : G.normalization = false := by rw [← hG]; exact k2.trans hn
  have hseq := sequential_of (F := G) (b := none) g1 (lossConfig_of (.inl ⟨g5, rfl⟩)) g2
    (w := fun t : Fin c'.specimen.T => v.getD t 0) (fun t => by
      have : (t : ℕ) < v.length := lt_of_lt_of_le t.2 hT
      rw [List.getD_eq_getElem?_getD, List.getElem?_eq_getElem this, Option.getD_some])
  simp only
  unfold FinderObj.forward
  rw [if_pos rfl, if_neg (by rw [g4]; decide), hseq]
  simp only [bind, Except.bind]
  rw [g3]
  simp only [orRaise, pure, Except.pure]
  rw [scaledLoss_eq]
  rfl

/-- The state after a call without bounds to a finder that normalises the forces. -/
theorem setSpecimen_nobounds {F : FinderObj} {c : FinderCall} (hc : c.specimen.check F.lossType = .ok ())
    (hn : F.normalization = true) (hb : c.forceMin = none ∨ c.forceMax = none) :
    setSpecimen F c = ({ F with specimen := some c.specimen, dir := setModelDirs F.dir c.keys },
      some .runtimeError) := by
  unfold setSpecimen setForceScaler
  rw [hc]
  rcases hb with hb | hb
  · simp [hn, hb]
  · cases hm : c.forceMin with
    | none => simp [hn, hb]
    | some mn => simp [hn, hb]

/-- **C161 is violated for missing bounds.** A finder that normalises the forces refuses a call without
bounds, but has already replaced the specimen: if the new specimen has the same number of directions and no
more times, its loss is computed with the bounds, the weights and the scaling factor of the previous call,
without an error. -/
theorem C161_bounds_violated (F F' : FinderObj) (c c' : FinderCall) (h : setSpecimen F c = (F', none))
    (hn : F.normalization = true) (mn mx v : List ℝ) (hmn : c.forceMin = some mn)
    (hmx : c.forceMax = some mx) (hv : c.weights = .tensor [v.length] v)
    (hc : c'.specimen.check F.lossType = .ok ()) (hb : c'.forceMin = none ∨ c'.forceMax = none)
    (hdim : c'.specimen.n = c.specimen.n) (hT : c'.specimen.T ≤ v.length) :
    (setSpecimen F' c').2 = some .runtimeError ∧
    (setSpecimen F' c').1.forward "sequential_element" = .ok (weightedLoss c.factor
      (fun t : Fin c'.specimen.T => v.getD t 0) fun t =>
        residualLoss (some (fun j => mn.getD j 0, fun j => mx.getD j 0))
          (c'.specimen.internal t) (c'.specimen.reaction t) c'.specimen.flags) := by
  have hk := setSpecimen_keeps F c
  rw [h] at hk
  obtain ⟨k1, k2, -⟩ := hk
  simp only at k1 k2
  obtain ⟨-, h2, -, h4, h5⟩ := setSpecimen_ok h
  rw [hv] at h4
  simp only at h4
  obtain ⟨mn', mx', e1, e2, l1, l2, hs⟩ := h5 hn
  rw [hmn] at e1
  rw [hmx] at e2
  cases e1
  cases e2
  rw [setSpecimen_nobounds (by rw [k1]; exact hc) (k2.trans hn) hb]
  refine ⟨rfl, ?_⟩
  generalize hG : ({ F' with
      specimen := some c'.specimen, dir := setModelDirs F'.dir c'.keys } : FinderObj) = G
  have g1 : G.specimen = some c'.specimen := by rw [← hG]
  have g2 : G.weights = some v := by rw [← hG]; exact h4
  have g3 : G.factor = some c.factor := by rw [← hG]; exact h2
  have g5 : G.normalization = true := by rw [← hG]; exact k2.trans hn
  have g6 : G.scaler = some (some (mn, mx)) := by rw [← hG]; exact hs
  have hcfg : G.lossConfig c'.specimen = .ok ⟨G.lossType,
      some (fun j => mn.getD j 0, fun j => mx.getD j 0)⟩ := by
    unfold FinderObj.lossConfig
    rw [if_pos g5, g6]
    simp only
    rw [if_pos (l1.trans hdim.symm)]
  have hseq := sequential_of (F := G) g1 hcfg g2
    (w := fun t : Fin c'.specimen.T => v.getD t 0) (fun t => by
      have : (t : ℕ) < v.length := lt_of_lt_of_le t.2 hT
      rw [List.getD_eq_getElem?_getD, List.getElem?_eq_getElem this, Option.getD_some])
  simp only
  unfold FinderObj.forward
  rw [if_neg (by decide), if_pos rfl, hseq]
  simp only [bind, Except.bind]
  rw [g3]
  simp only [orRaise, pure, Except.pure]
  rw [scaledLoss_eq]
  rfl

/-- **C161 (directions).** If the specimen of the refused call has another number of directions than that of
the accepted call before it, its loss is not computed: every known mode that is not refused anyway raises
`RuntimeError`. -/
theorem C161_dimension (F F' : FinderObj) (c c' : FinderCall) (h : setSpecimen F c = (F', none))
    (hn : F.normalization = true) (w : Fin c.specimen.T → ℝ) (hw : RequestedWeights c w)
    (hc : c'.specimen.check F.lossType = .ok ()) (hb : c'.forceMin = none ∨ c'.forceMax = none)
    (hdim : c'.specimen.n ≠ c.specimen.n) :
    (setSpecimen F' c').2 = some .runtimeError ∧
    (setSpecimen F' c').1.forward "sequential_time" = .error .runtimeError ∧
    (setSpecimen F' c').1.forward "sequential_element" = .error .runtimeError ∧
    (c'.specimen.bc ≠ none →
      (setSpecimen F' c').1.forward "sequential_element_vmap" = .error .runtimeError) := by
  have hk := setSpecimen_keeps F c
  rw [h] at hk
  obtain ⟨k1, k2, -⟩ := hk
  simp only at k1 k2
  obtain ⟨-, -, -, h4, h5⟩ := setSpecimen_ok h
  obtain ⟨mn, mx, -, -, l1, -, hs⟩ := h5 hn
  have hwl : ∃ v, F'.weights = some v ∧ v.length = c.specimen.T := by
    rcases hw with ⟨hw, -⟩ | hw
    · rw [hw] at h4
      exact ⟨_, h4, by simp⟩
    · rw [hw] at h4
      exact ⟨_, h4, by simp⟩
  obtain ⟨v, hv, hvl⟩ := hwl
  rw [setSpecimen_nobounds (by rw [k1]; exact hc) (k2.trans hn) hb]
  generalize hG : ({ F' with
      specimen := some c'.specimen, dir := setModelDirs F'.dir c'.keys } : FinderObj) = G
  have g1 : G.specimen = some c'.specimen := by rw [← hG]
  have g2 : G.weights = some v := by rw [← hG]; exact hv
  have g5 : G.normalization = true := by rw [← hG]; exact k2.trans hn
  have g6 : G.scaler = some (some (mn, mx)) := by rw [← hG]; exact hs
  have hcfg : G.lossConfig c'.specimen = .error .runtimeError := by
    unfold FinderObj.lossConfig
    rw [if_pos g5, g6]
    simp only
    rw [if_neg fun e => hdim (e.symm.trans l1)]
  have hseq : G.sequential = .error .runtimeError := by
    unfold FinderObj.sequential
    rw [g1]
    simp only [orRaise, bind, Except.bind]
    have hl : List.finRange c'.specimen.T ≠ [] := by
      intro e
      have := congrArg List.length e
      rw [List.length_finRange] at this
      exact absurd this (Nat.pos_iff_ne_zero.mp c'.specimen.pos)
    cases hr : List.finRange c'.specimen.T with
    | nil => exact absurd hr hl
    | cons t l =>
      have ht : (t : ℕ) = 0 := by
        have h0 : (List.finRange c'.specimen.T)[0]? = some t := by rw [hr]; rfl
        have h1 : (0 : ℕ) < (List.finRange c'.specimen.T).length := by rw [hr]; simp
        rw [List.getElem?_eq_getElem h1] at h0
        rw [← Option.some.inj h0]
        simp
      have hx : v[(t : ℕ)]? = some (v[0]'(by rw [hvl]; exact c.specimen.pos)) := by
        rw [ht, List.getElem?_eq_getElem]
      rw [List.foldlM_cons]
      simp only [g2, hx, hcfg, bind, Except.bind]
  refine ⟨rfl, ?_, ?_, ?_⟩
  · simp only
    unfold FinderObj.forward
    rw [if_pos rfl]
    split_ifs
    · rfl
    · rw [hseq]
      rfl
  · simp only
    unfold FinderObj.forward
    rw [if_neg (by decide), if_pos rfl, hseq]
    rfl
  · intro hbc
    obtain ⟨bc, hbc⟩ := Option.ne_none_iff_exists'.mp hbc
    have hhead : (List.ofFn bc).head? = some (bc ⟨0, c'.specimen.pos⟩) := by
      rw [List.head?_eq_getElem?, List.getElem?_ofFn]
      simp [c'.specimen.pos]
    have hvec : G.vectorised = .error .runtimeError := by
      unfold FinderObj.vectorised
      rw [g1]
      simp only [orRaise, bind, Except.bind]
      rw [hbc]
      simp only
      rw [hhead]
      simp only [g2, hcfg]
    simp only
    unfold FinderObj.forward
    rw [if_neg (by decide), if_neg (by decide), if_pos rfl, hvec]
    rfl

/-- **C161 is violated for weights that are not a tensor.** Weights given as a list or an array are ignored
without a warning: every time has the weight 1. -/
theorem C161_weights_violated (F F' : FinderObj) (c : FinderCall) (h : setSpecimen F c = (F', none))
    (hn : F.normalization = false) (hw : c.weights = .other) :
    F'.forward "sequential_element" = .ok (weightedLoss c.factor (fun _ => 1) fun t =>
      residualLoss none (c.specimen.internal t) (c.specimen.reaction t) c.specimen.flags) := by
  have hk := setSpecimen_keeps F c
  rw [h] at hk
  obtain ⟨h1, h2, -, h4, -⟩ := setSpecimen_ok h
  rw [hw] at h4
  have hseq := sequential_of (F := F') (b := none) h1 (lossConfig_of (.inl ⟨hk.2.1.trans hn, rfl⟩)) h4
    (w := fun _ => 1) (fun t => by simp)
  unfold FinderObj.forward
  rw [if_neg (by decide), if_pos rfl, hseq]
  simp only [bind, Except.bind]
  rw [h2]
  simp only [orRaise, pure, Except.pure]
  rw [scaledLoss_eq]
  rfl

/-! ### A case -/

/-- One node and one direction, with the internal force 3 and the reaction 1 at `T + 1` times. -/
def barSpecimen (T : ℕ) : FinderSpecimen where
  N := 1
  n := 1
  T := T + 1
  pos := Nat.succ_pos T
  internal := fun _ _ _ => 3
  reaction := fun _ _ _ => 1
  bc := some fun _ _ _ => 1
  flags := fun _ _ => 1

/-- A finder without specimen. -/
def bareFinder : FinderObj :=
  ⟨"finder", .pointwise, false, false, .cpu, none, none, none, none, ⟨some [], []⟩⟩

def firstCall : FinderCall := ⟨barSpecimen 1, ["1"], none, none, none, .tensor [2] [5, 7]⟩

def secondCall : FinderCall := ⟨barSpecimen 0, ["1"], none, none, some 10, .tensor [3] [1, 1, 1]⟩

theorem barSpecimen_check (T : ℕ) : (barSpecimen T).check .pointwise = .ok () := by
  simp [FinderSpecimen.check, barSpecimen, checkDirichletBc, raiseIf]

theorem barSpecimen_loss (T : ℕ) (t : Fin (T + 1)) :
    residualLoss none ((barSpecimen T).internal t) ((barSpecimen T).reaction t) (barSpecimen T).flags = 4 := by
  change ∑ i : Fin 1, ∑ j : Fin 1, ((3 : ℝ) - 0 - if (1 : ℤ) = 1 then 1 else 0) ^ 2 = 4
  simp
  norm_num

example : ∃ F', setSpecimen (afterCalls bareFinder [secondCall]) firstCall = (F', none) ∧
    F'.forward "sequential_time" = .ok 48 ∧ F'.forward "sequential_element_vmap" = .ok 48 := by
  have hacc : (setSpecimen (afterCalls bareFinder [secondCall]) firstCall).2 = none := by
    rw [(C161_specimen _ _).1]
    have hk := afterCalls_keeps [secondCall] bareFinder
    refine ⟨?_, ?_, ?_⟩
    · rw [hk.1]
      exact barSpecimen_check 1
    · rw [hk.2.1]
      intro h
      cases h
    · intro shape vals h
      cases h
      rfl
  have h : setSpecimen (afterCalls bareFinder [secondCall]) firstCall
      = ((setSpecimen (afterCalls bareFinder [secondCall]) firstCall).1, none) := Prod.ext rfl hacc
  obtain ⟨h1, h2, h3⟩ := C161_loss bareFinder _ [secondCall] firstCall h ![5, 7]
    (.inr (by simp [firstCall, barSpecimen])) none (.inl ⟨rfl, rfl⟩)
  have hval : weightedLoss (T := 2) none ![5, 7] (fun t => residualLoss none
      ((barSpecimen 1).internal t) ((barSpecimen 1).reaction t) (barSpecimen 1).flags) = 48 := by
    refine (congrArg (weightedLoss (T := 2) none ![5, 7]) (funext (barSpecimen_loss 1))).trans ?_
    simp [weightedLoss, Fin.sum_univ_two]
    norm_num
  refine ⟨_, h, ?_, ?_⟩
  · rw [h2 rfl, h1]
    exact congrArg Except.ok hval
  · rw [h3 rfl _ rfl]
    exact congrArg Except.ok hval

example : ∃ F', setSpecimen bareFinder firstCall = (F', none) ∧
    (setSpecimen F' secondCall).2 = some .runtimeError ∧
    (setSpecimen F' secondCall).1.forward "sequential_time" = .ok 200 := by
  have hacc : (setSpecimen bareFinder firstCall).2 = none := by
    rw [(C161_specimen _ _).1]
    refine ⟨barSpecimen_check 1, fun h => (by cases h), ?_⟩
    intro shape vals h
    cases h
    rfl
  have h : setSpecimen bareFinder firstCall = ((setSpecimen bareFinder firstCall).1, none) :=
    Prod.ext rfl hacc
  obtain ⟨h1, h2⟩ := C161_refused_violated bareFinder _ firstCall secondCall h rfl rfl [5, 7] rfl
    (by simp [secondCall, barSpecimen]) (barSpecimen_check 0) [1, 1, 1]
    (by simp [secondCall, barSpecimen]) rfl
  refine ⟨_, h, h1, h2.trans (congrArg Except.ok ?_)⟩
  have hval : weightedLoss (T := 1) (some 10) (fun t => [5, 7].getD t 0) (fun t => residualLoss none
      ((barSpecimen 0).internal t) ((barSpecimen 0).reaction t) (barSpecimen 0).flags) = 200 := by
    refine (congrArg (weightedLoss (T := 1) (some 10) fun t => [5, 7].getD t 0)
      (funext (barSpecimen_loss 0))).trans ?_
    simp [weightedLoss]
    norm_num
  exact hval

/-- A finder that normalises the forces. -/
def scalingFinder : FinderObj :=
  ⟨"finder", .pointwise, true, false, .cpu, none, some none, none, none, ⟨some [], []⟩⟩

def boundedCall : FinderCall := ⟨barSpecimen 1, ["1"], some [0], some [2], none, .tensor [2] [5, 7]⟩

theorem boundedCall_accepted : setSpecimen scalingFinder boundedCall
    = ((setSpecimen scalingFinder boundedCall).1, none) := by
  refine Prod.ext rfl ?_
  rw [(C161_specimen _ _).1]
  refine ⟨barSpecimen_check 1, fun _ => ⟨[0], [2], rfl, rfl, rfl, rfl⟩, ?_⟩
  intro shape vals h
  cases h
  rfl

example : (setSpecimen (setSpecimen scalingFinder boundedCall).1 secondCall).2 = some .runtimeError ∧
    (setSpecimen (setSpecimen scalingFinder boundedCall).1 secondCall).1.forward "sequential_element"
      = .ok 45 := by
  obtain ⟨h1, h2⟩ := C161_bounds_violated scalingFinder _ boundedCall secondCall boundedCall_accepted rfl
    [0] [2] [5, 7] rfl rfl rfl (barSpecimen_check 0) (.inl rfl) rfl (by simp [secondCall, barSpecimen])
  refine ⟨h1, h2.trans (congrArg Except.ok ?_)⟩
  change weightedLoss (T := 1) none (fun t => [5, 7].getD t 0) (fun t => ∑ i : Fin 1, ∑ j : Fin 1,
    (scaledForce (some (fun j : Fin 1 => [0].getD j 0, fun j : Fin 1 => [2].getD j 0)) j 3
      - scaledForce (some (fun j : Fin 1 => [0].getD j 0, fun j : Fin 1 => [2].getD j 0)) j 0
      - if (1 : ℤ) = 1 then
          scaledForce (some (fun j : Fin 1 => [0].getD j 0, fun j : Fin 1 => [2].getD j 0)) j 1
        else 0) ^ 2) = 45
  simp [weightedLoss, scaledForce]
  norm_num

/-- One node and two directions. -/
def planeSpecimen : FinderSpecimen where
  N := 1
  n := 2
  T := 1
  pos := Nat.one_pos
  internal := fun _ _ _ => 3
  reaction := fun _ _ _ => 1
  bc := some fun _ _ _ => 1
  flags := fun _ _ => 1

example : (setSpecimen (setSpecimen scalingFinder boundedCall).1
    ⟨planeSpecimen, ["1"], none, none, none, .none⟩).1.forward "sequential_element"
      = .error .runtimeError :=
  (C161_dimension scalingFinder _ boundedCall ⟨planeSpecimen, ["1"], none, none, none, .none⟩
    boundedCall_accepted rfl ![5, 7] (.inr (by simp [boundedCall, barSpecimen]))
    (by simp [FinderSpecimen.check, planeSpecimen, checkDirichletBc, raiseIf, scalingFinder]) (.inl rfl)
    (by simp [boundedCall, barSpecimen, planeSpecimen])).2.2.1

end Hooke
