import Verif.Spec.ModelInit
import Verif.Lemmas.PyDict
import Verif.Lemmas.Py

/-!
# C77: a model is rebuilt from its initialization file, with its data scalers
-/

namespace Hooke

open Spec

noncomputable section

variable {σ : Type}

theorem exceptMap_ok {α β : Type} {x : Py α} {f : α → β} {b : β} (h : x.map f = .ok b) :
    ∃ a, x = .ok a ∧ f a = b := by
  cases x with
  | error e => cases h
  | ok a => exact ⟨a, rfl, by simpa [Except.map] using h⟩

/-- The rest of the constructor of a model that is not saved. -/
theorem gruConstruct_ok {cuda : Bool} {args : PyDict ArgVal} {isSave : Bool} {d d' : InitDisk σ}
    {m : GruObj σ} (h : gruConstruct cuda args isSave d = .ok (m, d')) :
    (∀ k ∈ KDict.keys args, k ∈ gruArgNames) ∧
    args.get? "n_features_in" = some m.nFeaturesIn ∧
    args.get? "n_features_out" = some m.nFeaturesOut ∧
    args.get? "hidden_layer_size" = some m.hiddenLayerSize ∧
    (∃ v, args.get? "model_directory" = some v ∧ checkDirectory d v = .ok m.directory) ∧
    m.name = (args.get? "model_name").getD (.str "gru_material_model") ∧
    m.name.isStrOrNone = true ∧
    ((args.get? "device_type").getD (.str "cpu")).asStr = some m.device ∧
    (m.device = "cpu" ∨ m.device = "cuda" ∧ cuda = true) ∧
    m.nRecurrentLayers = (args.get? "n_recurrent_layers").getD (.nat 1) ∧
    m.dropout = (args.get? "dropout").getD (.real 0) ∧
    m.inNormalized = (args.get? "is_model_in_normalized").getD (.bool false) ∧
    m.outNormalized = (args.get? "is_model_out_normalized").getD (.bool false) ∧
    m.source = (args.get? "gru_model_source").getD (.str "torch") ∧
    m.isSaveInit = isSave ∧ m.scalers = ⟨none, none⟩ ∧
    (if isSave then m.save d = .ok d' else d' = d) := by
  unfold gruConstruct at h
  obtain ⟨_, h1, h⟩ := bind_ok h
  obtain ⟨nIn, h2, h⟩ := bind_ok h
  obtain ⟨nOut, h3, h⟩ := bind_ok h
  obtain ⟨hid, h4, h⟩ := bind_ok h
  obtain ⟨dv, h5, h⟩ := bind_ok h
  obtain ⟨dir, h6, h⟩ := bind_ok h
  obtain ⟨_, h7, h⟩ := bind_ok h
  obtain ⟨dev, h8, h⟩ := bind_ok h
  obtain ⟨m1, h9, h⟩ := bind_ok h
  rw [raiseIf_ok] at h1 h7
  rw [orRaise_ok] at h2 h3 h4 h5 h8
  unfold GruObj.setDevice at h9
  obtain ⟨_, h10, h9⟩ := bind_ok h9
  obtain ⟨_, h11, h9⟩ := bind_ok h9
  rw [raiseIf_ok] at h10 h11
  cases h9
  have hk : ∀ k ∈ KDict.keys args, k ∈ gruArgNames := by
    intro k hk
    by_contra hn
    exact h1 ⟨k, hk, hn⟩
  have hdev : dev = "cpu" ∨ dev = "cuda" ∧ cuda = true := by
    by_cases hc : dev = "cpu"
    · exact .inl hc
    · right
      have hcu : dev = "cuda" := by by_contra hcu; exact h10 ⟨hc, hcu⟩
      refine ⟨hcu, ?_⟩
      cases cuda
      · exact absurd ⟨hcu, rfl⟩ h11
      · rfl
  have hname := Bool.eq_true_of_not_eq_false h7
  cases isSave
  · simp only [Bool.false_eq_true, if_false] at h
    cases h
    exact ⟨hk, h2, h3, h4, ⟨dv, h5, h6⟩, rfl, hname, h8, hdev, rfl, rfl, rfl, rfl, rfl, rfl, rfl, by
      simp⟩
  · simp only [if_true] at h
    obtain ⟨d2, hs, h⟩ := exceptMap_ok h
    simp only [Prod.mk.injEq] at h
    obtain ⟨rfl, rfl⟩ := h
    exact ⟨hk, h2, h3, h4, ⟨dv, h5, h6⟩, rfl, hname, h8, hdev, rfl, rfl, rfl, rfl, rfl, rfl, rfl,
      by simpa using hs⟩

/-- A model as built by the constructor. -/
def GoodModel (cuda : Bool) (m : GruObj σ) : Prop :=
  m.name.isStrOrNone = true ∧ (m.device = "cpu" ∨ m.device = "cuda" ∧ cuda = true)

theorem rebuild {cuda : Bool} {m : GruObj σ} (hm : GoodModel cuda m) {d : InitDisk σ}
    {dir : String} (hd : d.isDir dir = true) :
    gruConstruct cuda (KDict.put m.initArgs "model_directory" (.str dir)) false d =
      .ok ({ m with directory := some dir, isSaveInit := false, scalers := ⟨none, none⟩ }, d) := by
  obtain ⟨hn, hdev⟩ := hm
  have hk : ¬ ∃ k ∈ KDict.keys (m.initArgs.put "model_directory" (.str dir)), k ∉ gruArgNames := by
    simp [GruObj.initArgs, KDict.put, KDict.keys, gruArgNames]
  have hdev' : ¬ (m.device ≠ "cpu" ∧ m.device ≠ "cuda") ∧ ¬ (m.device = "cuda" ∧ cuda = false) := by
    rcases hdev with h | ⟨h, h'⟩
    · simp [h]
    · simp [h, h']
  simp only [gruConstruct, raiseIf, if_neg hk, GruObj.setDevice]
  simp [GruObj.initArgs, KDict.put, KDict.get?, orRaise, checkDirectory, hd, bind, Except.bind, hn,
    raiseIf, ArgVal.asStr, hdev'.1, hdev'.2]

theorem read_write (d : InitDisk σ) (dir : String) (a : PyDict ArgVal) (s : Scalers2 σ) :
    (d.write dir (.complete a s)).read dir = .ok (a, s) := by
  simp [InitDisk.read, InitDisk.write]

/-- Loading the saved arguments of `m`, from any directory. -/
theorem load_saved {cuda : Bool} {m : GruObj σ} (hm : GoodModel cuda m) {d : InitDisk σ}
    {dir : String} (hd : d.isDir dir = true)
    (hf : d.read dir = .ok (m.initArgs, m.scalers)) :
    initModelFromFile cuda d dir =
      .ok { m with directory := some dir, isSaveInit := false } := by
  simp [initModelFromFile, hd, hf, raiseIf, bind, Except.bind, rebuild hm hd]

/-- A model that saves its file, and whose file is up to date. -/
structure InitInv (cuda : Bool) (dir : String) (w : ModelWorld σ) : Prop where
  good : GoodModel cuda w.model
  saves : w.model.isSaveInit = true
  dir_eq : w.model.directory = some dir
  isDir : w.disk.isDir dir = true
  file : w.disk.read dir = .ok (w.model.initArgs, w.model.scalers)

theorem save_ok {m : GruObj σ} {d : InitDisk σ} {dir : String} (h : m.directory = some dir)
    (hd : d.isDir dir = true) :
    m.save d = .ok (d.write dir (.complete m.initArgs m.scalers)) := by
  simp [GruObj.save, h, hd, orRaise, raiseIf, bind, Except.bind]

theorem saveIf_inv {cuda : Bool} {dir : String} {w : ModelWorld σ} (h : InitInv cuda dir w)
    (s : Scalers2 σ) :
    ∃ w', (w.withScalers s).saveIf = (w', .ok ()) ∧ InitInv cuda dir w' ∧
      w'.model = { w.model with scalers := s } := by
  have hs : GruObj.save { w.model with scalers := s } w.disk =
      .ok (w.disk.write dir (.complete w.model.initArgs s)) :=
    save_ok (m := { w.model with scalers := s }) h.dir_eq h.isDir
  refine ⟨⟨{ w.model with scalers := s }, w.disk.write dir (.complete w.model.initArgs s)⟩,
    ?_, ⟨h.good, h.saves, h.dir_eq, ?_, ?_⟩, rfl⟩
  · have e : (w.withScalers s).model.isSaveInit = true := h.saves
    have hs' : (w.withScalers s).model.save (w.withScalers s).disk =
      .ok (w.disk.write dir (.complete w.model.initArgs s)) := hs
    rw [ModelWorld.saveIf, if_pos e, hs']
    rfl
  · exact h.isDir
  · exact read_write _ _ _ _

theorem apply_inv {cuda : Bool} {dir : String} {w w' : ModelWorld σ} (h : InitInv cuda dir w)
    {op : ScalerOp σ} {u : Unit} (ha : op.apply w = (w', .ok u)) :
    InitInv cuda dir w' ∧
      w'.model = { w.model with scalers := lastScalers w.model.scalers [op] } := by
  cases op with
  | set i o =>
    obtain ⟨w2, e, hi, hm⟩ := saveIf_inv h ⟨i, o⟩
    rw [ScalerOp.apply, e] at ha
    cases ha
    exact ⟨hi, hm⟩
  | fit i o =>
    cases i with
    | error e => cases o <;> simp [ScalerOp.apply] at ha
    | ok a =>
      cases o with
      | error e => simp [ScalerOp.apply] at ha
      | ok b =>
        obtain ⟨w2, e, hi, hm⟩ := saveIf_inv h ⟨some a, some b⟩
        rw [ScalerOp.apply, e] at ha
        cases ha
        exact ⟨hi, hm⟩
  | setFitted => simp [ScalerOp.apply] at ha
  | load =>
    simp only [ScalerOp.apply, h.dir_eq, h.isDir, h.file] at ha
    simp only [Bool.true_eq_false, if_false, Prod.mk.injEq] at ha
    obtain ⟨rfl, _⟩ := ha
    exact ⟨⟨h.good, h.saves, h.dir_eq, h.isDir, h.file⟩, rfl⟩

theorem lastScalers_cons (s : Scalers2 σ) (op : ScalerOp σ) (ops : List (ScalerOp σ)) :
    lastScalers s (op :: ops) = lastScalers (lastScalers s [op]) ops := by
  cases op with
  | fit i o => cases i <;> cases o <;> rfl
  | _ => rfl

theorem runOps_inv {cuda : Bool} {dir : String} (ops : List (ScalerOp σ)) :
    ∀ {w w' : ModelWorld σ}, InitInv cuda dir w → runOps w ops = some w' →
      InitInv cuda dir w' ∧
        w'.model = { w.model with scalers := lastScalers w.model.scalers ops } := by
  induction ops with
  | nil =>
    intro w w' h hr
    simp only [runOps, Option.some.injEq] at hr
    subst hr
    exact ⟨h, rfl⟩
  | cons op ops ih =>
    intro w w' h hr
    rw [runOps] at hr
    rcases ha : op.apply w with ⟨w1, r⟩
    rw [ha] at hr
    cases r with
    | error e => simp at hr
    | ok u =>
      obtain ⟨h1, e1⟩ := apply_inv h ha
      obtain ⟨h2, e2⟩ := ih h1 hr
      refine ⟨h2, ?_⟩
      rw [e2, e1, lastScalers_cons w.model.scalers op ops]

/-- The file of a new model is up to date. -/
theorem construct_inv {cuda : Bool} {args : PyDict ArgVal} {d d' : InitDisk σ} {m : GruObj σ}
    (h : gruConstruct cuda args true d = .ok (m, d')) :
    ∃ dir, args.get? "model_directory" = some (.str dir) ∧ InitInv cuda dir ⟨m, d'⟩ := by
  obtain ⟨-, -, -, -, ⟨v, hv, hc⟩, -, hn, -, hdev, -, -, -, -, -, hs, -, hsave⟩ :=
    gruConstruct_ok h
  simp only [if_true] at hsave
  cases v with
  | str dir =>
    simp only [checkDirectory] at hc
    split at hc
    · rename_i hd
      simp only [Except.ok.injEq] at hc
      rw [save_ok hc.symm hd] at hsave
      cases hsave
      exact ⟨dir, hv, ⟨⟨hn, hdev⟩, hs, hc.symm, hd, read_write _ _ _ _⟩⟩
    · cases hc
  | none =>
    simp only [checkDirectory, Except.ok.injEq] at hc
    simp [GruObj.save, ← hc, orRaise, bind, Except.bind] at hsave
  | nat n => simp [checkDirectory] at hc
  | real n => simp [checkDirectory] at hc
  | bool n => simp [checkDirectory] at hc

theorem asStr_some {v : ArgVal} {s : String} (h : v.asStr = some s) : v = .str s := by
  cases v <;> simp_all [ArgVal.asStr]

/-- Every attribute of a new model is the argument given by the user, or its default value. -/
theorem construct_attribute {cuda isSave : Bool} {args : PyDict ArgVal} {d d' : InitDisk σ}
    {m : GruObj σ} (h : gruConstruct cuda args isSave d = .ok (m, d')) {k : String}
    (hk : k ∈ gruArgNames) :
    modelAttribute m k = (args.get? k).or (defaultArgument k) := by
  obtain ⟨-, h1, h2, h3, ⟨v, hv, hc⟩, h4, -, h5, -, h6, h7, h8, h9, h10, -⟩ := gruConstruct_ok h
  have ho : ∀ (o : Option ArgVal) (v : ArgVal), o.or (some v) = some (o.getD v) := by
    intro o v; cases o <;> rfl
  simp only [gruArgNames, List.mem_cons, List.not_mem_nil, or_false] at hk
  rcases hk with rfl | rfl | rfl | rfl | rfl | rfl | rfl | rfl | rfl | rfl | rfl
  · simp [modelAttribute, h1]
  · simp [modelAttribute, h2]
  · simp [modelAttribute, h3]
  · cases v with
    | str dir =>
      simp only [checkDirectory] at hc
      split at hc
      · simp only [Except.ok.injEq] at hc
        simp [modelAttribute, hv, ← hc]
      · cases hc
    | none =>
      simp only [checkDirectory, Except.ok.injEq] at hc
      simp [modelAttribute, hv, ← hc]
    | nat n => simp [checkDirectory] at hc
    | real n => simp [checkDirectory] at hc
    | bool n => simp [checkDirectory] at hc
  · simp only [modelAttribute, defaultArgument, ho, h4]
  · simp only [modelAttribute, defaultArgument, ho, h8]
  · simp only [modelAttribute, defaultArgument, ho, h9]
  · simp only [modelAttribute, defaultArgument, ho, h6]
  · simp only [modelAttribute, defaultArgument, ho, h7]
  · simp only [modelAttribute, defaultArgument, ho, h10]
  · simp only [modelAttribute, defaultArgument, ho, asStr_some h5]

theorem initArgs_names (m : GruObj σ) {k : String} (hk : k ∉ gruArgNames) :
    modelAttribute m k = none := by
  simp only [gruArgNames, List.mem_cons, List.not_mem_nil, or_false, not_or] at hk
  unfold modelAttribute
  split <;> simp_all

/-! ### The property -/

/-- C77.  A model is created in a directory with the option that saves its initialization file, and
any number of operations set, fit or load its scalers without raising.  A model initialized from
the directory then has the arguments the first one was created with (or their default values), and
the scalers that were set or fitted last, which are also those of the model in memory. -/
theorem C77_reload {cuda : Bool} {args : PyDict ArgVal} {d d' : InitDisk σ} {m : GruObj σ}
    (h : gruConstruct cuda args true d = .ok (m, d')) {ops : List (ScalerOp σ)}
    {w : ModelWorld σ} (hr : runOps ⟨m, d'⟩ ops = some w) :
    ∃ dir m', args.get? "model_directory" = some (.str dir) ∧
      initModelFromFile cuda w.disk dir = .ok m' ∧
      (∀ k ∈ gruArgNames, modelAttribute m' k = (args.get? k).or (defaultArgument k)) ∧
      m'.scalers = lastScalers ⟨none, none⟩ ops ∧ w.model.scalers = m'.scalers := by
  obtain ⟨dir, hdir, hi⟩ := construct_inv h
  obtain ⟨hw, em⟩ := runOps_inv ops hi hr
  have hsc : m.scalers = ⟨none, none⟩ := (gruConstruct_ok h).2.2.2.2.2.2.2.2.2.2.2.2.2.2.2.1
  refine ⟨dir, { w.model with directory := some dir, isSaveInit := false }, hdir,
    load_saved hw.good hw.isDir hw.file, ?_, ?_, rfl⟩
  · intro k hk
    rw [← construct_attribute h hk, em]
    have hd : m.directory = some dir := hi.dir_eq
    unfold modelAttribute
    split <;> first | rfl | rw [hd]
  · rw [em, ← hsc]

/-- C77.  The directory can be moved: a model initialized from a copy of the file in any other
directory differs only by its directory. -/
theorem C77_relocate {cuda : Bool} {args : PyDict ArgVal} {d d' d2 : InitDisk σ} {m : GruObj σ}
    (h : gruConstruct cuda args true d = .ok (m, d')) {ops : List (ScalerOp σ)}
    {w : ModelWorld σ} (hr : runOps ⟨m, d'⟩ ops = some w) {dir dir2 : String}
    (hdir : args.get? "model_directory" = some (.str dir)) (hd2 : d2.isDir dir2 = true)
    (hcopy : d2.file dir2 = w.disk.file dir) :
    ∃ m', initModelFromFile cuda d2 dir2 = .ok m' ∧ m'.directory = some dir2 ∧
      (∀ k ∈ gruArgNames, k ≠ "model_directory" →
        modelAttribute m' k = (args.get? k).or (defaultArgument k)) ∧
      m'.scalers = lastScalers ⟨none, none⟩ ops := by
  obtain ⟨dir', hdir', hi⟩ := construct_inv h
  obtain rfl : dir' = dir := by
    rw [hdir] at hdir'
    simpa using hdir'.symm
  obtain ⟨hw, em⟩ := runOps_inv ops hi hr
  have hsc : m.scalers = ⟨none, none⟩ := (gruConstruct_ok h).2.2.2.2.2.2.2.2.2.2.2.2.2.2.2.1
  have hf : d2.read dir2 = .ok (w.model.initArgs, w.model.scalers) := by
    rw [← hw.file]
    simp only [InitDisk.read, hcopy]
  refine ⟨{ w.model with directory := some dir2, isSaveInit := false },
    load_saved hw.good hd2 hf, rfl, ?_, ?_⟩
  · intro k hk hne
    rw [← construct_attribute h hk, em]
    unfold modelAttribute
    split <;> first | rfl | exact absurd rfl hne
  · rw [em, ← hsc]

/-- C77.  On a model that saves its file, setting scalers and fitting them on a data set on which
the fit does not raise always succeed. -/
theorem C77_operations {cuda : Bool} {args : PyDict ArgVal} {d d' : InitDisk σ} {m : GruObj σ}
    (h : gruConstruct cuda args true d = .ok (m, d')) {ops : List (ScalerOp σ)}
    (ho : ∀ op ∈ ops, (∃ i o, op = .set i o) ∨ (∃ i o, op = .fit (.ok i) (.ok o)) ∨ op = .load) :
    ∃ w, runOps ⟨m, d'⟩ ops = some w := by
  obtain ⟨dir, -, hi⟩ := construct_inv h
  clear h
  generalize (⟨m, d'⟩ : ModelWorld σ) = w0 at hi
  induction ops generalizing w0 with
  | nil => exact ⟨w0, rfl⟩
  | cons op ops ih =>
    have ho' := fun op' h' => ho op' (List.mem_cons_of_mem _ h')
    have key : ∃ w1, op.apply w0 = (w1, .ok ()) ∧ InitInv cuda dir w1 := by
      rcases ho op List.mem_cons_self with ⟨i, o, rfl⟩ | ⟨i, o, rfl⟩ | rfl
      · obtain ⟨w1, e, hw, -⟩ := saveIf_inv hi ⟨i, o⟩
        exact ⟨w1, e, hw⟩
      · obtain ⟨w1, e, hw, -⟩ := saveIf_inv hi ⟨some i, some o⟩
        exact ⟨w1, e, hw⟩
      · have e : ScalerOp.apply w0 .load = (w0.withScalers w0.model.scalers, .ok ()) := by
          simp [ScalerOp.apply, hi.dir_eq, hi.isDir, hi.file]
        exact ⟨_, e, (apply_inv hi e).1⟩
    obtain ⟨w1, e1, hi1⟩ := key
    obtain ⟨w, hw⟩ := ih ho' w1 hi1
    exact ⟨w, by rw [runOps, e1]; exact hw⟩

/-- C77, exceptions.  A directory that does not exist or has no initialization file raises
`RuntimeError`. -/
theorem C77_missing (cuda : Bool) (d : InitDisk σ) (dir : String)
    (h : d.isDir dir = false ∨ d.file dir = none) :
    initModelFromFile cuda d dir = .error .runtimeError := by
  rcases h with h | h
  · simp [initModelFromFile, h, raiseIf, bind, Except.bind]
  · cases hd : d.isDir dir <;>
      simp [initModelFromFile, h, hd, raiseIf, bind, Except.bind, InitDisk.read]

/-! ### Violations -/

/-- C77, violated: the scalers of a model initialized from a file are not saved any more.  Whatever
is set on it, the directory gives back the old ones. -/
theorem C77_reloaded_violated {cuda : Bool} {d : InitDisk σ} {dir : String} {m : GruObj σ}
    (h : initModelFromFile cuda d dir = .ok m) {ops : List (ScalerOp σ)} {w : ModelWorld σ}
    (hr : runOps ⟨m, d⟩ ops = some w) :
    initModelFromFile cuda w.disk dir = .ok m := by
  have hs : m.isSaveInit = false := by
    unfold initModelFromFile at h
    obtain ⟨_, -, h⟩ := bind_ok h
    obtain ⟨r, -, h⟩ := bind_ok h
    obtain ⟨⟨m1, d1⟩, h1, h⟩ := bind_ok h
    simp only [Except.ok.injEq] at h
    subst h
    exact (gruConstruct_ok h1).2.2.2.2.2.2.2.2.2.2.2.2.2.2.1
  have key : ∀ (ops : List (ScalerOp σ)) (w0 w : ModelWorld σ), w0.model.isSaveInit = false →
      runOps w0 ops = some w → w.disk = w0.disk := by
    intro ops
    induction ops with
    | nil =>
      intro w0 w _ h
      simp only [runOps, Option.some.injEq] at h
      rw [h]
    | cons op ops ih =>
      intro w0 w hw h
      rw [runOps] at h
      rcases ha : op.apply w0 with ⟨w1, r⟩
      rw [ha] at h
      cases r with
      | error e => simp at h
      | ok u =>
        have h1 : w1.disk = w0.disk ∧ w1.model.isSaveInit = false := by
          cases op with
          | set i o =>
            simp only [ScalerOp.apply, ModelWorld.saveIf, ModelWorld.withScalers, hw,
              Bool.false_eq_true, if_false, Prod.mk.injEq] at ha
            obtain ⟨rfl, -⟩ := ha
            exact ⟨rfl, rfl⟩
          | fit i o =>
            cases i with
            | error e => cases o <;> simp [ScalerOp.apply] at ha
            | ok a =>
              cases o with
              | error e => simp [ScalerOp.apply] at ha
              | ok b =>
                simp only [ScalerOp.apply, ModelWorld.saveIf, ModelWorld.withScalers, hw,
                  Bool.false_eq_true, if_false, Prod.mk.injEq] at ha
                obtain ⟨rfl, -⟩ := ha
                exact ⟨rfl, rfl⟩
          | setFitted => simp [ScalerOp.apply] at ha
          | load =>
            simp only [ScalerOp.apply] at ha
            split at ha
            · simp at ha
            · split at ha
              · simp at ha
              · split at ha
                · simp only [Prod.mk.injEq] at ha
                  obtain ⟨rfl, -⟩ := ha
                  exact ⟨rfl, hw⟩
                · simp at ha
        rw [ih w1 w h1.2 h, h1.1]
  rw [key ops ⟨m, d⟩ w hs hr]
  exact h

/-- C77, violated: a fit that raises removes the scalers from the model but not from its file. -/
theorem C77_failed_fit_violated {cuda : Bool} {args : PyDict ArgVal} {d d' : InitDisk σ}
    {m : GruObj σ} (h : gruConstruct cuda args true d = .ok (m, d')) (a b : σ) (i o : Py σ)
    (e : PyErr) (he : i = .error e ∨ o = .error e) :
    ∃ dir w m' r, args.get? "model_directory" = some (.str dir) ∧
      runOps ⟨m, d'⟩ [.set (some a) (some b)] = some w ∧
      (ScalerOp.fit i o).apply w = r ∧ (∃ e', r.2 = .error e') ∧
      r.1.model.scalers = ⟨none, none⟩ ∧
      initModelFromFile cuda r.1.disk dir = .ok m' ∧ m'.scalers = ⟨some a, some b⟩ := by
  obtain ⟨w, hw⟩ := C77_operations h (ops := [.set (some a) (some b)])
    (by intro op hop; left; exact ⟨some a, some b, by simpa using hop⟩)
  obtain ⟨dir, m', h1, h2, -, h3, -⟩ := C77_reload h hw
  have hr : ∃ e', (ScalerOp.fit i o).apply w = (w.withScalers ⟨none, none⟩, .error e') := by
    cases i with
    | error e1 => exact ⟨e1, by cases o <;> rfl⟩
    | ok x =>
      rcases he with he | he
      · cases he
      · exact ⟨e, by rw [he]; rfl⟩
  obtain ⟨e', hr⟩ := hr
  exact ⟨dir, w, m', _, h1, hw, hr, ⟨e', rfl⟩, rfl, h2, h3⟩

/-- C77, violated: setting scalers from given scaling parameters always raises. -/
theorem C77_set_fitted_violated (w : ModelWorld σ) :
    ScalerOp.setFitted.apply w = (w, .error .attributeError) := rfl

/-- C77, violated: the device of a model cannot be asked for. -/
theorem C77_get_device_violated (m : GruObj σ) : m.getDevice = .error .attributeError := rfl

/-- C77, violated: a model cannot be initialized from the path of a file of the current directory
given without directory (`''` is not a directory). -/
theorem C77_path_violated (cuda : Bool) (d : InitDisk σ) (cwd : String) (hd : d.isDir "" = false)
    (m : GruObj σ) (hf : d.read cwd = .ok (m.initArgs, m.scalers)) :
    initModelFromPath cuda d cwd "" = .error .runtimeError := by
  have hk : ¬ ∃ k ∈ KDict.keys (m.initArgs.put "model_directory" (.str "")), k ∉ gruArgNames := by
    simp [GruObj.initArgs, KDict.put, KDict.keys, gruArgNames]
  simp only [initModelFromPath, if_true, hf, bind, Except.bind, gruConstruct, raiseIf, if_neg hk]
  simp [GruObj.initArgs, KDict.put, KDict.get?, orRaise, checkDirectory, hd]

/-- C77.  With its directory, the path of the file gives the same model as the directory. -/
theorem C77_path (cuda : Bool) (d : InitDisk σ) (cwd dir : String) (hd : d.isDir dir = true)
    (hne : dir ≠ "") : initModelFromPath cuda d cwd dir = initModelFromFile cuda d dir := by
  simp [initModelFromPath, initModelFromFile, hne, hd, raiseIf, bind, Except.bind]

/-- C77, violated: a program interrupted while it saves the file leaves a directory from which no
model can be initialized, although an earlier file was there. -/
theorem C77_crash_violated {cuda : Bool} {args : PyDict ArgVal} {d d' : InitDisk σ}
    {m : GruObj σ} (h : gruConstruct cuda args true d = .ok (m, d')) :
    ∃ dir m', args.get? "model_directory" = some (.str dir) ∧
      initModelFromFile cuda d' dir = .ok m' ∧
      ∀ s, ∃ e, initModelFromFile cuda
        (ModelWorld.crashInSave (ModelWorld.withScalers ⟨m, d'⟩ s) dir) dir = .error e := by
  obtain ⟨dir, hdir, hi⟩ := construct_inv h
  refine ⟨dir, _, hdir, load_saved hi.good hi.isDir hi.file, ?_⟩
  intro s
  have hd : (ModelWorld.crashInSave (ModelWorld.withScalers ⟨m, d'⟩ s) dir).isDir dir = true :=
    hi.isDir
  refine ⟨.osError, ?_⟩
  unfold initModelFromFile
  rw [hd]
  simp [raiseIf, bind, Except.bind, InitDisk.read, ModelWorld.crashInSave, InitDisk.write]

/-- A model of two layers on a disk with one directory, fitted twice: its history succeeds. -/
example : ∃ (m : GruObj ℕ) (d' : InitDisk ℕ) (w : ModelWorld ℕ),
    gruConstruct false
      [("n_features_in", .nat 6), ("n_features_out", .nat 6), ("hidden_layer_size", .nat 20),
       ("model_directory", .str "/m"), ("n_recurrent_layers", .nat 2)] true
      ⟨fun k => k = "/m", fun _ => none⟩ = .ok (m, d') ∧
    runOps ⟨m, d'⟩ [.fit (.ok 1) (.ok 2), .load, .set (some 3) (some 4)] = some w ∧
    w.model.scalers = ⟨some 3, some 4⟩ := by
  have h : ∃ r, gruConstruct (σ := ℕ) false
      [("n_features_in", .nat 6), ("n_features_out", .nat 6), ("hidden_layer_size", .nat 20),
       ("model_directory", .str "/m"), ("n_recurrent_layers", .nat 2)] true
      ⟨fun k => k = "/m", fun _ => none⟩ = .ok r := by
    simp [gruConstruct, KDict.keys, KDict.get?, gruArgNames, raiseIf, orRaise, bind, Except.bind,
      checkDirectory, ArgVal.isStrOrNone, ArgVal.asStr, GruObj.setDevice, GruObj.save, Except.map]
  obtain ⟨⟨m, d'⟩, h⟩ := h
  obtain ⟨w, hw⟩ := C77_operations h (ops := [.fit (.ok 1) (.ok 2), .load, .set (some 3) (some 4)])
    (by
      intro op hop
      simp only [List.mem_cons, List.not_mem_nil, or_false] at hop
      rcases hop with rfl | rfl | rfl
      · exact .inr (.inl ⟨1, 2, rfl⟩)
      · exact .inr (.inr rfl)
      · exact .inl ⟨_, _, rfl⟩)
  obtain ⟨dir, m', -, -, -, hs, hs'⟩ := C77_reload h hw
  exact ⟨m, d', w, h, hw, by rw [hs', hs]; rfl⟩

end

end Hooke
