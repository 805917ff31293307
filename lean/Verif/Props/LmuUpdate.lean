import Verif.Spec.LmuUpdate
import Verif.Props.UncertaintyRuns
import Verif.Props.ConvergenceData
import Verif.Props.StrainPath

/-!
# C138: local model update
-/

namespace Hooke

open Spec

variable {D M P : Type}

theorem datasetHead_iff {s : Text} : datasetHead s = true ↔ ∃ digits post : Text,
    s = "ss_paths_dataset_n".toList ++ digits ++ ".pkl".toList ++ post ∧
      digits ≠ [] ∧ ∀ c ∈ digits, c.isDigit = true := by
  unfold datasetHead
  generalize "ss_paths_dataset_n".toList = w
  constructor
  · intro h
    split at h
    · cases h
    · rename_i r hr
      rw [afterPrefix_eq] at hr
      simp only [Bool.and_eq_true, decide_eq_true_eq, Option.isSome_iff_exists] at h
      obtain ⟨h1, post, h2⟩ := h
      rw [afterPrefix_eq] at h2
      refine ⟨r.takeWhile Char.isDigit, post, ?_, h1, fun c hc => ?_⟩
      · rw [hr, List.append_assoc, List.append_assoc, ← h2, List.takeWhile_append_dropWhile]
      · have := List.all_takeWhile (p := Char.isDigit) (l := r)
        exact List.all_eq_true.mp this c hc
  · rintro ⟨digits, post, rfl, h1, h2⟩
    have h3 : (digits ++ (".pkl".toList ++ post)).takeWhile Char.isDigit = digits := by
      rw [List.takeWhile_append_of_pos h2]
      have : (".pkl".toList ++ post).takeWhile Char.isDigit = [] := rfl
      rw [this, List.append_nil]
    have h4 : (digits ++ (".pkl".toList ++ post)).dropWhile Char.isDigit = ".pkl".toList ++ post := by
      rw [List.dropWhile_append_of_pos h2]
      rfl
    rw [List.append_assoc, List.append_assoc, afterPrefix_append]
    simp only [h3, h4, afterPrefix_append, Option.isSome_some, Bool.and_true, decide_eq_true_eq]
    exact h1

theorem datasetAnywhere_iff {name : Text} : datasetAnywhere name = true ↔ NamesDataset name := by
  simp only [datasetAnywhere, List.any_eq_true, List.mem_tails, datasetHead_iff, NamesDataset]
  generalize "ss_paths_dataset_n".toList = w
  constructor
  · rintro ⟨t, ⟨pre, rfl⟩, digits, post, rfl, h⟩
    exact ⟨pre, digits, post, by simp, h⟩
  · rintro ⟨pre, digits, post, rfl, h⟩
    exact ⟨_, ⟨pre, by simp [List.append_assoc]⟩, digits, post, rfl, h⟩

theorem lmuDatasets_ok {s : LmuDir D M P} {a b c : D} (h : HasDatasets s a b c) :
    lmuDatasets s = .ok (a, b, c) := by
  obtain ⟨fa, ha, ha'⟩ := h.train
  obtain ⟨fb, hb, hb'⟩ := h.valid
  obtain ⟨fc, hc, hc'⟩ := h.test
  have e : ∀ {d : Option (KDict Text D)} {files : KDict Text D} {x : D}, d = some files →
      HoldsOne NamesDataset files x → findDataset d = .ok x := by
    intro d files x hd hx
    rw [hd]
    exact searchDir_one (fun f => datasetAnywhere_iff) hx
  simp only [lmuDatasets, e ha ha', e hb hb', e hc hc', bind, Except.bind]

theorem findDataset_none {dir : Option (KDict Text D)} (h : NoDataset dir) :
    findDataset dir = .error .runtimeError := by
  rcases dir with _ | files
  · rfl
  · have hf : findFile [datasetAnywhere] files.keys = none := by
      simp only [findFile]
      rw [List.find?_eq_none.mpr]
      intro f hf hc
      exact h files rfl f hf (datasetAnywhere_iff.mp hc)
    simp only [findDataset, searchDir, orRaise, hf, bind, Except.bind]

/-! ## Update -/

/-- **C138.** A model update with training: every realization is trained with the data sets of the training
and validation directories and predicts the one of the testing directory; the quantification holds exactly
the realizations of this run, whatever it held before; the working directories are gone, the data sets are
as before. -/
theorem C138_updated (blank : M) (train : D → D → ℕ → M → Py Unit × M) (predict : D → M → Py P)
    (plots : KDict Text (UqSample M P) → Py Unit) (n : ℕ) (isPlots : Bool) (s : LmuDir D M P) (a b c : D)
    (hs : HasDatasets s a b c) (dirs : ℕ → M) (out : ℕ → P) (h0 : dirs 0 = blank)
    (h : UqRuns (train a b) (predict c) n dirs out) (hp : ∀ uq, plots uq = .ok ()) :
    updateModel blank train predict plots n true isPlots s = (.ok (),
      ⟨s.train, s.valid, s.test, none, none, some ((List.range n).map fun i : ℕ =>
        ("model_".toList ++ strNat i,
          ⟨some (dirs (i + 1)), some [("in_distribution".toList, out i)]⟩))⟩) := by
  obtain ⟨u, h1, h2, -⟩ := C136_trained (train a b) (predict c) lmuTesting n ⟨[], blank, none⟩ dirs out h0 h
  have hpl : (if isPlots then plots u.uq else .ok ()) = .ok () := by
    cases isPlots
    · rfl
    · exact hp _
  simp only [updateModel, lmuDatasets_ok hs, if_true, h1]
  rw [hpl, h2]
  rfl

/-- **C138.** An update without training keeps all models, adds the predictions of the testing data set to
each of the first `n` realizations, and changes no other realization. -/
theorem C138_predicted (blank : M) (train : D → D → ℕ → M → Py Unit × M) (predict : D → M → Py P)
    (plots : KDict Text (UqSample M P) → Py Unit) (n : ℕ) (isPlots : Bool) (s s' : LmuDir D M P)
    (a b c : D) (hs : HasDatasets s a b c) (uq : KDict Text (UqSample M P)) (hu : s.uq = some uq)
    (h : updateModel blank train predict plots n false isPlots s = (.ok (), s')) :
    ∃ uq', s' = ⟨s.train, s.valid, s.test, none, none, some uq'⟩ ∧
      (∀ i < n, ∀ m preds, uq.get? ("model_".toList ++ strNat i) = some ⟨some m, preds⟩ →
        ∃ p, predict c m = .ok p ∧ uq'.get? ("model_".toList ++ strNat i) =
          some (withPrediction ⟨some m, preds⟩ "in_distribution".toList p)) ∧
      ∀ name, (∀ i < n, name ≠ "model_".toList ++ strNat i) → uq'.get? name = uq.get? name := by
  simp only [updateModel, lmuDatasets_ok hs, hu, Option.getD_some, Bool.false_eq_true, if_false] at h
  rcases hr : performUq (train a b) (predict c) lmuTesting false n ⟨uq, blank, none⟩ with ⟨o, u⟩
  rw [hr] at h
  cases o with
  | error e => simp at h
  | ok o =>
    cases o
    simp only at h
    split at h
    · simp at h
    · simp only [Prod.mk.injEq, true_and] at h
      obtain ⟨-, h2, h3⟩ := C136_predicted _ _ _ _ _ _ hr
      exact ⟨u.uq, by rw [← h], h2, fun name hn => h3 name (.inl hn)⟩

/-- **C138.** Without one of the data sets the update is refused, and neither data sets nor realizations are
changed; of an earlier update neither the model nor the predictions are left. -/
theorem C138_missing (blank : M) (train : D → D → ℕ → M → Py Unit × M) (predict : D → M → Py P)
    (plots : KDict Text (UqSample M P) → Py Unit) (n : ℕ) (isTraining isPlots : Bool) (s : LmuDir D M P)
    (h : NoDataset s.train ∨ NoDataset s.valid ∨ NoDataset s.test) :
    ∃ s', updateModel blank train predict plots n isTraining isPlots s = (.error .runtimeError, s') ∧
      s'.train = s.train ∧ s'.valid = s.valid ∧ s'.test = s.test ∧ s'.uq = s.uq ∧ s'.model = some blank ∧
      s'.pred = some [("in_distribution".toList, none)] := by
  have key : lmuDatasets s = .error .runtimeError := by
    have he : ∀ dir : Option (KDict Text D), (∃ x, findDataset dir = .ok x) ∨
        findDataset dir = .error .runtimeError := by
      intro dir
      rcases dir with _ | files
      · exact .inr rfl
      · simp only [findDataset, searchDir, orRaise, bind, Except.bind]
        rcases findFile [datasetAnywhere] files.keys with _ | f
        · exact .inr rfl
        · simp only
          rcases files.get? f with _ | x
          · exact .inr rfl
          · exact .inl ⟨x, rfl⟩
    unfold lmuDatasets
    rcases h with h | h | h
    · simp only [findDataset_none h, bind, Except.bind]
    · rcases he s.train with ⟨x, hx⟩ | hx <;>
        simp only [hx, findDataset_none h, bind, Except.bind]
    · rcases he s.train with ⟨x, hx⟩ | hx
      · rcases he s.valid with ⟨y, hy⟩ | hy <;>
          simp only [hx, hy, findDataset_none h, bind, Except.bind]
      · simp only [hx, bind, Except.bind]
  simp only [updateModel, key]
  exact ⟨_, rfl, rfl, rfl, rfl, rfl, rfl, rfl⟩

/-- **C138.** If the training or the prediction of a realization fails, the update ends with that error, and
the realizations completed before it are kept. -/
theorem C138_stops (blank : M) (train : D → D → ℕ → M → Py Unit × M) (predict : D → M → Py P)
    (plots : KDict Text (UqSample M P) → Py Unit) (n k : ℕ) (hk : k < n) (isPlots : Bool)
    (s : LmuDir D M P) (a b c : D) (hs : HasDatasets s a b c) (dirs : ℕ → M) (out : ℕ → P)
    (h0 : dirs 0 = blank) (h : UqRuns (train a b) (predict c) k dirs out) (e : PyErr)
    (hf : (train a b k (dirs k)).1 = .error e ∨
      train a b k (dirs k) = (.ok (), dirs (k + 1)) ∧ predict c (dirs (k + 1)) = .error e) :
    ∃ s' uq', updateModel blank train predict plots n true isPlots s = (.error e, s') ∧
      s'.uq = some uq' ∧ ∀ i < k, uq'.get? ("model_".toList ++ strNat i) =
        some ⟨some (dirs (i + 1)), some [("in_distribution".toList, out i)]⟩ := by
  obtain ⟨u, h1, h2⟩ := C136_stops (train a b) (predict c) lmuTesting n k hk ⟨[], blank, none⟩ dirs out h0 h
    e hf
  simp only [updateModel, lmuDatasets_ok hs, if_true, h1]
  exact ⟨_, u.uq, rfl, rfl, h2⟩

/-- **C138.** No update, successful or not, changes a data set, and the plots have no influence on the
realizations. -/
theorem C138_data (blank : M) (train : D → D → ℕ → M → Py Unit × M) (predict : D → M → Py P)
    (plots : KDict Text (UqSample M P) → Py Unit) (n : ℕ) (isTraining isPlots : Bool) (s : LmuDir D M P) :
    (updateModel blank train predict plots n isTraining isPlots s).2.train = s.train ∧
      (updateModel blank train predict plots n isTraining isPlots s).2.valid = s.valid ∧
      (updateModel blank train predict plots n isTraining isPlots s).2.test = s.test ∧
      (updateModel blank train predict plots n isTraining isPlots s).2.uq =
        (updateModel blank train predict plots n isTraining false s).2.uq := by
  unfold updateModel
  rcases lmuDatasets s with e | ⟨a, b, c⟩
  · exact ⟨rfl, rfl, rfl, rfl⟩
  · simp only
    rcases performUq (train a b) (predict c) lmuTesting isTraining n
      ⟨if isTraining then [] else s.uq.getD [], blank, none⟩ with ⟨_ | ⟨⟨⟩⟩, u⟩
    · exact ⟨rfl, rfl, rfl, rfl⟩
    · simp only [Bool.false_eq_true, if_false]
      rcases (if isPlots then plots u.uq else .ok () : Py Unit) with e | ⟨⟨⟩⟩ <;>
        exact ⟨rfl, rfl, rfl, rfl⟩

/-- **C138.** The directory of an update is kept unless it is to be overwritten; without the base directory
it is refused. -/
theorem C138_directory (overwrite : Bool) (d : LmuDir D M P) :
    setLmuDir (none : Option (Option (LmuDir D M P))) overwrite = .error .runtimeError ∧
      setLmuDir (some (none : Option (LmuDir D M P))) overwrite = .ok .empty ∧
      setLmuDir (some (some d)) false = .ok d ∧ setLmuDir (some (some d)) true = .ok .empty :=
  ⟨rfl, rfl, rfl, rfl⟩

/-! ## Strain paths -/

theorem symOrder_nodup {nDim : ℕ} (hd : nDim = 2 ∨ nDim = 3) : (symOrder nDim).Nodup := by
  rcases hd with rfl | rfl <;> decide

theorem lmu_keys (b : Bool) (nDim : ℕ) : (lmuPathArgs b nDim).bounds.keys = symOrder nDim := by
  simp [lmuPathArgs, KDict.keys, Function.comp_def]

theorem lmu_get {nDim : ℕ} (hd : nDim = 2 ∨ nDim = 3) {c : SComp} (hc : c ∈ symOrder nDim) :
    (lmuPathArgs true nDim).bounds.get? c = some (-(5 / 100), 5 / 100) := by
  refine get?_of_mem _ ?_ _ _ ?_
  · rw [lmu_keys]
    exact symOrder_nodup hd
  · exact List.mem_map.mpr ⟨c, hc, rfl⟩

theorem lmu_good (nDim : ℕ) : GoodBounds (lmuPathArgs true nDim) := by
  refine ⟨fun k => ?_, fun e he => ?_⟩
  · rw [lmu_keys]
    rfl
  · obtain ⟨c, -, rfl⟩ := List.mem_map.mp he
    norm_num

theorem lmu_notClose : ¬npIsClose (-(5 / 100)) (5 / 100) := by
  unfold npIsClose
  norm_num [abs_of_neg, abs_of_pos]

theorem lmu_generate {nDim : ℕ} (hd : nDim = 2 ∨ nDim = 3) (hist : ℕ → ℝ → ℝ → ℕ → Py (List Fl))
    (noise : ℕ → List ℝ)
    (h : ∀ k, ∃ x : List ℝ, hist k (-(5 / 100)) (5 / 100) 200 = .ok (x.map .fin) ∧ x.length = 200 ∧
      x[0]? = some 0 ∧ ∀ y ∈ x, -(5 / 100) ≤ y ∧ y ≤ 5 / 100) :
    ∃ times p, generatePath (lmuPathArgs true nDim) hist noise = .ok (symOrder nDim, times, p) ∧
      times = (List.range 200).map (fun i : ℕ => (i : ℝ) / 199) ∧ p.length = 200 ∧
      p[0]? = some (List.replicate (symOrder nDim).length (Fl.fin 0)) ∧
      ∀ r ∈ p, ∀ k < (symOrder nDim).length, ∃ x : ℝ, r[k]? = some (Fl.fin x) ∧ -0.05 ≤ x ∧ x ≤ 0.05 := by
  choose x h1 h2 h3 h4 using h
  have hcols : (symOrder nDim).zipIdx.mapM (fun c => do
      let b ← orRaise ((lmuPathArgs true nDim).bounds.get? c.1) .keyError
      hist c.2 b.1 b.2 200) = .ok ((symOrder nDim).zipIdx.map fun c => (x c.2).map .fin) := by
    refine mapM_of_forall (g := fun c : SComp × ℕ => (x c.2).map Fl.fin) fun c hc => ?_
    have hc' : c.1 ∈ symOrder nDim := by
      obtain ⟨c, i⟩ := c
      exact (List.mem_zipIdx' hc).2 ▸ List.getElem_mem _
    simp only [lmu_get hd hc', orRaise, bind, Except.bind]
    exact h1 c.2
  have hget : ∀ i < 200, ∀ k, ((x k).map Fl.fin).getD i .nan = Fl.fin ((x k).getD i 0) := by
    intro i hi k
    have : i < (x k).length := by rw [h2]; exact hi
    simp [List.getD_eq_getElem?_getD, List.getElem?_eq_getElem this]
  refine ⟨_, (List.range 200).map fun i : ℕ => (symOrder nDim).zipIdx.map fun c : SComp × ℕ =>
    ((x c.2).map Fl.fin).getD i .nan, ?_, rfl, by simp, ?_, ?_⟩
  · unfold generatePath
    have hf : (lmuPathArgs true nDim).nForward = .ok 200 := rfl
    rw [hf]
    simp only [bind, Except.bind] at hcols ⊢
    have ho : (lmuPathArgs true nDim).order = symOrder nDim := rfl
    rw [ho, hcols]
    simp only [adjustPath_none (a := lmuPathArgs true nDim) rfl rfl, finishPath]
    simp only [lmuPathArgs, Nat.lt_irrefl, if_false, pure, Except.pure, List.map_map, Function.comp_def,
      npLinspace]
    congr 3
    refine List.map_congr_left fun i _ => ?_
    push_cast
    ring
  · rw [List.getElem?_map]
    simp only [List.getElem?_range, Nat.zero_lt_succ, if_true, Option.map_some, Option.some.injEq]
    refine List.ext_getElem (by simp) fun k hk1 hk2 => ?_
    have : (x k).getD 0 0 = 0 := by rw [List.getD_eq_getElem?_getD, h3 k]; rfl
    simp only [List.getElem_map, List.getElem_zipIdx, List.getElem_replicate, hget 0 (by decide),
      Nat.zero_add, this]
  · intro r hr k hk
    obtain ⟨i, hi, rfl⟩ := List.mem_map.mp hr
    have hi' := List.mem_range.mp hi
    refine ⟨(x k).getD i 0, ?_, ?_⟩
    · rw [List.getElem?_map, List.getElem?_zipIdx, List.getElem?_eq_getElem hk]
      simp only [Option.map_some, hget i hi', Nat.zero_add]
    · have hl : i < (x k).length := by rw [h2]; exact hi'
      have := h4 k ((x k)[i]) (List.getElem_mem hl)
      rw [List.getD_eq_getElem?_getD, List.getElem?_eq_getElem hl, Option.getD_some]
      constructor <;> norm_num at this ⊢
      · linarith [this.1]
      · linarith [this.2]

theorem lmu_random {d : RandomDraws} {k : ℕ} (h : 4 ≤ d.nControl k) :
    ∃ x : List ℝ, randomHist .polynomial (4, 7) d k (-(5 / 100)) (5 / 100) 200 = .ok (x.map .fin) ∧
      x.length = 200 ∧ x[0]? = some 0 ∧ ∀ y ∈ x, -(5 / 100) ≤ y ∧ y ≤ 5 / 100 := by
  obtain ⟨z, hz⟩ : ∃ z, randomNormalized .polynomial d k (-(5 / 100)) (5 / 100) 200 = .ok z := by
    unfold randomNormalized
    have h1 : ¬d.nControl k < 0 := by omega
    have h2 : ¬d.nControl k = 0 := by omega
    simp only [raiseIf, h1, h2, if_false, regression, bind, Except.bind, pure, Except.pure]
    exact ⟨_, rfl⟩
  have hs := C54_random_start d k _ _ lmu_notClose 200 (by decide) z hz
  have hne : denormalize (-(5 / 100)) (5 / 100) z ≠ [] := by
    intro he
    rw [he] at hs
    cases hs
  obtain ⟨f, -, -, hf, -, -⟩ := C55_random_scaling (-(5 / 100)) (5 / 100) (by norm_num) (by norm_num) _ hne
  have hr : randomHist .polynomial (4, 7) d k (-(5 / 100)) (5 / 100) 200 =
      .ok (((denormalize (-(5 / 100)) (5 / 100) z).map fun y => f * y).map .fin) := by
    unfold randomHist
    rw [if_neg lmu_notClose]
    have h7 : ¬(7 : ℤ) < 4 := by decide
    simp only [raiseIf, h7, if_false, hz, hf, bind, Except.bind, List.map_map, Function.comp_def]
  obtain ⟨x, hx, hx1, -, hx2⟩ := randomHist_spec (by norm_num) (by norm_num) hr
  have hinj : x = (denormalize (-(5 / 100)) (5 / 100) z).map fun y => f * y :=
    (List.map_injective_iff.mpr (fun a b hab => by cases hab; rfl) hx).symm
  refine ⟨x, hinj ▸ hr, hx1, ?_, hx2 rfl⟩
  rw [hinj, List.getElem?_map, hs]
  simp

theorem lmu_proportional {u : ℝ} (h1 : -1 ≤ u) (h2 : u ≤ 1) :
    ∃ x : List ℝ, (.ok ((propHist u (-(5 / 100)) (5 / 100) 200).map .fin) : Py (List Fl)) =
        .ok (x.map .fin) ∧
      x.length = 200 ∧ x[0]? = some 0 ∧ ∀ y ∈ x, -(5 / 100) ≤ y ∧ y ≤ 5 / 100 := by
  refine ⟨_, rfl, ?_, ?_, ?_⟩
  · simp [propHist, lmu_notClose, denormalize, npLinspace]
  · simp [propHist, lmu_notClose, denormalize, npLinspace]
    norm_num
  · intro y hy
    simp only [propHist, lmu_notClose, if_false, denormalize, npLinspace, List.mem_map,
      List.mem_range] at hy
    obtain ⟨_, ⟨i, hi, rfl⟩, rfl⟩ := hy
    have hi' : (i : ℝ) ≤ 199 := by exact_mod_cast (by omega : i ≤ 199)
    have hi0 : (0 : ℝ) ≤ i := by positivity
    push_cast
    constructor <;> nlinarith

/-- **C138.** The strain paths of the material data: for two- and three-dimensional problems of infinitesimal
strains and all numbers that may be drawn, both types give a path of 200 states, at equidistant times from
zero to one, starting without strain, and with all components between -0.05 and 0.05. -/
theorem C138_paths (type : Text) (ht : type = "random".toList ∨ type = "proportional".toList) (nDim : ℕ)
    (hd : nDim = 2 ∨ nDim = 3) (d : RandomDraws) (hn : ∀ j, 4 ≤ d.nControl j ∧ d.nControl j ≤ 7)
    (u : ℕ → ℝ) (hu : ∀ j, -1 ≤ u j ∧ u j ≤ 1) (noise : ℕ → List ℝ) :
    ∃ times p, lmuPath type true nDim d u noise = .ok (symOrder nDim, times, p) ∧
      times = (List.range 200).map (fun i : ℕ => (i : ℝ) / 199) ∧ p.length = 200 ∧
      p[0]? = some (List.replicate (symOrder nDim).length (Fl.fin 0)) ∧
      ∀ r ∈ p, ∀ k < (symOrder nDim).length, ∃ x : ℝ, r[k]? = some (Fl.fin x) ∧ -0.05 ≤ x ∧ x ≤ 0.05 := by
  have hchk : (lmuPathArgs true nDim).checkBounds = .ok () := checkBounds_ok.mpr (lmu_good nDim)
  rcases ht with rfl | rfl
  · obtain ⟨times, p, h, h'⟩ := lmu_generate hd (randomHist .polynomial (4, 7) d) noise
      fun k => lmu_random (hn k).1
    refine ⟨times, p, ?_, h'⟩
    simp only [lmuPath, if_true, randomPath, hchk, orRaise, bind, Except.bind]
    exact h
  · obtain ⟨times, p, h, h'⟩ := lmu_generate hd
      (fun j lb ub n => .ok ((propHist (u j) lb ub n).map .fin)) noise
      fun k => lmu_proportional (hu k).1 (hu k).2
    refine ⟨times, p, ?_, h'⟩
    have hne : "proportional".toList ≠ "random".toList := by decide
    simp only [lmuPath, hne, if_true, if_false, proportionalPath, hchk, bind, Except.bind]
    exact h

/-- **C138.** Any other type of strain path is refused. -/
theorem C138_unknown_type (type : Text) (h1 : type ≠ "random".toList) (h2 : type ≠ "proportional".toList)
    (b : Bool) (nDim : ℕ) (d : RandomDraws) (u : ℕ → ℝ) (noise : ℕ → List ℝ) :
    lmuPath type b nDim d u noise = .error .runtimeError := by
  simp only [lmuPath, h1, h2, if_false]

/-! ## Violations -/

/-- **C138 is violated for finite strains.** The bounds are given for the components of the symmetric order
while the generators of finite strains ask for all components: every path is refused. -/
theorem C138_finite_violated (type : Text) (nDim : ℕ) (hd : nDim = 2 ∨ nDim = 3) (d : RandomDraws)
    (u : ℕ → ℝ) (noise : ℕ → List ℝ) : lmuPath type false nDim d u noise = .error .runtimeError := by
  have h : (lmuPathArgs false nDim).checkBounds = .error .runtimeError := by
    unfold PathArgs.checkBounds
    rw [raiseIf, if_pos]
    · rfl
    · rintro ⟨-, h⟩
      rw [lmu_keys] at h
      have := h [2, 1] (by rcases hd with rfl | rfl <;> decide)
      rcases hd with rfl | rfl <;> revert this <;> decide
  unfold lmuPath
  split_ifs
  · simp only [randomPath, h, bind, Except.bind]
  · simp only [proportionalPath, h, bind, Except.bind]
  · rfl

/-- **C138 is violated for copies of a data set.** The name of a data set is searched for anywhere in the
names of the files: if a copy with another ending is listed first, it is used for the training instead of the
data set. -/
theorem C138_copy_violated (old new : D) (pre post : Text) (n m : ℕ) :
    findDataset (some [(pre ++ "ss_paths_dataset_n".toList ++ strNat n ++ ".pkl".toList ++ post, old),
      ("ss_paths_dataset_n".toList ++ strNat m ++ ".pkl".toList, new)]) = .ok old := by
  have h : datasetAnywhere (pre ++ "ss_paths_dataset_n".toList ++ strNat n ++ ".pkl".toList ++ post) = true :=
    datasetAnywhere_iff.mpr ⟨pre, strNat n, post, rfl, strNat_ne_nil n, fun c hc => isDigit_of_mem_strNat hc⟩
  generalize pre ++ "ss_paths_dataset_n".toList ++ strNat n ++ ".pkl".toList ++ post = f at h ⊢
  generalize "ss_paths_dataset_n".toList ++ strNat m ++ ".pkl".toList = g
  simp only [findDataset, searchDir, findFile, KDict.keys, List.map_cons, List.find?_cons, h, orRaise,
    KDict.get?, bind, Except.bind, if_true]

/-- **C138 is violated for a model and predictions that are already there.** They are removed by every
update, also by one that is refused because a data set is missing, and by one that only predicts. -/
theorem C138_removed_violated (blank : M) (train : D → D → ℕ → M → Py Unit × M) (predict : D → M → Py P)
    (plots : KDict Text (UqSample M P) → Py Unit) (n : ℕ) (isPlots : Bool) (s : LmuDir D M P) (m : M) :
    (NoDataset s.train → ∀ isTraining,
      (updateModel blank train predict plots n isTraining isPlots { s with model := some m }).2.model =
        some blank) ∧
    (∀ s', updateModel blank train predict plots n false isPlots { s with model := some m } = (.ok (), s') →
      s'.model = none ∧ s'.pred = none) := by
  constructor
  · intro h tr
    have : lmuDatasets { s with model := some m } = .error .runtimeError := by
      simp only [lmuDatasets, findDataset_none h, bind, Except.bind]
    simp only [updateModel, this]
  · intro s' h
    unfold updateModel at h
    split at h
    · simp at h
    · simp only at h
      split at h
      · simp at h
      · split at h
        · simp at h
        · simp only [Prod.mk.injEq, true_and] at h
          rw [← h]
          exact ⟨rfl, rfl⟩

/-- **C138 is violated for a failing training.** The realizations of the earlier quantification are removed
before the first training: if that fails, no trained realization is left, and the working directories stay. -/
theorem C138_lost_violated (blank m : M) (train : D → D → ℕ → M → Py Unit × M) (predict : D → M → Py P)
    (plots : KDict Text (UqSample M P) → Py Unit) (n : ℕ) (hn : 0 < n) (isPlots : Bool) (s : LmuDir D M P)
    (a b c : D) (hs : HasDatasets s a b c) (e : PyErr) (h : train a b 0 blank = (.error e, m)) :
    updateModel blank train predict plots n true isPlots s =
      (.error e, ⟨s.train, s.valid, s.test, some m, some [("in_distribution".toList, none)],
        some [("model_0".toList, ⟨none, none⟩)]⟩) := by
  obtain ⟨k, rfl⟩ : ∃ k, n = k + 1 := ⟨n - 1, by omega⟩
  have hp : performUq (train a b) (predict c) lmuTesting true (k + 1) ⟨[], blank, none⟩ =
      (.error e, ⟨[(realizationDir 0, ⟨none, none⟩)], m, none⟩) := by
    simp only [performUq, if_true, List.range_succ_eq_map, uqLoop, uqStep, uqTrain, h]
    rfl
  simp only [updateModel, lmuDatasets_ok hs, if_true, hp]
  rfl

/-- **C138 is violated for predictions without realizations.** If there is no quantification, an update
without training reports success although nothing was predicted. -/
theorem C138_nothing_violated (blank : M) (train : D → D → ℕ → M → Py Unit × M) (predict : D → M → Py P)
    (plots : KDict Text (UqSample M P) → Py Unit) (n : ℕ) (s : LmuDir D M P) (a b c : D)
    (hs : HasDatasets s a b c) (hu : s.uq = none) :
    updateModel blank train predict plots n false false s =
      (.ok (), ⟨s.train, s.valid, s.test, none, none, some []⟩) := by
  have := C136_missing_violated (train a b) (predict c) lmuTesting n ⟨[], blank, none⟩
    fun i _ r hr => by simp [KDict.get?] at hr
  simp only [updateModel, lmuDatasets_ok hs, hu, Option.getD_none, Bool.false_eq_true, if_false, this]

/-! ## The hypotheses are met -/

/-- C138: the directory of a model update, with plots beside the training data set and an older
quantification. -/
def lmuWitness : LmuDir ℕ ℕ ℕ where
  train := some [("plots".toList, 0), ("ss_paths_dataset_n20.pkl".toList, 20)]
  valid := some [("ss_paths_dataset_n4.pkl".toList, 4)]
  test := some [("ss_paths_dataset_n2.pkl".toList, 2)]
  model := some 99
  pred := none
  uq := some [(realizationDir 0, ⟨some 5, none⟩), (realizationDir 7, ⟨some 6, none⟩)]

theorem lmuWitness_datasets : HasDatasets lmuWitness 20 4 2 := by
  have hd : ∀ f : Text, datasetAnywhere f = true → NamesDataset f := fun f h => datasetAnywhere_iff.mp h
  have hn : ∀ f : Text, datasetAnywhere f = false → ¬NamesDataset f := fun f h h' => by
    rw [datasetAnywhere_iff.mpr h'] at h
    cases h
  refine ⟨⟨_, rfl, "ss_paths_dataset_n20.pkl".toList, hd _ (by decide), by decide, ?_⟩,
    ⟨_, rfl, "ss_paths_dataset_n4.pkl".toList, hd _ (by decide), by decide, ?_⟩,
    ⟨_, rfl, "ss_paths_dataset_n2.pkl".toList, hd _ (by decide), by decide, ?_⟩⟩
  · intro g hg h
    rcases List.mem_cons.mp hg with rfl | hg
    · exact absurd h (hn _ (by decide))
    · simpa [KDict.keys] using hg
  · intro g hg _
    simpa [KDict.keys] using hg
  · intro g hg _
    simpa [KDict.keys] using hg

/-- C138: two trainings, each adding the sizes of its data sets to what it finds. -/
example : updateModel 0 (fun a b i m => (.ok (), m + a + b + i)) (fun c m => .ok (m * c)) (fun _ => .ok ()) 2
      true true lmuWitness =
    (.ok (), { lmuWitness with
      model := none
      pred := none
      uq := some [("model_0".toList, ⟨some 24, some [("in_distribution".toList, 48)]⟩),
        ("model_1".toList, ⟨some 49, some [("in_distribution".toList, 98)]⟩)] }) :=
  (C138_updated 0 _ _ _ 2 true lmuWitness 20 4 2 lmuWitness_datasets
    (fun i : ℕ => [0, 24, 49].getD i 0) (fun i : ℕ => [48, 98].getD i 0) rfl
    ⟨fun i hi => by interval_cases i <;> rfl, fun i hi => by interval_cases i <;> rfl⟩ fun _ => rfl).trans rfl

/-- C138: predictions with the older quantification. -/
example : ∃ s', updateModel 0 (fun _ _ _ m => (.error .runtimeError, m)) (fun c m => .ok (m * c))
    (fun _ => .ok ()) 2 false false lmuWitness = (.ok (), s') := by
  unfold updateModel
  rw [lmuDatasets_ok lmuWitness_datasets]
  exact ⟨_, rfl⟩

/-- C138: a directory without a data set. -/
example : NoDataset ({ lmuWitness with valid := some [("ss_paths_dataset.pkl".toList, 4)] }).valid := by
  intro files h f hf hn
  cases h
  have hf' : f = "ss_paths_dataset.pkl".toList := by simpa [KDict.keys] using hf
  have := datasetAnywhere_iff.mpr hn
  rw [hf'] at this
  revert this
  decide

/-- C138: numbers that may be drawn. -/
example : ∃ (d : RandomDraws) (u : ℕ → ℝ), (∀ j, 4 ≤ d.nControl j ∧ d.nControl j ≤ 7) ∧
    ∀ j, -1 ≤ u j ∧ u j ≤ 1 :=
  ⟨⟨fun j => 4 + (j : ℤ) % 4, fun _ _ => 1 / 2, fun _ _ _ _ => 0⟩, fun _ => 1 / 3,
    fun j => ⟨by show 4 ≤ 4 + (j : ℤ) % 4; omega, by show 4 + (j : ℤ) % 4 ≤ 7; omega⟩, fun j => by norm_num⟩

end Hooke
