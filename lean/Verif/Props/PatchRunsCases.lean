import Verif.Props.PatchRuns
import Verif.Props.LearnableParameters

/-!
# C142: generation of random material patches (theorems)
-/

namespace Hooke

open Spec

variable {P : Type}

/-! ### The results of one patch -/

theorem inputFile_eq (p : APath) :
    patchInputFile p = p ++ ["simulations".toList, "random_specimen.dat".toList] := by
  rw [patchInputFile, patchSimulationsDir, List.append_assoc]
  rfl

theorem outputDir_eq (p : APath) :
    patchOutputDir p = p ++ ["simulations".toList, "random_specimen".toList] := by
  rw [patchOutputDir, patchSimulationsDir, List.append_assoc]
  rfl

theorem screenFile_eq (p : APath) :
    patchScreenFile p =
      p ++ ["simulations".toList, "random_specimen".toList, "random_specimen.screen".toList] := by
  rw [patchScreenFile, patchOutputDir, patchSimulationsDir, List.append_assoc, List.append_assoc]
  rfl

theorem figureFile_eq (p : APath) :
    patchFigureFile p = p ++ ["plots".toList, "specimen_deformed_configuration.pdf".toList] := by
  rw [patchFigureFile, patchPlotsDir, List.append_assoc]
  rfl

theorem patchFile_eq (p : APath) :
    patchFile p = p ++ ["material_patch".toList, "material_patch.pkl".toList] := by
  rw [patchFile, patchDataDir, List.append_assoc]
  rfl

theorem attributesFile_eq (p : APath) : patchAttributesFile p =
    p ++ ["material_patch".toList, "material_patch_attributes.pkl".toList] := by
  rw [patchAttributesFile, patchDataDir, List.append_assoc]
  rfl

theorem tail_ne {p : APath} {a b : List PName} (h : a ≠ b) : p ++ a ≠ p ++ b :=
  fun h' => h (List.append_cancel_left h')

theorem savePatch_file {F : PatchFlags} {d : PatchDisk P} {p q : APath} {x : P} :
    (savePatch F d p x).file q =
      if F.save = true ∧ q = patchAttributesFile p then some (.attributes x)
      else if F.save = true ∧ q = patchFile p then some (.patch x) else d.file q := by
  unfold savePatch
  cases F.save with
  | false => simp
  | true => simp [PatchDisk.write, Function.update_apply]

theorem donePatch_file {F : PatchFlags} {d : PatchDisk P} {p q : APath} {x : P} :
    (donePatch F d p x).file q =
      if q = patchScreenFile p then some (.screen x true)
      else if q = patchInputFile p then some (.input x)
      else if q = patchFigureFile p then some (.figure x)
      else (savePatch F d p x).file q := by
  simp [donePatch, PatchDisk.simulated, PatchDisk.write, Function.update_apply]

theorem seg_ne1 : (["simulations".toList, "random_specimen.dat".toList] : List PName) ≠
    ["simulations".toList, "random_specimen".toList, "random_specimen.screen".toList] := by decide
theorem seg_ne2 : (["plots".toList, "specimen_deformed_configuration.pdf".toList] : List PName) ≠
    ["simulations".toList, "random_specimen".toList, "random_specimen.screen".toList] := by decide
theorem seg_ne3 : (["plots".toList, "specimen_deformed_configuration.pdf".toList] : List PName) ≠
    ["simulations".toList, "random_specimen.dat".toList] := by decide
theorem seg_ne4 : (["material_patch".toList, "material_patch.pkl".toList] : List PName) ≠
    ["material_patch".toList, "material_patch_attributes.pkl".toList] := by decide

theorem below_data {p : APath} {l : List PName} {a b : PName} (hab : a ≠ b) :
    ¬ p ++ [b] <+: p ++ a :: l := by
  intro h
  have h2 : p ++ [a] <+: p ++ a :: l := ⟨l, by simp⟩
  exact hab (sibling_prefix h2 h)

theorem simulated_of_done {F : PatchFlags} {d : PatchDisk P} {p : APath} {x : P}
    (hp : d.dirs p = true) (hd : d.dirs (patchSimulationsDir p) = true)
    (h : ∀ q, patchSimulationsDir p <+: q ∨ patchPlotsDir p <+: q → d.file q = none) :
    Simulated (donePatch F d p x) p x := by
  have hdirs : (savePatch F d p x).dirs = d.dirs := by
    unfold savePatch
    split <;> rfl
  refine ⟨?_, ?_, ?_, ?_, ?_, ?_, ?_⟩
  · show ((savePatch F d p x).dirs p || _) = true
    rw [hdirs, hp, Bool.true_or]
  · show ((savePatch F d p x).dirs (patchSimulationsDir p) || _) = true
    rw [hdirs, hd, Bool.true_or]
  · rw [donePatch_file, ← inputFile_eq, if_neg ?_, if_pos rfl]
    rw [inputFile_eq, screenFile_eq]
    exact tail_ne seg_ne1
  · rw [donePatch_file, ← screenFile_eq, if_pos rfl]
  · rw [← outputDir_eq]
    simp [donePatch, PatchDisk.simulated, PatchDisk.write]
  · rw [donePatch_file, ← figureFile_eq, if_neg ?_, if_neg ?_, if_pos rfl]
    · rw [figureFile_eq, inputFile_eq]
      exact tail_ne seg_ne3
    · rw [figureFile_eq, screenFile_eq]
      exact tail_ne seg_ne2
  · intro s q hs hq hne
    rw [donePatch_file] at hne
    rw [← inputFile_eq, ← screenFile_eq, ← figureFile_eq]
    by_cases h1 : q = patchScreenFile p
    · exact Or.inr (Or.inl h1)
    by_cases h2 : q = patchInputFile p
    · exact Or.inl h2
    by_cases h3 : q = patchFigureFile p
    · exact Or.inr (Or.inr h3)
    rw [if_neg h1, if_neg h2, if_neg h3, savePatch_file] at hne
    have hsm : ("material_patch".toList : PName) ≠ s := by
      rcases hs with rfl | rfl
      · exact data_ne_sims
      · exact data_ne_plots
    have e1 : q ≠ patchAttributesFile p := by
      rintro rfl
      rw [attributesFile_eq] at hq
      exact below_data hsm hq
    have e2 : q ≠ patchFile p := by
      rintro rfl
      rw [patchFile_eq] at hq
      exact below_data hsm hq
    rw [if_neg (by simp [e1]), if_neg (by simp [e2])] at hne
    refine absurd (h q ?_) hne
    rcases hs with rfl | rfl
    · exact Or.inl hq
    · exact Or.inr hq

theorem cleared_sims {d : PatchDisk P} {p : APath} :
    ((d.cleared (patchSimulationsDir p)).cleared (patchPlotsDir p)).dirs (patchSimulationsDir p) = true := by
  have h : ¬ patchPlotsDir p <+: patchSimulationsDir p := by
    intro h
    exact sims_ne_plots (sibling_prefix List.prefix_rfl h)
  simp [PatchDisk.cleared, h]

theorem freshDirs_sims {d : PatchDisk P} {p : APath} :
    (freshDirs d p).dirs (patchSimulationsDir p) = true := cleared_sims

theorem resetDirs_sims {d : PatchDisk P} {p : APath} :
    (resetDirs d p).dirs (patchSimulationsDir p) = true := cleared_sims

theorem resetDirs_root {d : PatchDisk P} {p : APath} (h : d.dirs p = true) :
    (resetDirs d p).dirs p = true := by
  have h1 : ∀ a : PName, ¬ p ++ [a] <+: p := fun a => not_below_parent
  simp only [resetDirs, PatchDisk.cleared, patchSimulationsDir, patchPlotsDir, if_neg (h1 _), h]

theorem freshDirs_root {d : PatchDisk P} {p : APath} : (freshDirs d p).dirs p = true := by
  refine resetDirs_root (d := (d.cleared p).cleared (patchDataDir p)) ?_
  have h1 : ¬ p ++ ["material_patch".toList] <+: p := not_below_parent
  simp only [PatchDisk.cleared, patchDataDir, if_neg h1, List.prefix_rfl, if_true, decide_true]

theorem data_file_done {F : PatchFlags} {d : PatchDisk P} {p : APath} {x : P} {l : List PName} :
    (donePatch F d p x).file (p ++ "material_patch".toList :: l) =
      (savePatch F d p x).file (p ++ "material_patch".toList :: l) := by
  rw [donePatch_file, if_neg ?_, if_neg ?_, if_neg ?_]
  · rw [figureFile_eq]
    exact tail_ne fun h => data_ne_plots (List.cons.inj h).1
  · rw [inputFile_eq]
    exact tail_ne fun h => data_ne_sims (List.cons.inj h).1
  · rw [screenFile_eq]
    exact tail_ne fun h => data_ne_sims (List.cons.inj h).1

theorem saved_of_done {F : PatchFlags} {d : PatchDisk P} {p : APath} {x : P} (hF : F.save = true) :
    SavedPatch (donePatch F d p x) p x := by
  constructor
  · rw [data_file_done, savePatch_file, ← patchFile_eq, if_neg ?_, if_pos ⟨hF, rfl⟩]
    rintro ⟨-, h⟩
    rw [patchFile_eq, attributesFile_eq] at h
    exact tail_ne seg_ne4 h
  · rw [data_file_done, savePatch_file, ← attributesFile_eq, if_pos ⟨hF, rfl⟩]

theorem noLeftovers_of_done {F : PatchFlags} {d : PatchDisk P} {p : APath} {x : P}
    (h : ∀ q, p <+: q → d.file q = none) : NoLeftovers (donePatch F d p x) p := by
  intro q hq hne
  rw [donePatch_file] at hne
  by_cases h1 : q = patchScreenFile p
  · left
    rw [h1, screenFile_eq]
    exact ⟨_, by rw [List.append_assoc]; rfl⟩
  by_cases h2 : q = patchInputFile p
  · left
    rw [h2, inputFile_eq]
    exact ⟨_, by rw [List.append_assoc]; rfl⟩
  by_cases h3 : q = patchFigureFile p
  · right
    left
    rw [h3, figureFile_eq]
    exact ⟨_, by rw [List.append_assoc]; rfl⟩
  rw [if_neg h1, if_neg h2, if_neg h3, savePatch_file, h q hq] at hne
  rw [← patchFile_eq, ← attributesFile_eq]
  by_cases h4 : q = patchAttributesFile p
  · exact Or.inr (Or.inr (Or.inr h4))
  · by_cases h5 : q = patchFile p
    · exact Or.inr (Or.inr (Or.inl h5))
    · simp [h4, h5] at hne

theorem setPatchDir_path {d d' : PatchDisk P} {nm : PName} {base : APath} {ow : Bool} {p : APath}
    (h : setPatchDir d nm base ow = (d', .ok p)) : joinName base nm = p := by
  unfold setPatchDir at h
  split at h
  · cases h
  · obtain ⟨_, _, -, h⟩ := diskThen_ok.mp h
    obtain ⟨_, _, -, h⟩ := diskThen_ok.mp h
    obtain ⟨_, _, -, h⟩ := diskThen_ok.mp h
    obtain ⟨_, _, -, h⟩ := diskThen_ok.mp h
    cases h
    rfl

/-! ### The loop -/

/-- The base directory and its ancestors are directories. -/
def BaseOk (d : PatchDisk P) (base : APath) : Prop :=
  ∀ q, q <+: base → d.dirs q = true ∧ d.file q = none

theorem rooted_of_base {d : PatchDisk P} {base : APath} {name : PName} {n i : ℕ} (h : BaseOk d base) :
    Rooted d (patchRoot base name n i) :=
  fun q hq hne => h q (prefix_snoc_ne hq hne)

theorem base_outside {base : APath} {name : PName} {n i : ℕ} {q : APath} (hq : q <+: base) :
    ¬ patchRoot base name n i <+: q := fun h => not_below_parent (h.trans hq)

/-- The entry of a patch in the dictionaries. -/
def patchEntry (base : APath) (name : PName) (n i : ℕ) : Text × APath × APath :=
  (strNat i, patchInputFile (patchRoot base name n i), patchOutputDir (patchRoot base name n i))

theorem entries_put (base : APath) (name : PName) (n i : ℕ) :
    KDict.put ((List.range i).map (patchEntry base name n)) (strNat i)
      (patchInputFile (patchRoot base name n i), patchOutputDir (patchRoot base name n i)) =
    (List.range (i + 1)).map (patchEntry base name n) := by
  rw [put_of_notMem, List.range_succ, List.map_append]
  · rfl
  · intro hm
    have : strNat i ∈ (List.range i).map strNat := by
      have e : KDict.keys ((List.range i).map (patchEntry base name n)) = (List.range i).map strNat := by
        rw [KDict.keys, List.map_map]
        rfl
      rw [← e]
      exact hm
    obtain ⟨j, hj, he⟩ := List.mem_map.mp this
    have := strNat_inj he
    have := List.mem_range.mp hj
    omega

theorem loop_frame {T : PatchTools P} {F : PatchFlags} {gen : ℕ → Py P} {n : ℕ} {base : APath}
    {name : PName} (hf : NameFits name n) {res : Py (KDict Text (APath × APath))} {d' : PatchDisk P} :
    ∀ m i out (d : PatchDisk P), i + m = n → (∀ q, q <+: base → d.dirs q = true) →
      patchesLoop T F gen n base name m i out d = (d', res) →
      ∀ q, Outside base name n {j | i ≤ j ∧ j < n} q → SameAt d d' q := by
  intro m
  induction m with
  | zero =>
    intro i out d _ _ h q _
    cases h
    exact ⟨rfl, rfl⟩
  | succ m ih =>
    intro i out d hi hb h q hq
    unfold patchesLoop at h
    rcases h1 : onePatch T F (gen i) d base (patchDirName n name i) with ⟨d1, r⟩
    have hfr := fun {q} hq => onePatch_frame (q := q) (patchRoot_eq (by omega) hf)
      (fun q h1 h2 => hb q (prefix_snoc_ne h1 h2)) h1 hq
    have f1 := hfr (hq i ⟨le_rfl, by omega⟩)
    rw [h1] at h
    cases r with
    | error e => cases h; exact f1
    | ok r =>
      refine f1.trans (ih (i + 1) _ d1 (by omega) ?_ h q fun j hj => hq j ⟨by have := hj.1; omega, hj.2⟩)
      intro q hq
      rw [(hfr (base_outside hq)).1]
      exact hb q hq

/-- The loop, for what an iteration needs (`Ready`) and leaves (`Res`). -/
theorem loop_spec {T : PatchTools P} {F : PatchFlags} {gen : ℕ → Py P} {n : ℕ} {base : APath}
    {name : PName} (hf : NameFits name n) {Ready : ℕ → PatchDisk P → Prop}
    {Res : ℕ → PatchDisk P → PatchDisk P → Prop}
    (hReady : ∀ j d d', (∀ q, patchRoot base name n j <+: q → SameAt d d' q) → Ready j d → Ready j d')
    (hRes : ∀ j d₀ d₀' d d', (∀ q, patchRoot base name n j <+: q → SameAt d₀ d₀' q) →
      (∀ q, patchRoot base name n j <+: q → SameAt d d' q) → Res j d₀' d → Res j d₀ d')
    (hstep : ∀ j < n, ∀ d d' r, BaseOk d base → Ready j d →
      onePatch T F (gen j) d base (patchDirName n name j) = (d', .ok r) → Res j d d')
    {res : Py (KDict Text (APath × APath))} {d' : PatchDisk P} :
    ∀ m i (d : PatchDisk P), i + m = n → BaseOk d base → (∀ j, i ≤ j → j < n → Ready j d) →
      patchesLoop T F gen n base name m i ((List.range i).map (patchEntry base name n)) d = (d', res) →
      (∀ out, res = .ok out → (∀ j, i ≤ j → j < n → Res j d d') ∧
        out = (List.range n).map (patchEntry base name n)) ∧
      ∀ e, res = .error e → ∃ k, i ≤ k ∧ k < n ∧ (∀ j, i ≤ j → j < k → Res j d d') ∧
        ∀ q, Outside base name n {j | i ≤ j ∧ j ≤ k} q → SameAt d d' q := by
  intro m
  induction m with
  | zero =>
    intro i d hi _ _ h
    cases h
    refine ⟨fun out ho => ?_, fun e he => by cases he⟩
    cases ho
    exact ⟨fun j h1 h2 => by omega, by rw [show i = n by omega]⟩
  | succ m ih =>
    intro i d hi hb hr h
    unfold patchesLoop at h
    rcases h1 : onePatch T F (gen i) d base (patchDirName n name i) with ⟨d1, r⟩
    have hroot := patchRoot_eq (base := base) (i := i) (by omega) hf
    have hfr := fun {q} hq => onePatch_frame (q := q) hroot
      (fun q h1 h2 => (hb q (prefix_snoc_ne h1 h2)).1) h1 hq
    rw [h1] at h
    cases r with
    | error e =>
      cases h
      refine ⟨fun out ho => (by cases ho), fun e he => ⟨i, le_rfl, by omega, fun j h1 h2 => by omega, ?_⟩⟩
      intro q hq
      exact hfr (hq i ⟨le_rfl, le_rfl⟩)
    | ok r =>
      simp only [diskThen] at h
      have hres := hstep i (by omega) d d1 r hb (hr i le_rfl (by omega)) h1
      obtain ⟨d2, p, x, h2, -, -, hrr⟩ := onePatch_ok h1
      have hp := (setPatchDir_path h2).symm.trans hroot
      rw [hrr, hp, entries_put] at h
      have hb1 : BaseOk d1 base := by
        intro q hq
        have := hfr (base_outside hq)
        rw [this.1, this.2]
        exact hb q hq
      have hother : ∀ j, j ≠ i → j < n → ∀ q, patchRoot base name n j <+: q → SameAt d d1 q := by
        intro j hj hjn q hq
        exact hfr fun h' => hj (patchRoot_inj hjn (by omega) hq h')
      obtain ⟨k1, k2⟩ := ih (i + 1) d1 (by omega) hb1 (fun j h3 h4 => hReady j d d1
        (hother j (by omega) h4) (hr j (by omega) h4)) h
      constructor
      · intro out ho
        obtain ⟨k3, k4⟩ := k1 out ho
        refine ⟨fun j h3 h4 => ?_, k4⟩
        by_cases hji : j = i
        · subst hji
          refine hRes j d d d1 d' (fun _ _ => ⟨rfl, rfl⟩) (fun q hq => ?_) hres
          refine loop_frame hf m (j + 1) _ d1 (by omega) (fun q hq => (hb1 q hq).1) h q ?_
          intro l hl hlq
          have := patchRoot_inj (by omega) hl.2 hq hlq
          have := hl.1
          omega
        · exact hRes j d d1 d' d' (hother j hji h4) (fun _ _ => ⟨rfl, rfl⟩) (k3 j (by omega) h4)
      · intro e he
        obtain ⟨k, hk1, hk2, k3, k4⟩ := k2 e he
        refine ⟨k, by omega, hk2, fun j h3 h4 => ?_, fun q hq => ?_⟩
        · by_cases hji : j = i
          · subst hji
            refine hRes j d d d1 d' (fun _ _ => ⟨rfl, rfl⟩) (fun q hq => ?_) hres
            refine loop_frame hf m (j + 1) _ d1 (by omega) (fun q hq => (hb1 q hq).1) h q ?_
            intro l hl hlq
            have := patchRoot_inj (by omega) hl.2 hq hlq
            have := hl.1
            omega
          · exact hRes j d d1 d' d' (hother j hji (by omega)) (fun _ _ => ⟨rfl, rfl⟩) (k3 j (by omega) h4)
        · exact (hfr (hq i ⟨le_rfl, by show i ≤ k; omega⟩)).trans
            (k4 q fun j hj => hq j ⟨by have := hj.1; omega, hj.2⟩)

theorem loop_total {T : PatchTools P} {F : PatchFlags} {gen : ℕ → Py P} {n : ℕ} {base : APath}
    {name : PName} (hf : NameFits name n) {Ready : ℕ → PatchDisk P → Prop}
    (hReady : ∀ j d d', (∀ q, patchRoot base name n j <+: q → SameAt d d' q) → Ready j d → Ready j d')
    (hstep : ∀ j < n, ∀ d, BaseOk d base → Ready j d →
      ∃ d' r, onePatch T F (gen j) d base (patchDirName n name j) = (d', .ok r)) :
    ∀ m i out (d : PatchDisk P), i + m = n → BaseOk d base → (∀ j, i ≤ j → j < n → Ready j d) →
      ∃ d' out', patchesLoop T F gen n base name m i out d = (d', .ok out') := by
  intro m
  induction m with
  | zero => exact fun i out d _ _ _ => ⟨d, out, rfl⟩
  | succ m ih =>
    intro i out d hi hb hr
    unfold patchesLoop
    obtain ⟨d1, r, h1⟩ := hstep i (by omega) d hb (hr i le_rfl (by omega))
    have hfr := fun {q} hq => onePatch_frame (q := q) (patchRoot_eq (by omega) hf)
      (fun q h1 h2 => (hb q (prefix_snoc_ne h1 h2)).1) h1 hq
    rw [h1]
    simp only [diskThen]
    refine ih (i + 1) _ d1 (by omega) ?_ fun j h3 h4 => hReady j d d1 (fun q hq => ?_) (hr j (by omega) h4)
    · intro q hq
      have := hfr (base_outside hq)
      rw [this.1, this.2]
      exact hb q hq
    · refine hfr fun h' => ?_
      have := patchRoot_inj h4 (by omega) hq h'
      omega

/-! ### The property -/

theorem Spec.Simulated.transfer {d d' : PatchDisk P} {p : APath} {x : P}
    (h : ∀ q, p <+: q → SameAt d d' q) (hs : Simulated d p x) : Simulated d' p x := by
  refine ⟨?_, ?_, ?_, ?_, ?_, ?_, ?_⟩
  · rw [(h p List.prefix_rfl).1]
    exact hs.root
  · rw [(h _ (List.prefix_append _ _)).1]
    exact hs.folder
  · rw [(h _ (List.prefix_append _ _)).2]
    exact hs.input
  · rw [(h _ (List.prefix_append _ _)).2]
    exact hs.screen
  · rw [(h _ (List.prefix_append _ _)).1]
    exact hs.output
  · rw [(h _ (List.prefix_append _ _)).2]
    exact hs.figure
  · intro s q h1 h2 h3
    rw [(h q ((List.prefix_append _ _).trans h2)).2] at h3
    exact hs.only s q h1 h2 h3

theorem Spec.SavedPatch.transfer {d d' : PatchDisk P} {p : APath} {x : P}
    (h : ∀ q, p <+: q → SameAt d d' q) (hs : SavedPatch d p x) : SavedPatch d' p x := by
  refine ⟨?_, ?_⟩
  · rw [(h _ (List.prefix_append _ _)).2]
    exact hs.1
  · rw [(h _ (List.prefix_append _ _)).2]
    exact hs.2

theorem Tidy.transfer {d d' : PatchDisk P} {p : APath} (h : ∀ q, p <+: q → SameAt d d' q)
    (ht : Tidy d p) : Tidy d' p := by
  refine ⟨?_, fun hd q hq => ?_⟩
  · rw [(h p List.prefix_rfl).2]
    exact ht.1
  · rw [(h p List.prefix_rfl).1] at hd
    rw [(h q hq).1, (h q hq).2]
    exact ht.2 hd q hq

theorem tidy_of_sound {d : PatchDisk P} (hs : Sound d) {p : APath} (hp : d.file p = none) : Tidy d p := by
  refine ⟨hp, fun hd q hq => ?_⟩
  by_cases h : p = q
  · subst h
    exact ⟨hd, hp⟩
  · have := mt (hs.1 p q hq h) (by simp [hd])
    push Not at this
    exact ⟨by simpa using this.1, this.2⟩

theorem base_of_sound {d : PatchDisk P} (hs : Sound d) {base : APath} (hb : d.dirs base = true) :
    BaseOk d base := by
  intro q hq
  have : d.dirs q = true := by
    by_cases h : q = base
    · exact h ▸ hb
    · exact hs.1 q base hq h (Or.inl hb)
  exact ⟨this, hs.2 q this⟩

theorem onePatch_fresh {T : PatchTools P} {save : Bool} {g : Py P} {d d' : PatchDisk P} {base : APath}
    {name : PName} {n j : ℕ} (hf : NameFits name n) (hj : j < n) {r : APath × APath} (hb : BaseOk d base)
    (ht : Tidy d (patchRoot base name n j))
    (h : onePatch T ⟨save, false⟩ g d base (patchDirName n name j) = (d', .ok r)) :
    ∃ x, g = .ok x ∧ Simulated d' (patchRoot base name n j) x ∧
      (save = true → SavedPatch d' (patchRoot base name n j) x) ∧
      (save = false → ∀ q, patchRoot base name n j ++ ["material_patch".toList] <+: q → d'.file q = none) ∧
      NoLeftovers d' (patchRoot base name n j) := by
  obtain ⟨d1, p, x, h1, h2, rfl, -⟩ := onePatch_ok h
  rw [Bool.not_false, setPatchDir_fresh (hb base List.prefix_rfl).1 (patchRoot_eq (by omega) hf)
    (rooted_of_base hb) ht] at h1
  cases h1
  have hempty : ∀ q, patchRoot base name n j <+: q →
      (freshDirs d (patchRoot base name n j)).file q = none := by
    intro q hq
    rw [freshDirs_file, if_pos hq]
  refine ⟨x, h2, simulated_of_done freshDirs_root freshDirs_sims ?_, fun hs => saved_of_done hs, fun hs q hq => ?_,
    noLeftovers_of_done hempty⟩
  · rintro q (hq | hq)
    · exact hempty q ((List.prefix_append _ _).trans hq)
    · exact hempty q ((List.prefix_append _ _).trans hq)
  · obtain ⟨l, rfl⟩ := hq
    have e : patchRoot base name n j ++ ["material_patch".toList] ++ l =
        patchRoot base name n j ++ "material_patch".toList :: l := by simp
    rw [e, data_file_done, savePatch_file, if_neg (by simp [hs]), if_neg (by simp [hs])]
    exact hempty _ (List.prefix_append _ _)

/-- **C142a.** Whatever happens, nothing outside the directories of the patches changes: in particular
the directories of patches with other numbers that an earlier run has left. -/
theorem C142_frame {T : PatchTools P} {F : PatchFlags} {gen : ℕ → Py P} {n : ℕ} {base : APath}
    {name : PName} {d d' : PatchDisk P} {res : Py (KDict Text (APath × APath))} (hs : Sound d)
    (hb : d.dirs base = true) (hf : NameFits name n)
    (h : generatePatches T F gen n base name d = (d', res)) {q : APath}
    (hq : Outside base name n {i | i < n} q) : SameAt d d' q :=
  loop_frame hf n 0 [] d (by omega) (fun q hq => (base_of_sound hs hb q hq).1) h q
    fun j hj => hq j hj.2

/-- **C142b.** New patches.  If the call returns, every patch has been simulated, with its saved file if
it was asked for, nothing of an earlier run is left in its directory, and the paths of its input file
and output directory are returned under its number.  If it raises, this holds for the patches before
one of them, and those after it are as they were. -/
theorem C142_generate {T : PatchTools P} {save : Bool} {gen : ℕ → Py P} {n : ℕ} {base : APath}
    {name : PName} {d d' : PatchDisk P} {res : Py (KDict Text (APath × APath))} (hs : Sound d)
    (hb : d.dirs base = true) (hf : NameFits name n)
    (hnf : ∀ i < n, d.file (patchRoot base name n i) = none)
    (h : generatePatches T ⟨save, false⟩ gen n base name d = (d', res)) :
    (∀ out, res = .ok out →
      (∀ i < n, ∃ x, gen i = .ok x ∧ Simulated d' (patchRoot base name n i) x ∧
        (save = true → SavedPatch d' (patchRoot base name n i) x) ∧
        (save = false → ∀ q, patchRoot base name n i ++ ["material_patch".toList] <+: q →
          d'.file q = none) ∧ NoLeftovers d' (patchRoot base name n i)) ∧
      out = (List.range n).map fun i : ℕ => (strNat i,
        patchRoot base name n i ++ ["simulations".toList, "random_specimen.dat".toList],
        patchRoot base name n i ++ ["simulations".toList, "random_specimen".toList])) ∧
    ∀ e, res = .error e → ∃ k < n,
      (∀ i < k, ∃ x, gen i = .ok x ∧ Simulated d' (patchRoot base name n i) x ∧
        (save = true → SavedPatch d' (patchRoot base name n i) x)) ∧
      ∀ q, Outside base name n {i | i ≤ k} q → SameAt d d' q := by
  have hbase := base_of_sound hs hb
  obtain ⟨h1, h2⟩ := loop_spec (T := T) (F := ⟨save, false⟩) (gen := gen) (d' := d') (res := res) hf
    (Ready := fun j d => Tidy d (patchRoot base name n j))
    (Res := fun j _ d' => ∃ x, gen j = .ok x ∧ Simulated d' (patchRoot base name n j) x ∧
      (save = true → SavedPatch d' (patchRoot base name n j) x) ∧
      (save = false → ∀ q, patchRoot base name n j ++ ["material_patch".toList] <+: q →
        d'.file q = none) ∧ NoLeftovers d' (patchRoot base name n j))
    (fun j d d' h1 h2 => h2.transfer h1)
    (fun j _ _ d d' _ h1 ⟨x, k1, k2, k3, k5, k4⟩ => ⟨x, k1, k2.transfer h1, fun hs => (k3 hs).transfer h1,
      fun hs q hq => by
        rw [(h1 q ((List.prefix_append _ _).trans hq)).2]
        exact k5 hs q hq,
      fun q hq hne => k4 q hq (by rw [← (h1 q hq).2]; exact hne)⟩)
    (fun j hj d d' r hb ht h => onePatch_fresh hf hj hb ht h)
    n 0 d (by omega) hbase (fun j _ hj => tidy_of_sound hs (hnf j hj)) h
  constructor
  · intro out ho
    obtain ⟨k1, k2⟩ := h1 out ho
    refine ⟨fun i hi => k1 i (Nat.zero_le _) hi, ?_⟩
    rw [k2]
    apply List.map_congr_left
    intro i _
    rw [patchEntry, inputFile_eq, outputDir_eq]
  · intro e he
    obtain ⟨k, -, hk, k1, k2⟩ := h2 e he
    refine ⟨k, hk, fun i hi => ?_, fun q hq => k2 q fun j hj => hq j hj.2⟩
    obtain ⟨x, g1, g2, g3, -⟩ := k1 i (Nat.zero_le _) hi
    exact ⟨x, g1, g2, g3⟩

/-- **C142c.** It returns if the patches are admissible and the tools work. -/
theorem C142_accepts {T : PatchTools P} {save : Bool} {gen : ℕ → Py P} {n : ℕ} {base : APath}
    {name : PName} {d : PatchDisk P} (hs : Sound d) (hb : d.dirs base = true) (hf : NameFits name n)
    (hnf : ∀ i < n, d.file (patchRoot base name n i) = none)
    (hg : ∀ i < n, ∃ x, gen i = .ok x ∧ ToolsWork T x) :
    ∃ d' out, generatePatches T ⟨save, false⟩ gen n base name d = (d', .ok out) :=
  loop_total hf (Ready := fun j d => Tidy d (patchRoot base name n j))
    (fun _ _ _ h1 h2 => h2.transfer h1)
    (fun j hj d hb ht => by
      obtain ⟨x, hx, hw⟩ := hg j hj
      exact ⟨_, _, onePatch_total (setPatchDir_fresh (hb base List.prefix_rfl).1
        (patchRoot_eq (by omega) hf) (rooted_of_base hb) ht) hx hw⟩)
    n 0 [] d (by omega) (base_of_sound hs hb) fun j _ hj => tidy_of_sound hs (hnf j hj)

/-- What loading a patch needs. -/
def Loadable (d : PatchDisk P) (p : APath) : Prop :=
  d.dirs p = true ∧ d.file p = none ∧ d.dirs (patchDataDir p) = true ∧ Tidy d (patchSimulationsDir p) ∧
    Tidy d (patchPlotsDir p)

theorem Loadable.transfer {d d' : PatchDisk P} {p : APath} (h : ∀ q, p <+: q → SameAt d d' q)
    (hl : Loadable d p) : Loadable d' p := by
  obtain ⟨h1, h2, h3, h4, h5⟩ := hl
  refine ⟨?_, ?_, ?_, h4.transfer ?_, h5.transfer ?_⟩
  · rw [(h p List.prefix_rfl).1]
    exact h1
  · rw [(h p List.prefix_rfl).2]
    exact h2
  · rw [(h (patchDataDir p) (List.prefix_append _ _)).1]
    exact h3
  · exact fun q hq => h q ((List.prefix_append _ _).trans hq)
  · exact fun q hq => h q ((List.prefix_append _ _).trans hq)

theorem reset_data {d : PatchDisk P} {p : APath} {l : List PName} :
    (resetDirs d p).file (p ++ "material_patch".toList :: l) = d.file (p ++ "material_patch".toList :: l) := by
  rw [resetDirs_file, if_neg]
  rintro (h | h)
  · exact below_data data_ne_sims h
  · exact below_data data_ne_plots h

theorem onePatch_load {T : PatchTools P} {save : Bool} {g : Py P} {d d' : PatchDisk P} {base : APath}
    {name : PName} {n j : ℕ} (hf : NameFits name n) (hj : j < n) {r : APath × APath} (hb : BaseOk d base)
    (hl : Loadable d (patchRoot base name n j))
    (h : onePatch T ⟨save, true⟩ g d base (patchDirName n name j) = (d', .ok r)) :
    ∃ x, d.file (patchRoot base name n j ++ ["material_patch".toList, "material_patch.pkl".toList]) =
        some (.patch x) ∧ Simulated d' (patchRoot base name n j) x ∧
      d'.file (patchRoot base name n j ++ ["material_patch".toList, "material_patch.pkl".toList]) =
        some (.patch x) := by
  obtain ⟨d1, p, x, h1, h2, rfl, -⟩ := onePatch_ok h
  obtain ⟨l1, l2, l3, l4, l5⟩ := hl
  rw [Bool.not_true, setPatchDir_load (hb base List.prefix_rfl).1 (patchRoot_eq (by omega) hf)
    (rooted_of_base hb) l1 l2 l3 l4 l5] at h1
  cases h1
  unfold obtainPatch at h2
  rw [if_pos rfl, patchFile_eq, reset_data] at h2
  have hx : d.file (patchRoot base name n j ++ ["material_patch".toList, "material_patch.pkl".toList]) =
      some (.patch x) := by
    split at h2
    · cases h2
    · next hq => cases h2; exact hq
    · cases h2
  refine ⟨x, hx, simulated_of_done (resetDirs_root l1) resetDirs_sims ?_, ?_⟩
  · intro q hq
    rw [resetDirs_file, if_pos hq]
  · cases hs : save with
    | true => exact (saved_of_done rfl).1
    | false =>
      rw [data_file_done, savePatch_file, if_neg (by simp), if_neg (by simp), reset_data]
      exact hx

/-- **C142d.** Patches that were saved.  If the call returns, every patch that has been simulated is
the saved one, which stays saved, and earlier results are replaced; nothing is generated. -/
theorem C142_reload {T : PatchTools P} {save : Bool} {gen : ℕ → Py P} {n : ℕ} {base : APath}
    {name : PName} {d d' : PatchDisk P} {out : KDict Text (APath × APath)} (hs : Sound d)
    (hb : d.dirs base = true) (hf : NameFits name n) {x : ℕ → P}
    (hx : ∀ i < n, d.file (patchRoot base name n i ++
      ["material_patch".toList, "material_patch.pkl".toList]) = some (.patch (x i)))
    (hnf : ∀ i < n, d.file (patchRoot base name n i ++ ["simulations".toList]) = none ∧
      d.file (patchRoot base name n i ++ ["plots".toList]) = none)
    (h : generatePatches T ⟨save, true⟩ gen n base name d = (d', .ok out)) :
    ∀ i < n, Simulated d' (patchRoot base name n i) (x i) ∧
      d'.file (patchRoot base name n i ++ ["material_patch".toList, "material_patch.pkl".toList]) =
        some (.patch (x i)) := by
  obtain ⟨h1, -⟩ := loop_spec (T := T) (F := ⟨save, true⟩) (gen := gen) (d' := d') (res := .ok out) hf
    (Ready := fun j d => Loadable d (patchRoot base name n j))
    (Res := fun j d d' => ∃ x, d.file (patchRoot base name n j ++
        ["material_patch".toList, "material_patch.pkl".toList]) = some (.patch x) ∧
      Simulated d' (patchRoot base name n j) x ∧ d'.file (patchRoot base name n j ++
        ["material_patch".toList, "material_patch.pkl".toList]) = some (.patch x))
    (fun j d d' h1 h2 => h2.transfer h1)
    (fun j _ _ d d' h0 h1 ⟨x, k1, k2, k3⟩ => ⟨x, by
        rw [← (h0 _ (List.prefix_append _ _)).2]
        exact k1, k2.transfer h1, by
        rw [(h1 _ (List.prefix_append _ _)).2]
        exact k3⟩)
    (fun j hj d d' r hb ht h => onePatch_load hf hj hb ht h)
    n 0 d (by omega) (base_of_sound hs hb) (fun j _ hj => by
      have hd : ∀ q, q <+: patchRoot base name n j ++
          ["material_patch".toList, "material_patch.pkl".toList] →
          q ≠ patchRoot base name n j ++ ["material_patch".toList, "material_patch.pkl".toList] →
          d.dirs q = true := fun q h1 h2 => hs.1 q _ h1 h2 (Or.inr (by rw [hx j hj]; simp))
      have d1 : d.dirs (patchRoot base name n j) = true := hd _ (List.prefix_append _ _) (by simp)
      refine ⟨d1, hs.2 _ d1, hd _ ⟨["material_patch.pkl".toList], by simp [patchDataDir]⟩
        (by simp [patchDataDir]), tidy_of_sound hs (hnf j hj).1, tidy_of_sound hs (hnf j hj).2⟩) h
  intro i hi
  obtain ⟨y, k1, k2, k3⟩ := (h1 out rfl).1 i (Nat.zero_le _) hi
  rw [hx i hi] at k1
  cases k1
  exact ⟨k2, k3⟩

/-- **C142e.** After a run that returned, the conversion of the results for the data set of local paths
finds the files of a patch if and only if the name of the patches is `random_specimen`. -/
theorem C142_formatted {d : PatchDisk P} {p : APath} {x : P} {name : PName} (h : Simulated d p x) :
    patchFormattedData d p name =
      if name = "random_specimen".toList then
        .ok (p ++ ["simulations".toList, "random_specimen.dat".toList],
          p ++ ["simulations".toList, "random_specimen".toList])
      else .error .runtimeError := by
  have hd : d.dirs (patchSimulationsDir p) = true := h.folder
  unfold patchFormattedData
  simp only [hd, raiseIf, Bool.not_true, Bool.false_eq_true, if_false, bind, Except.bind]
  by_cases hn : name = "random_specimen".toList
  · rw [if_pos hn, hn]
    have e1 := inputFile_eq p
    have e2 := outputDir_eq p
    unfold patchInputFile at e1
    unfold patchOutputDir at e2
    have hsn : specimenName = "random_specimen".toList := rfl
    rw [hsn] at e1 e2
    rw [e1, e2, h.input, h.output]
    rfl
  · rw [if_neg hn]
    have hnone : d.file (patchSimulationsDir p ++ [name ++ ".dat".toList]) = none := by
      by_contra hne
      have e : patchSimulationsDir p ++ [name ++ ".dat".toList] =
          p ++ ["simulations".toList, name ++ ".dat".toList] := by simp [patchSimulationsDir]
      rcases h.only "simulations".toList _ (Or.inl rfl) (List.prefix_append _ _) hne with h1 | h1 | h1
      · have h1 := e.symm.trans h1
        have h1 := (List.cons.inj (List.cons.inj (List.append_cancel_left h1)).2).1
        have e2 : "random_specimen.dat".toList = "random_specimen".toList ++ ".dat".toList := by decide
        rw [e2] at h1
        exact hn (List.append_cancel_right h1)
      · have h1 := e.symm.trans h1
        have h1 := (List.cons.inj (List.cons.inj (List.append_cancel_left h1)).2).2
        cases h1
      · have h1 := e.symm.trans h1
        exact sims_ne_plots (List.cons.inj (List.append_cancel_left h1)).1
    rw [hnone]
    rfl

end Hooke
