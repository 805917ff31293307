import Verif.Props.NoisyHistory

/-!
# C124: cases in which the noise of a history is not as it should be
-/

noncomputable section

open Classical

namespace Hooke

open Spec

/-! ### A history -/

/-- A row of a table: a node at the origin with a displacement in the first direction. -/
def movedRow (u : ℝ) : List ℝ := [1, 0, 0, 0, u, 0, 0, 0, 0, 0]

/-- Two time steps of a node. -/
def twoStepDir (u v : ℝ) : CsvDir :=
  ⟨[(historyFile "s".toList 1, ⟨10, [movedRow v]⟩), (historyFile "s".toList 0, ⟨10, [movedRow u]⟩)], []⟩

theorem twoStep_fresh (u v : ℝ) : FreshName (twoStepDir u v) "noisy".toList where
  name := by
    refine ⟨by decide, by decide, ?_⟩
    simp only [twoStepDir, KDict.keys, List.map_cons, List.map_nil, List.mem_cons, List.not_mem_nil,
      or_false]
    decide +kernel
  files := by
    simp only [twoStepDir, KDict.keys, List.map_cons, List.map_nil]
    decide +kernel
  subs := by
    rintro s (hs | rfl) n hn
    · simp [twoStepDir, KDict.keys] at hs
    · have := stepNumber_iff.mpr hn
      have h0 : stepNumber "noisy".toList = none := by decide +kernel
      rw [h0] at this
      cases this

theorem twoStep_steps (u v : ℝ) : StepsOf (twoStepDir u v)
    [(0, historyFile "s".toList 0, ⟨10, [movedRow u]⟩), (1, historyFile "s".toList 1, ⟨10, [movedRow v]⟩)] where
  mem := by
    intro n f fr
    simp only [twoStepDir, List.mem_cons, Prod.mk.injEq, List.not_mem_nil, or_false]
    constructor
    · rintro (⟨rfl, rfl, rfl⟩ | ⟨rfl, rfl, rfl⟩)
      · exact ⟨.inr ⟨rfl, rfl⟩, stepName_history _ 0⟩
      · exact ⟨.inl ⟨rfl, rfl⟩, stepName_history _ 1⟩
    · rintro ⟨⟨rfl, rfl⟩ | ⟨rfl, rfl⟩, hn⟩
      · exact .inr ⟨stepName_unique hn (stepName_history _ 1), rfl, rfl⟩
      · exact .inl ⟨stepName_unique hn (stepName_history _ 0), rfl, rfl⟩
  sorted := by simp

/-- The hypotheses of `C124_uniform`, `C124_gaussian`, `C124_denoise` and `C124_average` are met by two
time steps of a node, found in the wrong order. -/
example (u v : ℝ) : FreshName (twoStepDir u v) "noisy".toList ∧ ∃ steps, StepsOf (twoStepDir u v) steps ∧
    steps ≠ [] ∧ ∀ s ∈ steps, TenColumns s.2.2 ∧ s.2.2.rows.length = 1 :=
  ⟨twoStep_fresh u v, _, twoStep_steps u v, by simp, by
    intro s hs
    simp only [List.mem_cons, List.not_mem_nil, or_false] at hs
    rcases hs with rfl | rfl <;> simp [TenColumns, movedRow]⟩

/-! ### Faults -/

/-- **C124 is violated for the histories of the specimens.** The history files that are written from a
simulation, and that are read for a specimen, have thirteen columns (C107): for these, the injection
fails at the second time step, leaving the first one alone in the new directory. -/
theorem C124_columns_violated {dist : String} {ps : KDict String ℝ} {g : NoiseGen}
    (hg : noiseSetup dist ps = .ok g) {dirname : Text} {draws : ℕ → NoiseDraws} {D : CsvDir}
    (hf : FreshName D dirname) {s0 s1 : ℕ × Text × Frame} {rest : List (ℕ × Text × Frame)}
    (hs : StepsOf D (s0 :: s1 :: rest)) (h13 : s1.2.2.cols = 13) :
    ∃ D', injectNoise dist ps dirname draws D = (D', .error .runtimeError) ∧
      WithSub D D' dirname [(s0.2.1, s0.2.2)] := by
  have hst := stepFiles_eq hf hs (put_subs (D := D) (dirname := dirname))
  unfold injectNoise
  rw [hg]
  dsimp only
  rw [overwriteSub_eq hf]
  dsimp only
  unfold injectFiles
  rw [hst]
  simp only [List.map_cons]
  rw [read_step hf hs List.mem_cons_self]
  dsimp only
  have hw := writes_eq dirname [(s0.2.1, s0.2.2)] ⟨D.files, D.subs.put dirname []⟩ []
    (KDict.get?_put_self _ _ _) (by intro p _; simp [KDict.keys]) (by simp)
  rw [List.foldl_cons, List.foldl_nil, List.nil_append] at hw
  refine ⟨_, ?_, withSub_put hw⟩
  unfold injectSteps
  have hr : CsvDir.read (CsvDir.write ⟨D.files, D.subs.put dirname []⟩ dirname s0.2.1 s0.2.2) s1.2.1
      = .ok s1.2.2 := read_step hf hs (s := s1) (by simp)
  rw [hr]
  have hn : noisyFrame g (draws 1) s1.2.2 = .error .runtimeError := by
    simp [noisyFrame, raiseIf, h13, bind, Except.bind]
  simp only [Except.bind, hn]

/-- **C124 is violated for the reading of noisy histories.** Whatever is written after the first time step
is refused by the reading of the history of a specimen, which expects thirteen columns. -/
theorem C124_reading_violated {D D' : CsvDir} {dirname : Text} {steps : List (ℕ × Text × Frame)}
    {noise : ℕ → ℕ → ℕ → ℝ} (h : Injected D D' dirname steps noise)
    (h10 : ∀ s ∈ steps.tail, TenColumns s.2.2) (nNode : ℕ) :
    ∃ out, D'.subs.get? dirname = some out ∧ ∀ (k : ℕ) (hk : k < steps.length), 0 < k →
      historyTable nNode out steps[k].2.1 = .error .runtimeError := by
  obtain ⟨out, ⟨-, h1, -⟩, -, h2⟩ := h
  refine ⟨out, h1, ?_⟩
  intro k hk h0
  obtain ⟨fr', h3, h4⟩ := h2 k hk
  rw [if_neg (by omega)] at h4
  have hmem : steps[k] ∈ steps.tail := by
    obtain ⟨m, rfl⟩ : ∃ m, k = m + 1 := ⟨k - 1, by omega⟩
    cases steps with
    | nil => simp at hk
    | cons s rest => exact List.getElem_mem (l := rest) (by simpa using hk)
  have hc : fr'.cols = 10 := h4.1.trans (h10 _ hmem).1
  unfold historyTable
  rw [h3]
  by_cases hn : fr'.rows.length = nNode <;>
    simp [orRaise, raiseIf, hn, hc, bind, Except.bind]

/-- **C124 is violated for an empty name.** Without a name, or with the name `.`, of the new directory, the
data directory itself is emptied: the whole history is lost, and both functions fail. -/
theorem C124_name_violated {dist : String} {ps : KDict String ℝ} {g : NoiseGen}
    (hg : noiseSetup dist ps = .ok g) (draws : ℕ → NoiseDraws) (den : Series → Py Series) (D : CsvDir)
    (dirname : Text) (h : dirname = [] ∨ dirname = ['.']) :
    injectNoise dist ps dirname draws D = (⟨[], []⟩, .error .indexError) ∧
    denoiseFiles den dirname D = (⟨[], []⟩, .error .valueError) := by
  have ho : D.overwriteSub dirname = (⟨[], []⟩, .ok ()) := by
    unfold CsvDir.overwriteSub
    rw [if_pos h]
  constructor
  · unfold injectNoise
    rw [hg]
    dsimp only
    rw [ho]
    rfl
  · unfold denoiseFiles
    rw [ho]
    rfl

/-- **C124 is violated for directories without time steps.** An earlier result is deleted before the
function fails. -/
theorem C124_empty_violated {dist : String} {ps : KDict String ℝ} {g : NoiseGen}
    (hg : noiseSetup dist ps = .ok g) (draws : ℕ → NoiseDraws) (den : Series → Py Series) {D : CsvDir}
    {dirname : Text} (hf : FreshName D dirname) (hs : StepsOf D []) :
    ∃ D', injectNoise dist ps dirname draws D = (D', .error .indexError) ∧
      denoiseFiles den dirname D = (D', .error .valueError) ∧ WithSub D D' dirname [] := by
  have hst := stepFiles_eq hf hs (put_subs (D := D) (dirname := dirname))
  refine ⟨⟨D.files, D.subs.put dirname []⟩, ?_, ?_, rfl, KDict.get?_put_self _ _ _,
    fun s hs => KDict.get?_put_ne _ _ hs⟩
  · unfold injectNoise
    rw [hg]
    dsimp only
    rw [overwriteSub_eq hf]
    dsimp only
    unfold injectFiles
    rw [hst]
    rfl
  · unfold denoiseFiles
    rw [overwriteSub_eq hf]
    dsimp only
    rw [hst]
    rfl

/-- **C124 is violated for two specimens.** With the histories of two specimens in the directory, only one
initial step is kept: the initial displacements of the other specimen get noise. -/
theorem C124_specimens_violated {ps : KDict String ℝ} {amp : ℝ} (ha : ps.get? "amp" = some amp)
    {draws : ℕ → NoiseDraws} (hd : ∀ k, UnitDraws (draws k)) (u v : ℝ) :
    ∃ D' out fr', injectNoise "uniform" ps "noisy".toList draws
        ⟨[(historyFile "a".toList 0, ⟨10, [movedRow u]⟩), (historyFile "b".toList 0, ⟨10, [movedRow v]⟩)], []⟩
        = (D', .ok ()) ∧ D'.subs.get? "noisy".toList = some out ∧
      out.get? (historyFile "b".toList 0) = some fr' ∧
      dispAt fr' 0 0 = v + |amp| * ((draws 1).unit 0 0 - 1 / 2) := by
  set D : CsvDir := ⟨[(historyFile "a".toList 0, ⟨10, [movedRow u]⟩),
    (historyFile "b".toList 0, ⟨10, [movedRow v]⟩)], []⟩ with hD
  have hg : noiseSetup "uniform" ps = .ok ⟨some .uniform, some ps⟩ := by
    have hh : ps.has "amp" = true := by simp [KDict.has, ha]
    simp [noiseSetup, NoiseGen.setDistribution, noiseDist?, orRaise, NoiseGen.setParameters,
      requiredParameters, raiseIf, hh, bind, Except.bind, pure, Except.pure, NoiseGen.new]
  have hab : historyFile "a".toList 0 ≠ historyFile "b".toList 0 := by decide +kernel
  have ho : D.overwriteSub "noisy".toList = (⟨D.files, [("noisy".toList, [])]⟩, .ok ()) := by
    unfold CsvDir.overwriteSub
    rw [if_neg (by decide), if_neg]
    · rfl
    · rw [KDict.has_iff]
      simp only [hD, KDict.keys, List.map_cons, List.map_nil, List.mem_cons, List.not_mem_nil, or_false]
      decide +kernel
  have hst : (stepFiles (CsvDir.names ⟨D.files, [("noisy".toList, [])]⟩)).map Prod.snd
      = [historyFile "a".toList 0, historyFile "b".toList 0] := by
    simp only [hD, CsvDir.names, KDict.keys, List.map_cons, List.map_nil]
    decide +kernel
  obtain ⟨D', out, h1, ⟨-, h2, -⟩, h3, h4⟩ := inject_steps (g := ⟨some .uniform, some ps⟩)
    (dirname := "noisy".toList) (draws := draws) (D := ⟨D.files, [("noisy".toList, [])]⟩)
    (f0 := historyFile "a".toList 0) (fr0 := ⟨10, [movedRow u]⟩)
    (l := [(historyFile "b".toList 0, ⟨10, [movedRow v]⟩)]) hst (by simp [KDict.get?])
    (by simpa using hab) (by
      refine ⟨by simp [hD, KDict.get?], ?_⟩
      intro p hp
      rw [List.mem_singleton] at hp
      subst hp
      simp only [hD, KDict.get?]
      rw [if_neg hab, if_pos trivial]) (by
      intro p hp
      rw [List.mem_singleton] at hp
      subst hp
      simp [TenColumns, movedRow]) (noise := fun k i c => |amp| * ((draws k).unit i c - 1 / 2)) (by
      intro k n
      obtain ⟨p, hp, hps, hpv⟩ := C108_uniform (g := ⟨some .uniform, some ps⟩) (T := n) (F := 3)
        (v := "homoscedastic") (weights := none) (amp := amp) rfl
        (by simp [NoiseGen.param, orRaise, ha, bind, Except.bind]) (.inl rfl) (hd k)
      refine ⟨p, hp, hps, ?_⟩
      intro i hi c hc
      rw [(hpv i hi c hc).1]
      simp [weightAt])
  obtain ⟨fr', h5, -, -, -, h6⟩ := h4 0 (by simp)
  refine ⟨D', _, fr', ?_, h2, ?_, ?_⟩
  · unfold injectNoise
    rw [hg]
    dsimp only
    rw [ho]
    exact h1
  · simp only [KDict.get?]
    rw [if_neg hab]
    exact h5
  · have := h6 0 (by simp) 4 (by norm_num)
    rw [if_pos (by norm_num)] at this
    unfold dispAt
    rw [this]
    simp [dispAt, Frame.at, movedRow]

/-- **C124 is violated for initial displacements.** The displacements of the first time step are deleted,
even when nothing is denoised. -/
theorem C124_initial_violated {cf : ℕ → ℕ → Py (List ℝ)} {w : ℤ} {dirname : Text} {D : CsvDir}
    (hf : FreshName D dirname) {steps : List (ℕ × Text × Frame)} (hs : StepsOf D steps)
    (hne : steps ≠ []) {n : ℕ} (h10 : ∀ s ∈ steps, TenColumns s.2.2 ∧ s.2.2.rows.length = n) :
    ∃ D' out, denoiseFiles (fun x => denoise .float64 cf (.series x) "moving_average" (.window w) 0)
        dirname D = (D', .ok ()) ∧ WithSub D D' dirname out ∧
      ∀ (k : ℕ) (h : k < steps.length), ∃ fr', out.get? steps[k].2.1 = some fr' ∧
        ∀ i < n, ∀ c < 3, dispAt fr' i c = if k = 0 then 0 else dispAt steps[k].2.2 i c := by
  obtain ⟨D', out, h1, h2, -, h4⟩ := C124_denoise hf hs hne h10
    (den := fun x => denoise .float64 cf (.series x) "moving_average" (.window w) 0)
    (y := fun i => dispSeries (steps.map fun s => s.2.2) i) (by
      intro i _
      rw [C67_no_cycle .float64 cf _ _ _ 0 le_rfl, if_pos (by simp)])
  refine ⟨D', out, h1, h2, ?_⟩
  intro k hk
  obtain ⟨fr', h5, -, -, -, h6⟩ := h4 k hk
  refine ⟨fr', h5, ?_⟩
  intro i hi c hc
  have hv := h6 i (by rw [(h10 _ (List.getElem_mem hk)).2]; exact hi) (4 + c) (by omega)
  rw [if_pos ⟨by omega, by omega⟩, Nat.add_sub_cancel_left] at hv
  unfold dispAt
  rw [hv]
  split_ifs
  · rfl
  · unfold dispSeries dispAt
    dsimp only
    rw [getD_at _ (by simpa using hk), List.getElem_map]

/-- **C124 is violated for single precision.** The displacements are read in double precision: with the
default precision of PyTorch, the moving average refuses every history with nodes, after the earlier
result has been deleted. -/
theorem C124_precision_violated {cf : ℕ → ℕ → Py (List ℝ)} {w cycles : ℤ} (hw : 1 ≤ w) (hc : 1 ≤ cycles)
    {dirname : Text} {D : CsvDir} (hf : FreshName D dirname) {steps : List (ℕ × Text × Frame)}
    (hs : StepsOf D steps) (hne : steps ≠ []) {n : ℕ} (hn : 0 < n)
    (h10 : ∀ s ∈ steps, TenColumns s.2.2 ∧ s.2.2.rows.length = n) :
    ∃ D', denoiseFiles (fun x => denoise .float32 cf (.series x) "moving_average" (.window w) cycles)
        dirname D = (D', .error .runtimeError) ∧ WithSub D D' dirname [] := by
  have hst := stepFiles_eq hf hs (put_subs (D := D) (dirname := dirname))
  have hfs : (stepFiles (CsvDir.names ⟨D.files, D.subs.put dirname []⟩)).map Prod.snd
      = (steps.map fun s => (s.2.1, s.2.2)).map Prod.fst := by
    rw [hst]
    simp [Function.comp_def]
  have htab : historyTables ⟨D.files, D.subs.put dirname []⟩
      ((steps.map fun s => (s.2.1, s.2.2)).map Prod.fst)
      = .ok ((steps.map fun s => (s.2.1, s.2.2)).map Prod.snd) := by
    refine historyTables_eq (n := n) (by simpa using hne) ?_ ?_ ?_ <;>
    · intro p hp
      obtain ⟨s, hs', rfl⟩ := List.mem_map.mp hp
      first
        | exact get?_of_mem _ hf.files _ _ ((hs.mem s.1 s.2.1 s.2.2).mp hs').1
        | exact (h10 s hs').1.1
        | exact (h10 s hs').2
  refine ⟨⟨D.files, D.subs.put dirname []⟩, ?_, rfl, KDict.get?_put_self _ _ _,
    fun s hs => KDict.get?_put_ne _ _ hs⟩
  unfold denoiseFiles
  rw [overwriteSub_eq hf]
  dsimp only
  rw [hfs, htab]
  dsimp only
  have hrows : (((steps.map fun s => (s.2.1, s.2.2)).map Prod.snd).getD 0 (⟨0, []⟩ : Frame)).rows.length = n := by
    obtain ⟨s, rest, rfl⟩ := List.exists_cons_of_ne_nil hne
    exact (h10 s List.mem_cons_self).2
  rw [hrows]
  obtain ⟨m, rfl⟩ : ∃ m, n = m + 1 := ⟨n - 1, by omega⟩
  rw [List.range_succ_eq_map, List.mapM_cons]
  have herr : cleanSeries (fun x => denoise .float32 cf (.series x) "moving_average" (.window w) cycles)
      ((steps.map fun s => (s.2.1, s.2.2)).map Prod.snd) 0 = .error .runtimeError := by
    unfold cleanSeries
    dsimp only
    rw [C67_type_violated .float32 cf _ w cycles hw hc (by simp [nodeSeries]) (by
      simpa [nodeSeries, List.length_pos_iff] using hne) (by simp [nodeSeries])]
    rfl
  rw [herr]
  rfl

end Hooke
