import Verif.Props.PruningCases

/-!
# C104: the preview of a pruning
-/

namespace Hooke

open Spec

variable {M : Type}

theorem previewStep_inl {p : PruneParams} {nFull : ℕ} {nDev c : ℤ}
    (h : previewStep p nFull nDev = .ok (.inl c)) :
    Scheduled p nDev.toNat c ∧ p.nDevMin < nDev ∧ p.ratioDevMin < (nDev : ℝ) / nFull := by
  unfold previewStep at h
  obtain ⟨n, hn, h⟩ := bind_ok h
  obtain ⟨t, ht, h⟩ := bind_ok h
  obtain ⟨st, hst, h⟩ := bind_ok h
  cases st with
  | some s => simp at h
  | none =>
    have hh := Except.ok.inj h
    simp only [Sum.inl.injEq] at hh
    subst hh
    unfold previewStatus at hst
    by_cases h1 : (nDev : ℝ) ≤ p.nDevMin
    · rw [if_pos h1] at hst; simp at hst
    · rw [if_neg h1] at hst
      by_cases h2 : (nDev : ℝ) / nFull ≤ p.ratioDevMin
      · rw [if_pos h2] at hst; simp at hst
      · exact ⟨getNPrunSample_ok hn, not_le.mp h1, not_le.mp h2⟩

theorem previewStep_inr {p : PruneParams} {nFull : ℕ} {nDev : ℤ} {s : String}
    (h : previewStep p nFull nDev = .ok (.inr s)) : PreviewStop p nFull nDev s := by
  unfold previewStep at h
  obtain ⟨n, hn, h⟩ := bind_ok h
  obtain ⟨t, ht, h⟩ := bind_ok h
  obtain ⟨st, hst, h⟩ := bind_ok h
  unfold previewTest at ht
  obtain ⟨ft, hft, ht⟩ := bind_ok ht
  obtain ⟨fv, hfv, ht⟩ := bind_ok ht
  rw [orRaise_ok] at hft hfv
  have ht' := Except.ok.inj ht
  cases st with
  | none => simp at h
  | some s' =>
    have hh := Except.ok.inj h
    simp only [Sum.inr.injEq] at hh
    subst hh
    unfold previewStatus at hst
    split_ifs at hst with h1 h2 h3 h4 h5
    · exact .inl ⟨h1, (Option.some.inj (Except.ok.inj hst)).symm⟩
    · exact .inr (.inl ⟨h2, (Option.some.inj (Except.ok.inj hst)).symm⟩)
    · exact .inr (.inr ⟨ft, fv, n, t, hft, hfv, getNPrunSample_ok hn, by omega,
        .inl ⟨h3, (Option.some.inj (Except.ok.inj hst)).symm⟩⟩)
    · exact .inr (.inr ⟨ft, fv, n, t, hft, hfv, getNPrunSample_ok hn, by omega,
        .inr ⟨h5, (Option.some.inj (Except.ok.inj hst)).symm⟩⟩)
    · exact absurd (Except.ok.inj hst) (by simp)

/-- What holds before each pass of the preview loop. -/
structure PreviewInv (p : PruneParams) (nFull k : ℕ) (nDev nUnused : ℤ) (lines : List PreviewLine) :
    Prop where
  preview : Preview p nFull lines
  iter : k = lines.length
  sum : nDev + nUnused = nFull
  first : k = 0 → nDev = nFull
  last : ∀ l, 0 < k → lines[k - 1]? = some l → l.nDev = nDev
  bound : (k : ℤ) ≤ max p.nIterMax 0

theorem getElem?_append_last {α : Type} {l : List α} {x y : α}
    (h : (l ++ [x])[l.length]? = some y) : x = y := by simpa using h

theorem preview_extend {p : PruneParams} {nFull k : ℕ} {nDev nUnused c : ℤ}
    {lines : List PreviewLine} (hi : PreviewInv p nFull k nDev nUnused lines) {line : PreviewLine}
    (hstep : (if k = 0 then .ok (.inl 0) else previewStep p nFull nDev) = .ok (.inl c))
    (hline : previewLine p k (nDev - c) (nUnused + c) = .ok line) :
    Preview p nFull (lines ++ [line]) ∧ line.nDev = nDev - c := by
  unfold previewLine at hline
  obtain ⟨f, hf, hline⟩ := bind_ok hline
  rw [orRaise_ok] at hf
  obtain rfl := Except.ok.inj hline
  have hk := hi.iter
  refine ⟨⟨?_, ?_, ?_⟩, rfl⟩
  · intro l hl
    by_cases h0 : k = 0
    · rw [if_pos h0] at hstep
      have hc : 0 = c := by simpa using Except.ok.inj hstep
      rw [← h0, hk] at hl
      have hl' := getElem?_append_last hl
      rw [← hl']
      show nDev - c = _
      rw [hi.first h0]
      omega
    · rw [List.getElem?_append_left (by omega)] at hl
      exact hi.preview.start l hl
  · intro j l hl
    by_cases hj : j < lines.length
    · rw [List.getElem?_append_left hj] at hl
      exact hi.preview.line j l hl
    · have hj' : j = lines.length := by
        have := (List.getElem?_eq_some_iff.mp hl).1
        simp at this
        omega
      subst hj'
      have hl' := getElem?_append_last hl
      rw [← hl']
      refine ⟨hk, ?_, ?_, f, hf, ?_⟩
      · show nDev - c + (nUnused + c) = _
        have := hi.sum
        omega
      · show ⌊f * ((nDev - c : ℤ) : ℝ)⌋ + (nDev - c - ⌊f * ((nDev - c : ℤ) : ℝ)⌋) = nDev - c
        omega
      · rfl
  · intro j l l' hl hl'
    by_cases hj : j + 1 < lines.length
    · rw [List.getElem?_append_left (by omega)] at hl
      rw [List.getElem?_append_left hj] at hl'
      exact hi.preview.step j l l' hl hl'
    · have hj' : j + 1 = lines.length := by
        have := (List.getElem?_eq_some_iff.mp hl').1
        simp at this
        omega
      rw [List.getElem?_append_left (by omega)] at hl
      rw [hj'] at hl'
      have hl'' := getElem?_append_last hl'
      rw [if_neg (by omega)] at hstep
      have hlast : l.nDev = nDev := hi.last l (by omega) (by rw [← hl]; congr 1; omega)
      obtain ⟨h1, h2, h3⟩ := previewStep_inl hstep
      rw [← hl'', hlast]
      exact ⟨c, h1, rfl, h2, h3⟩

theorem previewLoop_spec {p : PruneParams} {nFull fuel k : ℕ} {nDev nUnused : ℤ}
    {lines out : List PreviewLine} {status : String}
    (hi : PreviewInv p nFull k nDev nUnused lines)
    (h : previewLoop p nFull fuel k nDev nUnused lines = some (.ok (out, status))) :
    Preview p nFull out ∧ 0 < out.length ∧
      (((out.length : ℤ) = max p.nIterMax 0 + 1 ∧
          status = "Maximum number of pruning iterations reached.") ∨
        ((out.length : ℤ) ≤ max p.nIterMax 0 ∧
          ∃ l, out[out.length - 1]? = some l ∧ PreviewStop p nFull l.nDev status)) := by
  induction fuel generalizing k nDev nUnused lines with
  | zero => simp [previewLoop] at h
  | succ fuel ih =>
    rw [previewLoop] at h
    cases hstep : (if k = 0 then .ok (.inl 0) else previewStep p nFull nDev : Py (ℤ ⊕ String)) with
    | error e => rw [hstep] at h; simp at h
    | ok r =>
      rw [hstep] at h
      cases r with
      | inr s =>
        obtain ⟨rfl, rfl⟩ := Prod.mk.inj (Except.ok.inj (Option.some.inj h))
        have hk0 : k ≠ 0 := by
          intro h0
          rw [if_pos h0] at hstep
          simp at hstep
        rw [if_neg hk0] at hstep
        have hk := hi.iter
        have hb := hi.bound
        refine ⟨hi.preview, by omega, .inr ⟨by omega, ?_⟩⟩
        have hlt : k - 1 < lines.length := by omega
        refine ⟨lines[k - 1], ?_, ?_⟩
        · rw [← hk, List.getElem?_eq_getElem hlt]
        · rw [hi.last _ (by omega) (List.getElem?_eq_getElem hlt)]
          exact previewStep_inr hstep
      | inl c =>
        simp only [] at h
        cases hline : previewLine p k (nDev - c) (nUnused + c) with
        | error e => rw [hline] at h; simp at h
        | ok line =>
          rw [hline] at h
          simp only [] at h
          obtain ⟨hprev, hnd⟩ := preview_extend hi hstep hline
          have hk := hi.iter
          have hb := hi.bound
          by_cases hmax : (k : ℤ) ≥ p.nIterMax
          · rw [if_pos hmax] at h
            obtain ⟨rfl, rfl⟩ := Prod.mk.inj (Except.ok.inj (Option.some.inj h))
            refine ⟨hprev, by simp, .inl ⟨?_, rfl⟩⟩
            rw [List.length_append, List.length_singleton, ← hk]
            push_cast
            omega
          · rw [if_neg hmax] at h
            refine ih ⟨hprev, ?_, ?_, fun h0 => absurd h0 (by omega), ?_, ?_⟩ h
            · rw [List.length_append, List.length_singleton, hk]
            · have := hi.sum
              omega
            · intro l _ hl
              rw [Nat.add_sub_cancel, hk] at hl
              have hl' := getElem?_append_last hl
              rw [← hl', hnd]
            · push_cast
              omega

/-- **C104** (preview). The lines of a preview follow the schedule from the full data set on, the
sizes in every line add up, and the preview ends after the maximum number of iterations or with the
reason returned. -/
theorem C104_preview {p : PruneParams} {nFull fuel : ℕ} {lines : List PreviewLine}
    {status : String} (h : previewPruning p nFull fuel = some (.ok (lines, status))) :
    Preview p nFull lines ∧ 0 < lines.length ∧
      (((lines.length : ℤ) = max p.nIterMax 0 + 1 ∧
          status = "Maximum number of pruning iterations reached.") ∨
        ((lines.length : ℤ) ≤ max p.nIterMax 0 ∧
          ∃ l, lines[lines.length - 1]? = some l ∧ PreviewStop p nFull l.nDev status)) := by
  unfold previewPruning at h
  split_ifs at h with h0
  · simp at h
  exact previewLoop_spec (lines := []) ⟨⟨fun l h => by simp at h, fun k l h => by simp at h,
    fun k l l' h => by simp at h⟩, rfl, by simp, fun _ => rfl,
    fun l h => absurd h (by simp), by simp⟩ h

/-- **C104** (agreement). If the scheduler never asks for a negative number of samples and the
maximum testing ratio is at most one, the preview and the pruning have the same numbers of
development and unused samples in every iteration of both. -/
theorem C104_agrees {env : PruneEnv M} (he : Shuffles env) {cfg : PruneCfg}
    (hn : NamedSubsets cfg.params) (hr : cfg.params.prunTestRatioMax ≤ 1)
    (hs : ∀ n c, Scheduled cfg.params n c → 0 ≤ c) {full : List ℕ} {fuel fuel' : ℕ}
    {out : PruneState M} {status status' : String} {lines : List PreviewLine}
    (h : pruneTimeSeriesDataset env cfg full fuel = some (.ok (out, status)))
    (h' : previewPruning cfg.params full.length fuel' = some (.ok (lines, status')))
    (k : ℕ) (d : IterData) (l : PreviewLine) (hd : out.data[k]? = some d)
    (hl : lines[k]? = some l) : l.nDev = d.nDev ∧ l.nUnused = d.nUnused := by
  obtain ⟨tr, hrun, -⟩ := C103_run he hn h
  obtain ⟨hp, -⟩ := C104_preview h'
  have key : l.nDev = d.nDev := by
    induction k generalizing d l with
    | zero =>
      obtain ⟨_, _, _, hpi, -⟩ := hrun.iteration 0 d hd
      rw [hp.start l hl, hpi.nDev, hrun.start]
    | succ k ih =>
      obtain ⟨d0, hd0⟩ : ∃ d0, out.data[k]? = some d0 :=
        ⟨_, List.getElem?_eq_getElem (Nat.lt_of_succ_lt (List.getElem?_eq_some_iff.mp hd).1)⟩
      obtain ⟨l0, hl0⟩ : ∃ l0, lines[k]? = some l0 :=
        ⟨_, List.getElem?_eq_getElem (Nat.lt_of_succ_lt (List.getElem?_eq_some_iff.mp hl).1)⟩
      have e := ih d0 l0 hd0 hl0
      obtain ⟨c, hc, h1, -⟩ := hp.step k l0 l hl0 hl
      rw [e, Int.toNat_natCast] at hc
      have := (C103_schedule hrun hr k d0 d c hd0 hd hc (hs _ _ hc)).1
      rw [h1, this, e]
  refine ⟨key, ?_⟩
  have h1 := (hp.line k l hl).2.1
  have h2 := (C103_sizes he hn h k d hd).2.2.2.1
  have h3 := (C103_sizes he hn h k d hd).2.1
  omega

/-- **C104** (training sizes). The training samples of the pruning are as many as those of the
preview, or one more. -/
theorem C104_training_size {env : PruneEnv M} (he : Shuffles env) {cfg : PruneCfg}
    (hn : NamedSubsets cfg.params) (hr : cfg.params.prunTestRatioMax ≤ 1)
    (hs : ∀ n c, Scheduled cfg.params n c → 0 ≤ c)
    (hone : (cfg.params.iterSizes.map Prod.snd).sum = 1)
    (hpos : ∀ q ∈ cfg.params.iterSizes, 0 ≤ q.2) {full : List ℕ} {fuel fuel' : ℕ}
    {out : PruneState M} {status status' : String} {lines : List PreviewLine}
    (h : pruneTimeSeriesDataset env cfg full fuel = some (.ok (out, status)))
    (h' : previewPruning cfg.params full.length fuel' = some (.ok (lines, status')))
    (k : ℕ) (d : IterData) (l : PreviewLine) (hd : out.data[k]? = some d)
    (hl : lines[k]? = some l) : (d.nTrain : ℤ) = l.nTrain ∨ (d.nTrain : ℤ) = l.nTrain + 1 := by
  have e := (C104_agrees he hn hr hs h h' k d l hd hl).1
  obtain ⟨tr, hrun, -⟩ := C103_run he hn h
  obtain ⟨_, _, _, hpi, -⟩ := hrun.iteration k d hd
  obtain ⟨-, -, -, f, hf, ht⟩ := (C104_preview h').1.line k l hl
  have hm := lookup_mem hf
  obtain ⟨i, hi⟩ := List.getElem?_of_mem hm
  have hsz := hpi.trainSize hone i f hi
  rw [← hpi.nTrain, ← hpi.nDev] at hsz
  have hf0 : (0 : ℝ) ≤ d.nDev * f := mul_nonneg (Nat.cast_nonneg _) (hpos _ hm)
  have hfl : l.nTrain = (⌊(d.nDev : ℝ) * f⌋₊ : ℤ) := by
    rw [ht, e, Int.cast_natCast, mul_comm, Int.natCast_floor_eq_floor hf0]
  rw [hfl, hsz]
  split_ifs
  · right; push_cast; rfl
  · left; simp

theorem previewLoop_terminates (p : PruneParams) (nFull fuel k : ℕ) (nDev nUnused : ℤ)
    (lines : List PreviewLine) (h : p.nIterMax < k + fuel) (hf : 0 < fuel) :
    ∃ r, previewLoop p nFull fuel k nDev nUnused lines = some r := by
  induction fuel generalizing k nDev nUnused lines with
  | zero => omega
  | succ fuel ih =>
    rw [previewLoop]
    cases (if k = 0 then .ok (.inl 0) else previewStep p nFull nDev : Py (ℤ ⊕ String)) with
    | error e => exact ⟨_, rfl⟩
    | ok r =>
      cases r with
      | inr s => exact ⟨_, rfl⟩
      | inl c =>
        simp only []
        cases previewLine p k (nDev - c) (nUnused + c) with
        | error e => exact ⟨_, rfl⟩
        | ok line =>
          simp only []
          by_cases hmax : (k : ℤ) ≥ p.nIterMax
          · rw [if_pos hmax]; exact ⟨_, rfl⟩
          · rw [if_neg hmax]
            push_cast at h
            exact ih (k + 1) _ _ _ (by push_cast; omega) (by omega)

/-- **C104** (termination). A preview ends after at most `max(n_iter_max, 0) + 1` lines. -/
theorem C104_terminates (p : PruneParams) (nFull fuel : ℕ) (hf : max p.nIterMax 0 + 1 ≤ fuel) :
    ∃ r, previewPruning p nFull fuel = some r := by
  unfold previewPruning
  split_ifs
  · exact ⟨_, rfl⟩
  · exact previewLoop_terminates _ _ _ _ _ _ _ (by push_cast; omega) (by omega)

/-! ## Cases -/

theorem default_scheduled_nonneg (n : ℕ) (c : ℤ) (h : Scheduled defaultPruneParams n c) : 0 ≤ c := by
  rw [scheduled_unique h (default_scheduled n)]
  positivity

/-- A preview with the default parameters prints a first line. -/
theorem default_preview_first {nFull : ℕ} (h0 : nFull ≠ 0) (fuel : ℕ) :
    previewPruning defaultPruneParams nFull (fuel + 1) =
      previewLoop defaultPruneParams nFull fuel 1 (nFull - 0) (0 + 0)
        [⟨0, nFull - 0, ⌊(8 / 10 : ℝ) * ((nFull - 0 : ℤ) : ℝ)⌋,
          nFull - 0 - ⌊(8 / 10 : ℝ) * ((nFull - 0 : ℤ) : ℝ)⌋, 0 + 0⟩] := by
  rw [previewPruning, if_neg h0, previewLoop]
  simp only [if_true]
  rw [show previewLine defaultPruneParams 0 ((nFull : ℤ) - 0) (0 + 0) = .ok
    ⟨0, nFull - 0, ⌊(8 / 10 : ℝ) * ((nFull - 0 : ℤ) : ℝ)⌋,
      nFull - 0 - ⌊(8 / 10 : ℝ) * ((nFull - 0 : ℤ) : ℝ)⌋, 0 + 0⟩ from rfl]
  simp only []
  rw [if_neg (by decide)]
  rfl

theorem default_preview_50 : ∃ l, previewPruning defaultPruneParams 50 101 =
    some (.ok ([l], "Minimum pruning testing data set size reached.")) := by
  have hst : previewStep defaultPruneParams 50 (((50 : ℕ) : ℤ) - 0) =
      .ok (.inr "Minimum pruning testing data set size reached.") := by
    unfold previewStep
    obtain ⟨c, hc⟩ : ∃ c, getNPrunSample defaultPruneParams (((50 : ℕ) : ℤ) - 0).toNat = .ok c :=
      ⟨_, scheduled_ok (default_scheduled _)⟩
    have ht : previewTest defaultPruneParams (((50 : ℕ) : ℤ) - 0) = .ok 5 := by
      show Except.ok ((((50 : ℕ) : ℤ) - 0) - (⌊(7 / 10 : ℝ) * (((50 : ℕ) : ℤ) - 0 : ℤ)⌋ +
        ⌊(2 / 10 : ℝ) * (((50 : ℕ) : ℤ) - 0 : ℤ)⌋)) = _
      rw [show ⌊(7 / 10 : ℝ) * (((50 : ℕ) : ℤ) - 0 : ℤ)⌋ = 35 from by
          rw [Int.floor_eq_iff]; norm_num,
        show ⌊(2 / 10 : ℝ) * (((50 : ℕ) : ℤ) - 0 : ℤ)⌋ = 10 from by
          rw [Int.floor_eq_iff]; norm_num]
      rfl
    have hs : previewStatus defaultPruneParams 50 (((50 : ℕ) : ℤ) - 0) 5 c =
        .ok (some "Minimum pruning testing data set size reached.") := by
      rw [previewStatus, if_neg (by norm_num [defaultPruneParams]),
        if_neg (by norm_num [defaultPruneParams]), if_pos (by norm_num [defaultPruneParams])]
    simp only [hc, ht, hs, bind, Except.bind]
  have h := default_preview_first (nFull := 50) (by norm_num) 100
  rw [previewLoop, if_neg (by norm_num), hst] at h
  exact ⟨_, h⟩

/-- The preview does not tell the number of iterations. For fifty samples and the default
parameters the preview ends after its first line because the minimum number of testing samples is
reached; the pruning goes on. -/
theorem C104_iterations_violated {env : PruneEnv M} (he : Shuffles env) (ht : TrainingSucceeds env)
    {cfg : PruneCfg} (hp : cfg.params = defaultPruneParams)
    (htest : ∀ t ∈ cfg.testing, t = "unused_data") {full : List ℕ} (hn : full.length = 50) :
    ∃ out status l, pruneTimeSeriesDataset env cfg full 101 = some (.ok (out, status)) ∧
      previewPruning cfg.params full.length 101 =
        some (.ok ([l], "Minimum pruning testing data set size reached.")) ∧
      1 < out.data.length := by
  obtain ⟨out, status, -, h, -, h1, -⟩ := C103_testing_minimum_violated he ht hp htest hn
  obtain ⟨l, hl⟩ := default_preview_50
  exact ⟨out, status, l, h, by rw [hp, hn]; exact hl, h1⟩

/-- The preview does not tell the training sizes. For eleven samples and the default parameters the
preview announces eight training and three validation samples; the pruning starts with nine and
two. -/
theorem C104_training_size_violated {env : PruneEnv M} (he : Shuffles env)
    (ht : TrainingSucceeds env) {cfg : PruneCfg} (hp : cfg.params = defaultPruneParams)
    (htest : ∀ t ∈ cfg.testing, t = "unused_data") {full : List ℕ} (hn : full.length = 11)
    {lines : List PreviewLine} {status' : String}
    (h' : previewPruning cfg.params full.length 101 = some (.ok (lines, status'))) :
    ∃ out status d l, pruneTimeSeriesDataset env cfg full 101 = some (.ok (out, status)) ∧
      out.data[0]? = some d ∧ lines[0]? = some l ∧ d.nTrain = 9 ∧ d.nValid = 2 ∧ l.nTrain = 8 ∧
      l.nValid = 3 := by
  obtain ⟨out, status, h⟩ := C103_default_completes he ht hp
    (fun t h => .inl (htest t h)) (full := full) (by omega)
  have hnm : NamedSubsets cfg.params := by rw [hp]; exact default_named
  obtain ⟨tr, hrun, h0, -⟩ := C103_run he hnm h
  obtain ⟨hpv, hl0, -⟩ := C104_preview h'
  obtain ⟨d, hd⟩ : ∃ d, out.data[0]? = some d := ⟨_, List.getElem?_eq_getElem h0⟩
  obtain ⟨l, hl⟩ : ∃ l, lines[0]? = some l := ⟨_, List.getElem?_eq_getElem hl0⟩
  refine ⟨out, status, d, l, h, hd, hl, ?_⟩
  obtain ⟨_, _, _, hpi, -⟩ := hrun.iteration 0 d hd
  have hsz := hpi.trainSize
  rw [← hpi.nTrain, hrun.start, show ((full, []) : List ℕ × List ℕ).1.length = 11 from hn, hp] at hsz
  have h9 := default_trainSize hsz
  rw [natFloor_eq (n := 8) (by norm_num) (by norm_num),
    natFloor_eq (n := 2) (by norm_num) (by norm_num)] at h9
  have h9' : d.nTrain = 9 := by simpa using h9
  obtain ⟨-, -, hs, -⟩ := C103_sizes he hnm h 0 d hd
  have hdev : d.nDev = 11 := by rw [hpi.nDev, hrun.start]; exact hn
  obtain ⟨-, -, hs', f, hf, ht'⟩ := hpv.line 0 l hl
  rw [hp] at hf
  obtain rfl : (8 / 10 : ℝ) = f := by
    have : defaultPruneParams.iterSizes.lookup "training" = some (8 / 10) := rfl
    rw [this] at hf
    exact Option.some.inj hf
  have hnd := hpv.start l hl
  rw [hn] at hnd
  rw [hnd, show ⌊(8 / 10 : ℝ) * (((11 : ℕ) : ℤ) : ℝ)⌋ = 8 from by
    rw [Int.floor_eq_iff]; norm_num] at ht'
  rw [hnd] at hs'
  refine ⟨h9', by omega, ht', by push_cast at hs'; omega⟩

/-- The default parameters satisfy the hypotheses of the agreement, and a preview of fifty samples
with them returns. -/
example : NamedSubsets defaultPruneParams ∧ defaultPruneParams.prunTestRatioMax ≤ 1 ∧
    (∀ n c, Scheduled defaultPruneParams n c → 0 ≤ c) ∧
    (defaultPruneParams.iterSizes.map Prod.snd).sum = 1 ∧
    (∀ q ∈ defaultPruneParams.iterSizes, 0 ≤ q.2) ∧
    ∃ l, previewPruning defaultPruneParams 50 101 =
      some (.ok ([l], "Minimum pruning testing data set size reached.")) := by
  refine ⟨default_named, by norm_num [defaultPruneParams], default_scheduled_nonneg,
    by norm_num [defaultPruneParams], ?_, default_preview_50⟩
  intro q hq
  simp only [defaultPruneParams, List.mem_cons, List.not_mem_nil, or_false] at hq
  rcases hq with rfl | rfl <;> norm_num

end Hooke
