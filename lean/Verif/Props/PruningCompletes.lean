import Verif.Props.PruningRun

/-!
# C103: prunings which complete
-/

namespace Hooke

open Spec

variable {M : Type}

theorem scheduled_ok {p : PruneParams} {nDev : ℕ} {n : ℤ} (h : Scheduled p nDev n) :
    getNPrunSample p nDev = .ok n := by
  unfold getNPrunSample
  rcases h with ⟨h1, h2⟩ | ⟨h1, r, h2, h3, h4⟩
  · rw [if_pos h1, h2]; rfl
  · rw [if_neg (by rw [h1]; decide), if_pos h1, h2]
    show Except.ok (pyTrunc (r * nDev)) = _
    congr 1
    rcases le_total 0 r with h0 | h0
    · rw [h3 h0, pyTrunc, if_pos (by positivity)]
    · rw [h4 h0, pyTrunc]
      split_ifs with hc
      · have : r * nDev = 0 := le_antisymm (mul_nonpos_of_nonpos_of_nonneg h0 (by positivity)) hc
        rw [this]; simp
      · rfl

theorem split_succeeds {l : List ℕ} {sizes : List (String × ℝ)} {perm : List ℕ} {L : ℕ}
    (hp : perm.Perm (List.range l.length)) (hsum : (sizes.map Prod.snd).sum = 1)
    (he : ∀ q ∈ sizes, 0 ≤ q.2 ∧ 1 ≤ (L : ℝ) * q.2) (hL : L ≤ l.length) :
    ∃ subs, splitDataset (.base l) sizes perm = .ok subs ∧
      subs.map Prod.fst = sizes.map Prod.fst := by
  obtain ⟨subs, hs⟩ := C43_succeeds (.base l) sizes perm hp hsum (fun q hq => (he q hq).1)
    (fun q hq => (he q hq).2.trans
      (mul_le_mul_of_nonneg_right (by exact_mod_cast hL) (he q hq).1))
  exact ⟨subs, hs, (split_indices (d := .base l) hp hs).1⟩

theorem performStep_ok {env : PruneEnv M} (he : Shuffles env) {cfg : PruneCfg}
    (hn : NamedSubsets cfg.params) {nFull L : ℕ} (hc : Completable env cfg nFull L) {k : ℕ}
    {fs : PFs M} {dev unused : InMemory} (hL : L ≤ dev.refs.length) :
    ∃ r, performPruningStep env cfg.params nFull k fs dev unused = .ok r ∧
      L ≤ r.dev.refs.length := by
  obtain ⟨c, hsch, hc0, hcL⟩ := hc.schedule dev.refs.length hL
  obtain ⟨subs, hs, hfst⟩ := split_succeeds (perm := env.stepPerm k dev.len)
    (he.step k dev.len) hc.stepSum (fun q hq => hc.enough q (List.mem_append_left _ hq)) hL
  have hkey : ∀ a ∈ ["training", "validation", "testing"], ∃ v, subs.lookup a = some v := by
    intro a ha
    refine lookup_of_key ?_
    rw [hfst]
    exact hn.step.mem_iff.mpr ha
  obtain ⟨train, htr⟩ := hkey "training" (by simp)
  obtain ⟨val, hva⟩ := hkey "validation" (by simp)
  obtain ⟨test, hte⟩ := hkey "testing" (by simp)
  obtain ⟨hsub, hperm⟩ := split_lookup (vs := [train, val, test]) (he.step k dev.len) hs hn.step
    (by decide) (.cons htr (.cons hva (.cons hte .nil)))
  obtain ⟨ht1, ht2⟩ := hsub train (by simp)
  obtain ⟨hv1, hv2⟩ := hsub val (by simp)
  obtain ⟨hs1, hs2⟩ := hsub test (by simp)
  have hp : (train.idx ++ val.idx ++ test.idx).Perm (List.range dev.refs.length) := by
    simpa [DS.len] using hperm
  have hex : ∃ r, performPruningStep env cfg.params nFull k fs dev unused = .ok r := by
    unfold performPruningStep
    rw [show getNPrunSample cfg.params dev.len = .ok c from scheduled_ok hsch]
    show ∃ r, (splitDataset _ _ _ >>= _) = _
    rw [hs]
    show ∃ r, (orRaise (subs.lookup "training") .keyError >>= _) = _
    rw [htr]
    show ∃ r, (orRaise (subs.lookup "validation") .keyError >>= _) = _
    rw [hva]
    show ∃ r, (orRaise (subs.lookup "testing") .keyError >>= _) = _
    rw [hte]
    show ∃ r, (match stepStatus cfg.params nFull dev.len test.len c with
      | some status => Except.ok (⟨false, status, dev, unused, fs⟩ : StepResult M)
      | none => pruneSamples env k c fs dev unused train val test) = _
    cases stepStatus cfg.params nFull dev.len test.len c with
    | some status => exact ⟨_, rfl⟩
    | none =>
      rw [ht1, hv1, hs1]
      rw [pruneSamples_eval he hp hs2]
      obtain ⟨m, hm⟩ := hc.trainStep k (samplesAt dev.refs train.idx)
        (if val.idx.length = test.idx.length then samplesAt dev.refs test.idx
          else samplesAt dev.refs val.idx)
      rw [hm]
      exact ⟨_, rfl⟩
  obtain ⟨r, hr⟩ := hex
  refine ⟨r, hr, ?_⟩
  rcases performPruningStep_spec he hn hr with ⟨-, hst, hadm, -⟩ | ⟨-, h1, -⟩
  · obtain ⟨_, _, te, gone, kept, m, n, -, -, -, -, -, -, -, hsch', hcnt, -, hrem, -, -⟩ := hst
    obtain rfl := scheduled_unique hsch hsch'
    have h1 := hcnt hc0
    have h2 := hrem.length_eq
    rw [List.length_append] at h2
    have h3 := hcL hadm.1
    omega
  · rw [h1]; exact hL

theorem evaluate_ok {env : PruneEnv M} (he : Shuffles env) {cfg : PruneCfg}
    (hn : NamedSubsets cfg.params) {nFull L : ℕ} (hc : Completable env cfg nFull L)
    {s : PruneState M} (hL : L ≤ s.dev.refs.length) :
    ∃ s', evaluateIter env cfg nFull s = .ok s' ∧ s'.dev = s.dev := by
  have hk : ∀ t ∈ cfg.testing, KnownTest t := by
    intro t ht
    rcases hc.testing t ht with h | ⟨h | h, -⟩
    · exact .inl h
    · exact .inr (.inl h)
    · exact .inr (.inr h)
  obtain ⟨subs, hs, hfst⟩ := split_succeeds (perm := env.iterPerm s.iter s.dev.len)
    (he.iter s.iter s.dev.len) hc.iterSum (fun q hq => hc.enough q (List.mem_append_right _ hq)) hL
  have hkey : ∀ a ∈ ["training", "validation"], ∃ v, subs.lookup a = some v := by
    intro a ha
    refine lookup_of_key ?_
    rw [hfst]
    exact hn.iter.mem_iff.mpr ha
  obtain ⟨train, htr⟩ := hkey "training" (by simp)
  obtain ⟨val, hva⟩ := hkey "validation" (by simp)
  obtain ⟨hsub, hperm⟩ := split_lookup (vs := [train, val]) (he.iter s.iter s.dev.len) hs hn.iter
    (by decide) (.cons htr (.cons hva .nil))
  obtain ⟨ht1, ht2⟩ := hsub train (by simp)
  obtain ⟨hv1, hv2⟩ := hsub val (by simp)
  have hp : (train.idx ++ val.idx).Perm (List.range s.dev.refs.length) := by
    simpa [DS.len] using hperm
  have hlt : ∀ i ∈ train.idx ++ val.idx, i < s.dev.refs.length := fun i hi =>
    List.mem_range.mp (hp.mem_iff.mp hi)
  have htl : train.toList = .ok (samplesAt s.dev.refs train.idx) := by
    rw [ht1]; exact toList_subset fun i hi => hlt i (by simp [hi])
  have hvl : val.toList = .ok (samplesAt s.dev.refs val.idx) := by
    rw [hv1]; exact toList_subset fun i hi => hlt i (by simp [hi])
  obtain ⟨hT, hV, hX, -⟩ := iterDir_files hk s.fs train val s.unused
  set fs1 := setPruningIterDir cfg s.fs train val s.unused with hfs1
  obtain ⟨m, hm⟩ := hc.trainIter s.iter (samplesAt s.dev.refs train.idx)
    (samplesAt s.dev.refs val.idx)
  set fs2 : PFs M := Function.update fs1 (iterDir train.len ++ ["3_model"]) (some (.model m))
    with hfs2
  have htest : ∀ t ∈ cfg.testing, ∃ y, testModel env cfg fs2 train.len s.unused t = .ok y := by
    intro t ht
    unfold testModel
    by_cases hcc : t = "unused_data" ∧ s.unused.len = 0
    · rw [if_pos hcc]; exact ⟨_, rfl⟩
    · rw [if_neg hcc]
      have hload : fs2.load (datasetPath (testDir train.len t) (testDataset cfg s.unused t).len) =
          .ok (testSamples cfg s.unused.refs t) := by
        unfold PFs.load
        rw [hfs2, Function.update_of_ne (show datasetPath (testDir train.len t) _ ≠ _ from
          datasetPath_ne_model _ _ _), hX t ht]
        exact testDataset_toList _ _ _
      have hmod : fs2.loadModel (iterDir train.len ++ ["3_model"]) = .ok m := by
        unfold PFs.loadModel
        rw [hfs2, Function.update_self]
      have hne : testSamples cfg s.unused.refs t ≠ [] := by
        unfold testSamples
        by_cases h1 : t = "unused_data"
        · rw [if_pos h1]
          exact fun e => hcc ⟨h1, by rw [InMemory.len, e]; rfl⟩
        · rw [if_neg h1]
          obtain ⟨-, l, hl, hl0⟩ := (hc.testing t ht).resolve_left h1
          rw [hl]
          exact hl0
      rw [hload, hmod]
      show ∃ y, (avgLoss env m (testSamples cfg s.unused.refs t) >>= _) = _
      unfold avgLoss
      rw [raiseIf, if_neg hne]
      exact ⟨_, rfl⟩
  have hmapM : ∃ losses, cfg.testing.mapM (testModel env cfg fs2 train.len s.unused) = .ok losses := by
    have : ∀ t ∈ cfg.testing, testModel env cfg fs2 train.len s.unused t =
        .ok ((testModel env cfg fs2 train.len s.unused t).toOption.getD (t, none)) := by
      intro t ht
      obtain ⟨y, hy⟩ := htest t ht
      rw [hy]; rfl
    exact ⟨_, mapM_of_forall this⟩
  obtain ⟨losses, hl⟩ := hmapM
  unfold evaluateIter
  show ∃ s', (splitDataset _ _ _ >>= _) = _ ∧ _
  rw [hs]
  show ∃ s', (orRaise (subs.lookup "training") .keyError >>= _) = _ ∧ _
  rw [htr]
  show ∃ s', (orRaise (subs.lookup "validation") .keyError >>= _) = _ ∧ _
  rw [hva]
  show ∃ s', (fs1.load (datasetPath (iterDir train.len ++ ["1_training_dataset"]) train.len) >>= _)
    = _ ∧ _
  rw [show fs1.load (datasetPath (iterDir train.len ++ ["1_training_dataset"]) train.len) =
    .ok (samplesAt s.dev.refs train.idx) from by unfold PFs.load; rw [hT]; exact htl]
  show ∃ s', (fs1.load (datasetPath (iterDir train.len ++ ["2_validation_dataset"]) val.len) >>= _)
    = _ ∧ _
  rw [show fs1.load (datasetPath (iterDir train.len ++ ["2_validation_dataset"]) val.len) =
    .ok (samplesAt s.dev.refs val.idx) from by unfold PFs.load; rw [hV]; exact hvl]
  show ∃ s', (env.trainIter s.iter (samplesAt s.dev.refs train.idx) (samplesAt s.dev.refs val.idx)
    >>= _) = _ ∧ _
  rw [hm]
  show ∃ s', (cfg.testing.mapM (testModel env cfg fs2 train.len s.unused) >>= _) = _ ∧ _
  rw [hl]
  exact ⟨_, rfl, rfl⟩

theorem pruneLoop_ok {env : PruneEnv M} (he : Shuffles env) {cfg : PruneCfg}
    (hn : NamedSubsets cfg.params) {nFull L : ℕ} (hc : Completable env cfg nFull L) (fuel : ℕ)
    {s : PruneState M} (hL : L ≤ s.dev.refs.length) {e : PyErr} :
    pruneLoop env cfg nFull fuel s ≠ some (.error e) := by
  induction fuel generalizing s with
  | zero => simp [pruneLoop]
  | succ fuel ih =>
    rw [pruneLoop]
    have hstep : ∃ r, iterStep env cfg nFull s = .ok r ∧ L ≤ r.dev.refs.length := by
      unfold iterStep
      split_ifs
      · exact ⟨_, rfl, hL⟩
      · exact performStep_ok he hn hc hL
    obtain ⟨r, hr, hLr⟩ := hstep
    rw [hr]
    simp only []
    by_cases hv : r.isValid = false
    · rw [if_pos hv]; simp
    · rw [if_neg hv]
      obtain ⟨s', hs', hdev⟩ := evaluate_ok he hn hc
        (s := { s with dev := r.dev, unused := r.unused, fs := r.fs }) hLr
      rw [hs']
      simp only []
      by_cases hmax : (s.iter : ℤ) ≥ cfg.params.nIterMax
      · rw [if_pos hmax]; simp
      · rw [if_neg hmax]
        refine ih (s := { s' with iter := s.iter + 1 }) ?_
        show L ≤ s'.dev.refs.length
        rw [hdev]
        exact hLr

/-- **C103** (completion). A pruning whose trainings succeed, with enough samples for its splits
(see `Completable`), returns. -/
theorem C103_completes {env : PruneEnv M} (he : Shuffles env) {cfg : PruneCfg}
    (hn : NamedSubsets cfg.params) {full : List ℕ} {L : ℕ}
    (hc : Completable env cfg full.length L) (fuel : ℕ) (hf : max cfg.params.nIterMax 0 + 1 ≤ fuel) :
    ∃ out status, pruneTimeSeriesDataset env cfg full fuel = some (.ok (out, status)) := by
  obtain ⟨r, hr⟩ := C103_terminates env cfg full fuel hf
  cases r with
  | ok r => exact ⟨r.1, r.2, hr⟩
  | error e =>
    exfalso
    unfold pruneTimeSeriesDataset at hr
    have hck : checkTesting cfg = .ok () := by
      unfold checkTesting
      rw [if_pos]
      intro t ht
      rcases hc.testing t ht with h | ⟨h, l, hl, -⟩
      · exact .inl h
      · exact .inr ⟨h, by rw [hl]; rfl⟩
    rw [hck] at hr
    exact pruneLoop_ok he hn hc fuel (s := ⟨0, InMemory.new full, InMemory.new [], fun _ => none, []⟩)
      hc.start hr

end Hooke
