import Verif.Props.Pruning

/-!
# C103: the iterations of a pruning
-/

namespace Hooke

open Spec

variable {M : Type}

theorem stored_congr {fs fs' : PFs M} {b : Bool} {train val : List ℕ} {m : M}
    (h : ∀ rest, fs' (iterDir train.length ++ rest) = fs (iterDir train.length ++ rest))
    (hs : Stored fs b train val m) : Stored fs' b train val m := by
  obtain ⟨h1, h2, h3⟩ := hs
  refine ⟨?_, ?_, fun hb => ?_⟩
  · rw [← h1]
    unfold PFs.load
    rw [show datasetPath ["n" ++ toString train.length, "1_training_dataset"] train.length =
      iterDir train.length ++ ["1_training_dataset", _] from rfl, h]
  · rw [← h2]
    unfold PFs.load
    rw [show datasetPath ["n" ++ toString train.length, "2_validation_dataset"] val.length =
      iterDir train.length ++ ["2_validation_dataset", _] from rfl, h]
  · rw [← h3 hb]
    unfold PFs.loadModel
    rw [show ["n" ++ toString train.length, "3_model"] = iterDir train.length ++ ["3_model"] from rfl,
      h]

/-- What holds before each pass of the loop. -/
structure LoopInv (env : PruneEnv M) (cfg : PruneCfg) (full : List ℕ) (s : PruneState M)
    (tr : ℕ → List ℕ × List ℕ) : Prop where
  run : PruningRun env cfg full s.data s.fs tr
  iter : s.iter = s.data.length
  dev : s.dev.refs = (tr (s.iter - 1)).1
  unused : s.unused.refs = (tr (s.iter - 1)).2
  bound : (s.iter : ℤ) ≤ max cfg.params.nIterMax 0

/-- How a pruning ends. -/
def PruneEnd (cfg : PruneCfg) (full : List ℕ) (s : PruneState M) (status : String) : Prop :=
  ((s.data.length : ℤ) = max cfg.params.nIterMax 0 + 1 ∧
      status = "Maximum number of pruning iterations reached.") ∨
    ((s.data.length : ℤ) ≤ max cfg.params.nIterMax 0 ∧
      StopReason cfg.params full.length s.dev.refs.length status)

/-- The loop body: a pruning step and an evaluation extend the run by one iteration. -/
theorem loop_extend {env : PruneEnv M} (he : Shuffles env) {cfg : PruneCfg}
    (hn : NamedSubsets cfg.params) (hk : ∀ t ∈ cfg.testing, KnownTest t) {full : List ℕ}
    {s s' : PruneState M} {tr : ℕ → List ℕ × List ℕ} (hi : LoopInv env cfg full s tr)
    {r : StepResult M} (hr : iterStep env cfg full.length s = .ok r) (hv : r.isValid = true)
    (hs' : evaluateIter env cfg full.length
      { s with dev := r.dev, unused := r.unused, fs := r.fs } = .ok s') :
    ∃ tr', PruningRun env cfg full s'.data s'.fs tr' ∧ s'.data.length = s.iter + 1 ∧
      s'.dev.refs = (tr' s.iter).1 ∧ s'.unused.refs = (tr' s.iter).2 := by
  obtain ⟨-, hdev, hun, train, val, m, d, hpi, hdata, hst, hfs⟩ := evaluateIter_spec he hn hk hs'
  have hdev : s'.dev = r.dev := hdev
  have hun : s'.unused = r.unused := hun
  have hpi : PruningIteration env cfg full.length s.iter r.dev.refs r.unused.refs train val m d := hpi
  have hdata : s'.data = s.data ++ [d] := hdata
  have hfs : ∀ q, ¬ iterDir train.length <+: q → s'.fs q = r.fs q := hfs
  have hit := hi.iter
  -- the step
  have hstep : (∀ q, ¬ ["pruning_step"] <+: q → r.fs q = s.fs q) ∧
      (s.iter = 0 → r.dev.refs = full ∧ r.unused.refs = []) ∧
      (s.iter ≠ 0 → PruningStep env cfg.params s.iter (tr (s.iter - 1)).1 (tr (s.iter - 1)).2
        r.dev.refs r.unused.refs ∧ PruneAdmissible cfg.params full.length (tr (s.iter - 1)).1.length) := by
    unfold iterStep at hr
    split_ifs at hr with h0
    · obtain rfl := Except.ok.inj hr
      have h1 := hi.dev
      have h2 := hi.unused
      rw [h0] at h1 h2
      rw [show (0 - 1 : ℕ) = 0 from rfl, hi.run.start] at h1 h2
      exact ⟨fun _ _ => rfl, fun _ => ⟨h1, h2⟩, fun h => absurd h0 h⟩
    · rcases performPruningStep_spec he hn hr with ⟨-, h1, h2, h3⟩ | ⟨h1, -⟩
      · rw [hi.dev, hi.unused] at h1
        rw [hi.dev] at h2
        exact ⟨h3, fun h => absurd h h0, fun _ => ⟨h1, h2⟩⟩
      · rw [hv] at h1
        exact absurd h1 (by simp)
  obtain ⟨hrfs, hz, hnz⟩ := hstep
  refine ⟨Function.update tr s.iter (r.dev.refs, r.unused.refs), ⟨?_, ?_, ?_⟩, ?_, ?_, ?_⟩
  · by_cases h0 : s.iter = 0
    · rw [h0, Function.update_self]
      obtain ⟨h1, h2⟩ := hz h0
      rw [h1, h2]
    · rw [Function.update_of_ne (Ne.symm h0)]
      exact hi.run.start
  · intro k e hke
    rw [hdata] at hke
    by_cases hlt : k < s.data.length
    · rw [List.getElem?_append_left hlt] at hke
      rw [Function.update_of_ne (by omega)]
      obtain ⟨tr1, va1, m1, hpi1, hst1⟩ := hi.run.iteration k e hke
      refine ⟨tr1, va1, m1, hpi1, fun hlater => ?_⟩
      have hne : d.nTrain ≠ e.nTrain := hlater s.data.length d hlt (by rw [hdata]; simp)
      have hold : Stored s.fs cfg.removeModels tr1 va1 m1 := hst1 fun j d' hj hd' =>
        hlater j d' hj (by
          have := (List.getElem?_eq_some_iff.mp hd').1
          rw [hdata, List.getElem?_append_left this, hd'])
      refine stored_congr (fun rest => ?_) hold
      rw [hfs _ fun hp => hne (by rw [hpi.nTrain, hpi1.nTrain]; exact iterDir_prefix hp),
        hrfs _ step_prefix]
    · have hk' : k = s.data.length := by
        have := (List.getElem?_eq_some_iff.mp hke).1
        simp at this
        omega
      subst hk'
      rw [List.getElem?_append_right (le_refl _), Nat.sub_self] at hke
      obtain rfl : d = e := by simpa using hke
      rw [← hit, Function.update_self]
      exact ⟨train, val, m, hpi, fun _ => hst⟩
  · intro k hk1
    rw [hdata, List.length_append, List.length_singleton] at hk1
    by_cases hlt : k + 1 < s.data.length
    · rw [Function.update_of_ne (by omega), Function.update_of_ne (by omega)]
      exact hi.run.step k hlt
    · have hk' : k + 1 = s.iter := by omega
      rw [Function.update_of_ne (by omega), hk', Function.update_self]
      obtain ⟨h1, h2⟩ := hnz (by omega)
      rw [← hk', Nat.add_sub_cancel] at h1 h2
      rw [← hk']
      exact ⟨h1, h2⟩
  · rw [hdata, List.length_append, List.length_singleton, hit]
  · rw [Function.update_self, hdev]
  · rw [Function.update_self, hun]

theorem pruneLoop_spec {env : PruneEnv M} (he : Shuffles env) {cfg : PruneCfg}
    (hn : NamedSubsets cfg.params) (hk : ∀ t ∈ cfg.testing, KnownTest t) {full : List ℕ}
    {fuel : ℕ} {s out : PruneState M} {status : String} {tr : ℕ → List ℕ × List ℕ}
    (hi : LoopInv env cfg full s tr)
    (h : pruneLoop env cfg full.length fuel s = some (.ok (out, status))) :
    ∃ tr', PruningRun env cfg full out.data out.fs tr' ∧ 0 < out.data.length ∧
      out.dev.refs = (tr' (out.data.length - 1)).1 ∧
      out.unused.refs = (tr' (out.data.length - 1)).2 ∧ PruneEnd cfg full out status := by
  induction fuel generalizing s tr with
  | zero => simp [pruneLoop] at h
  | succ fuel ih =>
    rw [pruneLoop] at h
    cases hr : iterStep env cfg full.length s with
    | error e => rw [hr] at h; simp at h
    | ok r =>
      rw [hr] at h
      simp only [] at h
      by_cases hv : r.isValid = false
      · rw [if_pos hv] at h
        obtain ⟨rfl, rfl⟩ := Prod.mk.inj (Except.ok.inj (Option.some.inj h))
        have h0 : s.iter ≠ 0 := by
          intro h0
          unfold iterStep at hr
          rw [if_pos h0] at hr
          obtain rfl := Except.ok.inj hr
          simp at hv
        have hr' := hr
        unfold iterStep at hr'
        rw [if_neg h0] at hr'
        rcases performPruningStep_spec he hn hr' with ⟨h1, -⟩ | ⟨-, h1, h2, h3, h4⟩
        · rw [hv] at h1; exact absurd h1 (by simp)
        · refine ⟨tr, ?_, ?_, ?_, ?_, .inr ⟨?_, ?_⟩⟩
          · rw [h3]; exact hi.run
          · show 0 < s.data.length
            have := hi.iter
            omega
          · rw [h1]
            show s.dev.refs = (tr (s.data.length - 1)).1
            rw [← hi.iter]; exact hi.dev
          · rw [h2]
            show s.unused.refs = (tr (s.data.length - 1)).2
            rw [← hi.iter]; exact hi.unused
          · show (s.data.length : ℤ) ≤ _
            rw [← hi.iter]; exact hi.bound
          · rw [h1]; exact h4
      · rw [if_neg hv] at h
        have hv' : r.isValid = true := by simpa using hv
        cases hs' : evaluateIter env cfg full.length
            { s with dev := r.dev, unused := r.unused, fs := r.fs } with
        | error e => rw [hs'] at h; simp at h
        | ok s' =>
          rw [hs'] at h
          simp only [] at h
          obtain ⟨tr', hrun, hlen, hdev, hun⟩ := loop_extend he hn hk hi hr hv' hs'
          have hb := hi.bound
          by_cases hmax : (s.iter : ℤ) ≥ cfg.params.nIterMax
          · rw [if_pos hmax] at h
            obtain ⟨rfl, rfl⟩ := Prod.mk.inj (Except.ok.inj (Option.some.inj h))
            refine ⟨tr', hrun, by omega, ?_, ?_, .inl ⟨?_, rfl⟩⟩
            · rw [hlen, Nat.add_sub_cancel]; exact hdev
            · rw [hlen, Nat.add_sub_cancel]; exact hun
            · rw [hlen]
              push_cast
              omega
          · rw [if_neg hmax] at h
            refine ih (s := { s' with iter := s.iter + 1 }) (tr := tr')
              ⟨hrun, hlen.symm, ?_, ?_, ?_⟩ h
            · show s'.dev.refs = (tr' (s.iter + 1 - 1)).1
              rw [Nat.add_sub_cancel]; exact hdev
            · show s'.unused.refs = (tr' (s.iter + 1 - 1)).2
              rw [Nat.add_sub_cancel]; exact hun
            · show ((s.iter + 1 : ℕ) : ℤ) ≤ _
              push_cast
              omega

theorem prune_unfold {env : PruneEnv M} {cfg : PruneCfg} {full : List ℕ} {fuel : ℕ}
    {out : PruneState M} {status : String}
    (h : pruneTimeSeriesDataset env cfg full fuel = some (.ok (out, status))) :
    (∀ t ∈ cfg.testing, KnownTest t) ∧ pruneLoop env cfg full.length fuel
      ⟨0, InMemory.new full, InMemory.new [], fun _ => none, []⟩ = some (.ok (out, status)) := by
  unfold pruneTimeSeriesDataset at h
  cases hc : checkTesting cfg with
  | error e => rw [hc] at h; simp at h
  | ok u => rw [hc] at h; exact ⟨checkTesting_ok hc, h⟩

theorem loopInv_start (env : PruneEnv M) (cfg : PruneCfg) (full : List ℕ) :
    LoopInv env cfg full ⟨0, InMemory.new full, InMemory.new [], fun _ => none, []⟩
      fun _ => (full, []) :=
  ⟨⟨rfl, fun k d h => by simp at h, fun k h => by simp at h⟩, rfl, rfl, rfl, by simp⟩

/-- **C103** (run). When a pruning returns, its records are those of a run: it starts with all
samples, every iteration trains and tests a model on a partition of the development samples into
training and validation samples, between two iterations testing samples with the smallest losses of
a model trained on the others are moved to the unused samples, and the run ends after the maximum
number of iterations or with the reason returned. The final development and unused samples are those
of the last iteration. -/
theorem C103_run {env : PruneEnv M} (he : Shuffles env) {cfg : PruneCfg}
    (hn : NamedSubsets cfg.params) {full : List ℕ} {fuel : ℕ} {out : PruneState M}
    {status : String}
    (h : pruneTimeSeriesDataset env cfg full fuel = some (.ok (out, status))) :
    ∃ tr, PruningRun env cfg full out.data out.fs tr ∧ 0 < out.data.length ∧
      out.dev.refs = (tr (out.data.length - 1)).1 ∧
      out.unused.refs = (tr (out.data.length - 1)).2 ∧
      (((out.data.length : ℤ) = max cfg.params.nIterMax 0 + 1 ∧
          status = "Maximum number of pruning iterations reached.") ∨
        ((out.data.length : ℤ) ≤ max cfg.params.nIterMax 0 ∧
          StopReason cfg.params full.length out.dev.refs.length status)) := by
  obtain ⟨hk, hl⟩ := prune_unfold h
  exact pruneLoop_spec he hn hk (loopInv_start env cfg full) hl

theorem run_partition {env : PruneEnv M} {cfg : PruneCfg} {full : List ℕ} {data : List IterData}
    {fs : PFs M} {tr : ℕ → List ℕ × List ℕ} (h : PruningRun env cfg full data fs tr) (k : ℕ)
    (hk : k < data.length) : ((tr k).1 ++ (tr k).2).Perm full ∧ (tr k).1.Sublist full := by
  induction k with
  | zero => rw [h.start]; simp
  | succ k ih =>
    obtain ⟨h1, h2⟩ := ih (by omega)
    obtain ⟨⟨train, val, test, gone, kept, m, n, -, -, -, -, -, -, -, -, -, hsub, hrem, hun, -⟩, -⟩ :=
      h.step k hk
    refine ⟨?_, hsub.trans h2⟩
    rw [hun]
    refine List.Perm.trans ?_ h1
    have : ((tr (k + 1)).1 ++ ((tr k).2 ++ gone)).Perm ((gone ++ (tr (k + 1)).1) ++ (tr k).2) := by
      rw [← List.append_assoc]
      refine List.perm_append_comm.trans ?_
      rw [List.append_assoc]
    exact this.trans (hrem.append_right _)

/-- **C103** (no sample is lost or duplicated). At every iteration of a pruning the development
samples, in their original order, and the unused samples are together the full data set; so are the
final ones. -/
theorem C103_partition {env : PruneEnv M} (he : Shuffles env) {cfg : PruneCfg}
    (hn : NamedSubsets cfg.params) {full : List ℕ} {fuel : ℕ} {out : PruneState M}
    {status : String}
    (h : pruneTimeSeriesDataset env cfg full fuel = some (.ok (out, status))) :
    (out.dev.refs ++ out.unused.refs).Perm full ∧ out.dev.refs.Sublist full ∧
      ∃ tr, PruningRun env cfg full out.data out.fs tr ∧
        ∀ k < out.data.length, ((tr k).1 ++ (tr k).2).Perm full ∧ (tr k).1.Sublist full := by
  obtain ⟨tr, hrun, h0, hdev, hun, -⟩ := C103_run he hn h
  have hp := run_partition hrun (out.data.length - 1) (by omega)
  rw [← hdev, ← hun] at hp
  exact ⟨hp.1, hp.2, tr, hrun, fun k hk => run_partition hrun k hk⟩

/-- **C103** (records). The recorded sizes add up in every iteration, and training and validation
sets are not empty. -/
theorem C103_sizes {env : PruneEnv M} (he : Shuffles env) {cfg : PruneCfg}
    (hn : NamedSubsets cfg.params) {full : List ℕ} {fuel : ℕ} {out : PruneState M}
    {status : String}
    (h : pruneTimeSeriesDataset env cfg full fuel = some (.ok (out, status))) (k : ℕ) (d : IterData)
    (hd : out.data[k]? = some d) :
    d.iter = k ∧ d.nFull = full.length ∧ d.nTrain + d.nValid = d.nDev ∧ d.nDev + d.nUnused = d.nFull ∧
      0 < d.nTrain ∧ 0 < d.nValid := by
  obtain ⟨tr, hrun, -⟩ := C103_run he hn h
  obtain ⟨train, val, m, hpi, -⟩ := hrun.iteration k d hd
  have hp := (run_partition hrun k (List.getElem?_eq_some_iff.mp hd).1).1.length_eq
  have hp2 := hpi.partition.length_eq
  rw [List.length_append] at hp hp2
  refine ⟨hpi.iter, hpi.nFull, ?_, ?_, ?_, ?_⟩
  · rw [hpi.nTrain, hpi.nValid, hpi.nDev, hp2]
  · rw [hpi.nDev, hpi.nUnused, hpi.nFull, hp]
  · rw [hpi.nTrain]; exact List.length_pos_iff.mpr hpi.train_ne
  · rw [hpi.nValid]; exact List.length_pos_iff.mpr hpi.val_ne

/-- **C103** (no leakage). If the samples of the full data set are distinct, no sample on which the
model of an iteration is trained or validated is an unused sample of that iteration, nor a
validation sample also a training sample. -/
theorem C103_no_leakage {env : PruneEnv M} {cfg : PruneCfg} {full : List ℕ} {data : List IterData}
    {fs : PFs M} {tr : ℕ → List ℕ × List ℕ} (hrun : PruningRun env cfg full data fs tr)
    (hnd : full.Nodup) (k : ℕ) (d : IterData) (hd : data[k]? = some d) :
    ∃ train val m, PruningIteration env cfg full.length k (tr k).1 (tr k).2 train val m d ∧
      (∀ x ∈ train ++ val, x ∉ (tr k).2) ∧ ∀ x ∈ train, x ∉ val := by
  obtain ⟨train, val, m, hpi, -⟩ := hrun.iteration k d hd
  have hp := (run_partition hrun k (List.getElem?_eq_some_iff.mp hd).1).1
  have h1 := hp.nodup_iff.mpr hnd
  have h2 : (train ++ val).Nodup := hpi.partition.nodup_iff.mpr (List.nodup_append.mp h1).1
  refine ⟨train, val, m, hpi, fun x hx hu => ?_, fun x hx hv => ?_⟩
  · exact (List.nodup_append.mp h1).2.2 x (hpi.partition.mem_iff.mp hx) x hu rfl
  · exact (List.nodup_append.mp h2).2.2 x hx x hv rfl

/-- The number of scheduled samples is determined. -/
theorem scheduled_unique {p : PruneParams} {nDev : ℕ} {n n' : ℤ} (h : Scheduled p nDev n)
    (h' : Scheduled p nDev n') : n = n' := by
  rcases h with ⟨h1, h2⟩ | ⟨h1, r, h2, h3, h4⟩ <;> rcases h' with ⟨h1', h2'⟩ | ⟨h1', r', h2', h3', h4'⟩
  · rw [h2] at h2'; exact Option.some.inj h2'
  · rw [h1] at h1'; exact absurd h1' (by decide)
  · rw [h1] at h1'; exact absurd h1' (by decide)
  · rw [h2] at h2'
    obtain rfl := Option.some.inj h2'
    rcases le_total 0 r with h0 | h0
    · rw [h3 h0, h3' h0]
    · rw [h4 h0, h4' h0]

/-- **C103** (schedule). If the scheduler asks for a nonnegative number of samples and the maximum
testing ratio is at most one, each step removes exactly the scheduled number of samples. -/
theorem C103_schedule {env : PruneEnv M} {cfg : PruneCfg} {full : List ℕ} {data : List IterData}
    {fs : PFs M} {tr : ℕ → List ℕ × List ℕ} (hrun : PruningRun env cfg full data fs tr)
    (hr : cfg.params.prunTestRatioMax ≤ 1) (k : ℕ) (d d' : IterData) (n : ℤ)
    (hd : data[k]? = some d) (hd' : data[k + 1]? = some d')
    (hs : Scheduled cfg.params d.nDev n) (h0 : 0 ≤ n) :
    (d'.nDev : ℤ) = d.nDev - n ∧ (d'.nUnused : ℤ) = d.nUnused + n := by
  obtain ⟨_, _, _, hpi, -⟩ := hrun.iteration k d hd
  obtain ⟨_, _, _, hpi', -⟩ := hrun.iteration (k + 1) d' hd'
  obtain ⟨⟨train, val, test, gone, kept, m, n', -, -, -, ht, -, -, -, hsch, hcnt, -, hrem, hun, hrat, -⟩,
    -⟩ := hrun.step k (List.getElem?_eq_some_iff.mp hd').1
  rw [hpi.nDev] at hs
  obtain rfl := scheduled_unique hs hsch
  have hpos : (0 : ℝ) < test.length := by exact_mod_cast List.length_pos_iff.mpr ht
  have hle : (n : ℝ) ≤ test.length := by
    have := (div_le_iff₀ hpos).mp (hrat.trans hr)
    linarith
  have hle' : n ≤ (test.length : ℤ) := by exact_mod_cast hle
  have hg := hcnt h0
  have hlen := hrem.length_eq
  rw [List.length_append] at hlen
  rw [hpi'.nDev, hpi.nDev, hpi'.nUnused, hpi.nUnused, hun, List.length_append]
  constructor <;> push_cast <;> omega

/-! ## Termination -/

theorem pruneLoop_terminates (env : PruneEnv M) (cfg : PruneCfg) (nFull : ℕ) (fuel : ℕ)
    (s : PruneState M) (h : cfg.params.nIterMax < s.iter + fuel) (hf : 0 < fuel) :
    ∃ r, pruneLoop env cfg nFull fuel s = some r := by
  induction fuel generalizing s with
  | zero => omega
  | succ fuel ih =>
    rw [pruneLoop]
    cases hr : iterStep env cfg nFull s with
    | error e => exact ⟨_, rfl⟩
    | ok r =>
      simp only []
      by_cases hv : r.isValid = false
      · rw [if_pos hv]; exact ⟨_, rfl⟩
      · rw [if_neg hv]
        cases hs' : evaluateIter env cfg nFull
            { s with dev := r.dev, unused := r.unused, fs := r.fs } with
        | error e => exact ⟨_, rfl⟩
        | ok s' =>
          simp only []
          by_cases hmax : (s.iter : ℤ) ≥ cfg.params.nIterMax
          · rw [if_pos hmax]; exact ⟨_, rfl⟩
          · rw [if_neg hmax]
            refine ih _ ?_ ?_
            · show cfg.params.nIterMax < ((s.iter + 1 : ℕ) : ℤ) + fuel
              push_cast at h ⊢
              omega
            · push_cast at h
              omega

/-- **C103** (termination). A pruning ends after at most `max(n_iter_max, 0) + 1` iterations,
whatever is drawn, trained and predicted. -/
theorem C103_terminates (env : PruneEnv M) (cfg : PruneCfg) (full : List ℕ) (fuel : ℕ)
    (hf : max cfg.params.nIterMax 0 + 1 ≤ fuel) :
    ∃ r, pruneTimeSeriesDataset env cfg full fuel = some r := by
  unfold pruneTimeSeriesDataset
  cases checkTesting cfg with
  | error e => exact ⟨_, rfl⟩
  | ok u =>
    refine pruneLoop_terminates _ _ _ _ _ ?_ ?_
    · show cfg.params.nIterMax < ((0 : ℕ) : ℤ) + fuel
      push_cast
      omega
    · omega

end Hooke
