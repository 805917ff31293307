import Verif.Props.PruningCompletes

/-!
# C103: the default parameters, and what a pruning does not do
-/

namespace Hooke

open Spec

variable {M : Type}

/-- Trainings which never fail. -/
structure TrainingSucceeds (env : PruneEnv M) : Prop where
  step : ∀ k a b, ∃ m, env.trainStep k a b = .ok m
  iter : ∀ k a b, ∃ m, env.trainIter k a b = .ok m

theorem default_named : NamedSubsets defaultPruneParams := ⟨by decide, by decide⟩

theorem default_scheduled (n : ℕ) : Scheduled defaultPruneParams n ⌊(5 / 100 : ℝ) * n⌋ :=
  .inr ⟨rfl, 5 / 100, rfl, fun _ => rfl, fun h => by norm_num at h⟩

/-- The default parameters with other fractions for the pruning steps. -/
theorem default_completable {env : PruneEnv M} (ht : TrainingSucceeds env) {cfg : PruneCfg}
    (hp : cfg.params = { defaultPruneParams with stepSizes := cfg.params.stepSizes })
    (hsum : (cfg.params.stepSizes.map Prod.snd).sum = 1)
    (hmin : ∀ q ∈ cfg.params.stepSizes, 1 / 10 ≤ q.2)
    (htest : ∀ t ∈ cfg.testing, t = "unused_data" ∨
      ((t = "in_distribution" ∨ t = "out_distribution") ∧ ∃ l, cfg.external t = some l ∧ l ≠ []))
    {nFull : ℕ} (hn : 10 ≤ nFull) : Completable env cfg nFull 10 where
  trainStep := ht.step
  trainIter := ht.iter
  testing := htest
  stepSum := hsum
  iterSum := by rw [hp]; norm_num [defaultPruneParams]
  enough := by
    intro q hq
    rcases List.mem_append.mp hq with hq | hq
    · have := hmin q hq
      push_cast
      constructor <;> linarith
    · rw [hp] at hq
      simp only [defaultPruneParams, List.mem_cons, List.not_mem_nil, or_false] at hq
      rcases hq with rfl | rfl <;> norm_num
  start := hn
  schedule := by
    intro n hn
    refine ⟨⌊(5 / 100 : ℝ) * n⌋, ?_, by positivity, fun hlt => ?_⟩
    · rw [hp]
      exact default_scheduled n
    · rw [hp] at hlt
      have h10 : (10 : ℝ) < n := hlt
      have h11 : (11 : ℝ) ≤ n := by
        have : 10 < n := by exact_mod_cast h10
        exact_mod_cast this
      have hfl : ((⌊(5 / 100 : ℝ) * n⌋ : ℤ) : ℝ) ≤ 5 / 100 * n := Int.floor_le _
      have : (((10 : ℕ) : ℤ) + ⌊(5 / 100 : ℝ) * n⌋ : ℝ) ≤ n := by
        push_cast
        linarith
      exact_mod_cast this

/-- **C103** (completion with the default parameters). A pruning of ten samples or more with the
default parameters returns, if every training succeeds. -/
theorem C103_default_completes {env : PruneEnv M} (he : Shuffles env) (ht : TrainingSucceeds env)
    {cfg : PruneCfg} (hp : cfg.params = defaultPruneParams)
    (htest : ∀ t ∈ cfg.testing, t = "unused_data" ∨
      ((t = "in_distribution" ∨ t = "out_distribution") ∧ ∃ l, cfg.external t = some l ∧ l ≠ []))
    {full : List ℕ} (hn : 10 ≤ full.length) :
    ∃ out status, pruneTimeSeriesDataset env cfg full 101 = some (.ok (out, status)) := by
  refine C103_completes he (by rw [hp]; exact default_named)
    (default_completable ht (by rw [hp]) ?_ ?_ htest hn) 101 ?_
  · rw [hp]; norm_num [defaultPruneParams]
  · rw [hp]
    intro q hq
    simp only [defaultPruneParams, List.mem_cons, List.not_mem_nil, or_false] at hq
    rcases hq with rfl | rfl | rfl <;> norm_num
  · rw [hp]; decide

/-- Any trainings, drawings and listings: here a model is the list of its training samples, nothing
is shuffled and the loss of a sample is its reference. -/
def plainEnv : PruneEnv (List ℕ) where
  stepPerm _ n := List.range n
  iterPerm _ n := List.range n
  trainStep _ l _ := .ok l
  trainIter _ l _ := .ok l
  loss _ i := i
  listdir _ n := List.range n

theorem plainEnv_shuffles : Shuffles plainEnv :=
  ⟨fun _ _ => .refl _, fun _ _ => .refl _, fun _ _ => .refl _⟩

theorem plainEnv_trains : TrainingSucceeds plainEnv :=
  ⟨fun _ _ _ => ⟨_, rfl⟩, fun _ _ _ => ⟨_, rfl⟩⟩

/-- The default parameters, testing on the unused samples and on one other data set. -/
noncomputable def plainCfg : PruneCfg :=
  ⟨defaultPruneParams, ["unused_data", "in_distribution"],
    fun t => if t = "in_distribution" then some [1000, 1001] else none, false⟩

theorem plainCfg_tests : ∀ t ∈ plainCfg.testing, t = "unused_data" ∨
    ((t = "in_distribution" ∨ t = "out_distribution") ∧
      ∃ l, plainCfg.external t = some l ∧ l ≠ []) := by
  intro t ht
  simp only [plainCfg, List.mem_cons, List.not_mem_nil, or_false] at ht
  rcases ht with rfl | rfl
  · exact .inl rfl
  · exact .inr ⟨.inl rfl, [1000, 1001], by simp [plainCfg], by simp⟩

/-- A pruning of a hundred samples with the default parameters returns; it satisfies the hypotheses
of `C103_run`, `C103_partition` and `C103_sizes`. -/
example : Shuffles plainEnv ∧ NamedSubsets plainCfg.params ∧
    ∃ out status, pruneTimeSeriesDataset plainEnv plainCfg (List.range 100) 101 =
      some (.ok (out, status)) :=
  ⟨plainEnv_shuffles, default_named, C103_default_completes plainEnv_shuffles plainEnv_trains rfl
    plainCfg_tests (by simp)⟩

/-! ## Runs with the default parameters -/

theorem default_testSize {n t : ℕ} (h : SubsetSize defaultPruneParams.stepSizes "testing" n t) :
    t = ⌊(n : ℝ) * (1 / 10)⌋₊ + if 2 < n - (⌊(n : ℝ) * (7 / 10)⌋₊ + (⌊(n : ℝ) * (2 / 10)⌋₊ +
      ⌊(n : ℝ) * (1 / 10)⌋₊)) then 1 else 0 := by
  have := h (by norm_num [defaultPruneParams]) 2 (1 / 10) rfl
  simpa [defaultPruneParams] using this

theorem default_trainSize {n t : ℕ} (h : SubsetSize defaultPruneParams.iterSizes "training" n t) :
    t = ⌊(n : ℝ) * (8 / 10)⌋₊ + if 0 < n - (⌊(n : ℝ) * (8 / 10)⌋₊ + ⌊(n : ℝ) * (2 / 10)⌋₊)
      then 1 else 0 := by
  have := h (by norm_num [defaultPruneParams]) 0 (8 / 10) rfl
  simpa [defaultPruneParams] using this

theorem natFloor_eq {x : ℝ} {n : ℕ} (h1 : (n : ℝ) ≤ x) (h2 : x < n + 1) : ⌊x⌋₊ = n :=
  (Nat.floor_eq_iff (le_trans (Nat.cast_nonneg n) h1)).mpr ⟨h1, h2⟩

theorem default_testSize_50 {t : ℕ} (h : SubsetSize defaultPruneParams.stepSizes "testing" 50 t) :
    t = 5 := by
  have := default_testSize h
  rw [natFloor_eq (n := 5) (by norm_num) (by norm_num),
    natFloor_eq (n := 35) (by norm_num) (by norm_num),
    natFloor_eq (n := 10) (by norm_num) (by norm_num)] at this
  simpa using this

theorem default_testSize_9 {t : ℕ} (h : SubsetSize defaultPruneParams.stepSizes "testing" 9 t) :
    t = 0 := by
  have := default_testSize h
  rw [natFloor_eq (n := 0) (by norm_num) (by norm_num),
    natFloor_eq (n := 6) (by norm_num) (by norm_num),
    natFloor_eq (n := 1) (by norm_num) (by norm_num)] at this
  simpa using this

theorem default_trainSize_20 {t : ℕ} (h : SubsetSize defaultPruneParams.iterSizes "training" 20 t) :
    t = 16 := by
  have := default_trainSize h
  rw [natFloor_eq (n := 16) (by norm_num) (by norm_num),
    natFloor_eq (n := 4) (by norm_num) (by norm_num)] at this
  simpa using this

theorem default_trainSize_19 {t : ℕ} (h : SubsetSize defaultPruneParams.iterSizes "training" 19 t) :
    t = 16 := by
  have := default_trainSize h
  rw [natFloor_eq (n := 15) (by norm_num) (by norm_num),
    natFloor_eq (n := 3) (by norm_num) (by norm_num)] at this
  simpa using this

/-- A run with the default parameters does not stop before a step which the schedule allows. -/
theorem default_no_stop {n nFull : ℕ} {status : String} (hn : 10 < n) (hn' : n ≤ nFull)
    (hr : (nFull : ℝ) * (5 / 100) ≤ n)
    (ht : ∀ t, SubsetSize defaultPruneParams.stepSizes "testing" n t → 0 < t →
      ((⌊(5 / 100 : ℝ) * n⌋ : ℤ) : ℝ) / t ≤ 1 / 2) :
    ¬ StopReason defaultPruneParams nFull n status := by
  have h1 : (10 : ℝ) < n := by exact_mod_cast hn
  rintro (⟨h, -⟩ | ⟨h, -⟩ | ⟨h, -⟩ | ⟨c, t, hc, h0, -, hsz, h, -⟩)
  · exact absurd h (not_le.mpr h1)
  · have h2 : (0 : ℝ) < nFull := by
      have : (0 : ℝ) < n := by linarith
      exact this.trans_le (by exact_mod_cast hn')
    have h3 : (n : ℝ) / nFull < 5 / 100 := h
    rw [div_lt_iff₀ h2] at h3
    linarith
  · have h3 : (n : ℝ) < 10 := h
    linarith
  · obtain rfl := scheduled_unique hc (default_scheduled n)
    exact absurd h (not_lt.mpr (ht t hsz h0))

/-- The testing minimum is not honoured. With the default parameters, which ask for ten testing
samples at least in a pruning step, a data set of fifty samples is pruned by a step which tests on
five samples, whatever is drawn and trained. -/
theorem C103_testing_minimum_violated {env : PruneEnv M} (he : Shuffles env)
    (ht : TrainingSucceeds env) {cfg : PruneCfg} (hp : cfg.params = defaultPruneParams)
    (htest : ∀ t ∈ cfg.testing, t = "unused_data") {full : List ℕ} (hn : full.length = 50) :
    ∃ out status tr, pruneTimeSeriesDataset env cfg full 101 = some (.ok (out, status)) ∧
      PruningRun env cfg full out.data out.fs tr ∧ 1 < out.data.length ∧
      PruningStep env cfg.params 1 full [] (tr 1).1 (tr 1).2 ∧
      ∀ t, SubsetSize cfg.params.stepSizes "testing" full.length t →
        t = 5 ∧ (t : ℝ) < cfg.params.nPrunTestMin := by
  obtain ⟨out, status, h⟩ := C103_default_completes he ht hp
    (fun t h => .inl (htest t h)) (full := full) (by omega)
  obtain ⟨tr, hrun, h0, hdev, -, hend⟩ := C103_run he (by rw [hp]; exact default_named) h
  have h1 : 1 < out.data.length := by
    by_contra hc
    have hlen : out.data.length = 1 := by omega
    rw [hlen, hrun.start] at hdev
    rcases hend with ⟨hmax, -⟩ | ⟨-, hstop⟩
    · rw [hlen, hp] at hmax
      exact absurd hmax (by decide)
    · rw [hp, hdev, hn] at hstop
      refine default_no_stop (by norm_num) le_rfl (by norm_num) (fun t hsz _ => ?_) hstop
      obtain rfl := default_testSize_50 hsz
      rw [show ⌊(5 / 100 : ℝ) * (50 : ℕ)⌋ = 2 from by rw [Int.floor_eq_iff]; norm_num]
      norm_num
  have hst := (hrun.step 0 h1).1
  rw [hrun.start] at hst
  refine ⟨out, status, tr, h, hrun, h1, hst, fun t hsz => ?_⟩
  rw [hp, hn] at hsz
  obtain rfl := default_testSize_50 hsz
  rw [hp]
  norm_num [defaultPruneParams]

/-- The samples pruned are not unseen by the model which selects them. With eighty, ten and ten
per cent of the samples for the training, the validation and the testing of a pruning step, the
validation samples of the training of the first step of twenty samples are its testing samples. -/
theorem C103_unseen_violated {env : PruneEnv M} (he : Shuffles env) (ht : TrainingSucceeds env)
    {cfg : PruneCfg}
    (hp : cfg.params = { defaultPruneParams with
      stepSizes := [("training", 8 / 10), ("validation", 1 / 10), ("testing", 1 / 10)] })
    (htest : ∀ t ∈ cfg.testing, t = "unused_data") {full : List ℕ} (hn : full.length = 20) :
    ∃ out status tr, pruneTimeSeriesDataset env cfg full 101 = some (.ok (out, status)) ∧
      PruningRun env cfg full out.data out.fs tr ∧ 1 < out.data.length ∧
      ∃ train val m, env.trainStep 1 train val = .ok m ∧ (tr 1).2.length = 1 ∧
        ∀ x ∈ (tr 1).2, x ∈ val := by
  have hss : cfg.params.stepSizes = [("training", 8 / 10), ("validation", 1 / 10),
    ("testing", 1 / 10)] := by rw [hp]
  have hnm : NamedSubsets cfg.params := by rw [hp]; exact ⟨by decide, by decide⟩
  have hone : (cfg.params.stepSizes.map Prod.snd).sum = 1 := by rw [hss]; norm_num
  have hcomp : Completable env cfg full.length 10 := by
    refine default_completable ht (by rw [hp]) hone ?_ (fun t h => .inl (htest t h)) (by omega)
    rw [hss]
    intro q hq
    simp only [List.mem_cons, List.not_mem_nil, or_false] at hq
    rcases hq with rfl | rfl | rfl <;> norm_num
  obtain ⟨out, status, h⟩ := C103_completes he hnm hcomp 101 (by rw [hp]; decide)
  obtain ⟨tr, hrun, h0, hdev, -, hend⟩ := C103_run he hnm h
  have hsize : ∀ (name : String) (k : ℕ), cfg.params.stepSizes[k]? = some (name, (1 / 10 : ℝ)) → ∀ t,
      SubsetSize cfg.params.stepSizes name 20 t → t = 2 := by
    intro name k hk t hsz
    have := hsz hone k (1 / 10) hk
    rw [hss] at this
    simp only [List.map_cons, List.map_nil, List.sum_cons, List.sum_nil] at this
    rw [natFloor_eq (n := 2) (by norm_num) (by norm_num),
      natFloor_eq (n := 16) (by norm_num) (by norm_num)] at this
    simpa using this
  have hsched : ∀ c, Scheduled cfg.params 20 c → c = 1 := by
    intro c hc
    have h1 : Scheduled cfg.params 20 ⌊(5 / 100 : ℝ) * (20 : ℕ)⌋ := by
      rw [hp]; exact default_scheduled 20
    rw [scheduled_unique hc h1, Int.floor_eq_iff]
    norm_num
  have h1 : 1 < out.data.length := by
    by_contra hc
    have hlen : out.data.length = 1 := by omega
    rw [hlen, hrun.start] at hdev
    rcases hend with ⟨hmax, -⟩ | ⟨-, hstop⟩
    · rw [hlen, hp] at hmax
      exact absurd hmax (by decide)
    · rw [hdev, hn] at hstop
      rcases hstop with ⟨h, -⟩ | ⟨h, -⟩ | ⟨h, -⟩ | ⟨c, t, hc, -, -, hsz, h, -⟩
      · rw [hp] at h; norm_num [defaultPruneParams] at h
      · rw [hp] at h; norm_num [defaultPruneParams] at h
      · rw [hp] at h; norm_num [defaultPruneParams] at h
      · obtain rfl := hsched c hc
        obtain rfl := hsize "testing" 2 (by rw [hss]; rfl) t hsz
        rw [hp] at h
        norm_num [defaultPruneParams] at h
  refine ⟨out, status, tr, h, hrun, h1, ?_⟩
  have hst := (hrun.step 0 h1).1
  rw [hrun.start] at hst
  obtain ⟨train, val, test, gone, kept, m, n, -, -, -, -, hm, hgk, -, hsch, hcnt, -, -, hun, -, -,
    hsv, hste⟩ := hst
  rw [show ((full, []) : List ℕ × List ℕ).1.length = 20 from hn] at hsch hsv hste
  have e1 := hsize "validation" 1 (by rw [hss]; rfl) _ hsv
  have e2 := hsize "testing" 2 (by rw [hss]; rfl) _ hste
  rw [if_pos (e1.trans e2.symm)] at hm
  obtain rfl := hsched n hsch
  have hc := hcnt (by norm_num)
  rw [e2] at hc
  simp only [List.nil_append, Nat.zero_add] at hun hm
  refine ⟨train, test, m, hm, by rw [hun, hc]; rfl, fun x hx => ?_⟩
  rw [hun] at hx
  exact hgk.mem_iff.mp (List.mem_append_left _ hx)

theorem default_20 {env : PruneEnv M} (he : Shuffles env) (ht : TrainingSucceeds env)
    {cfg : PruneCfg} (hp : cfg.params = defaultPruneParams)
    (htest : ∀ t ∈ cfg.testing, t = "unused_data") {full : List ℕ} (hn : full.length = 20) :
    ∃ out status tr, pruneTimeSeriesDataset env cfg full 101 = some (.ok (out, status)) ∧
      PruningRun env cfg full out.data out.fs tr ∧ out.data.length = 101 ∧
      (∀ k, 1 ≤ k → k ≤ 100 → ∃ d, out.data[k]? = some d ∧ d.nDev = 19 ∧ d.nUnused = 1 ∧
        d.nTrain = 16) ∧
      ∃ d, out.data[0]? = some d ∧ d.nTrain = 16 := by
  obtain ⟨out, status, h⟩ := C103_default_completes he ht hp
    (fun t h => .inl (htest t h)) (full := full) (by omega)
  have hnm : NamedSubsets cfg.params := by rw [hp]; exact default_named
  obtain ⟨tr, hrun, h0, hdev, -, hend⟩ := C103_run he hnm h
  have hr1 : cfg.params.prunTestRatioMax ≤ 1 := by rw [hp]; norm_num [defaultPruneParams]
  have hget : ∀ k, k < out.data.length → ∃ d, out.data[k]? = some d := fun k hk =>
    ⟨_, List.getElem?_eq_getElem hk⟩
  have hd0 : ∀ d, out.data[0]? = some d → d.nDev = 20 ∧ d.nUnused = 0 := by
    intro d hd
    obtain ⟨_, _, _, hpi, -⟩ := hrun.iteration 0 d hd
    rw [hpi.nDev, hpi.nUnused, hrun.start]
    exact ⟨hn, rfl⟩
  have hs20 : Scheduled cfg.params 20 1 := by
    have := default_scheduled 20
    rw [show ⌊(5 / 100 : ℝ) * (20 : ℕ)⌋ = 1 from by rw [Int.floor_eq_iff]; norm_num] at this
    rw [hp]; exact this
  have hs19 : Scheduled cfg.params 19 0 := by
    have := default_scheduled 19
    rw [show ⌊(5 / 100 : ℝ) * (19 : ℕ)⌋ = 0 from by rw [Int.floor_eq_iff]; norm_num] at this
    rw [hp]; exact this
  have hk : ∀ k d, out.data[k + 1]? = some d → d.nDev = 19 ∧ d.nUnused = 1 := by
    intro k
    induction k with
    | zero =>
      intro d hd
      obtain ⟨d0, hd0'⟩ := hget 0 h0
      obtain ⟨e1, e2⟩ := hd0 d0 hd0'
      have := C103_schedule hrun hr1 0 d0 d 1 hd0' hd (by rw [e1]; exact hs20) (by norm_num)
      omega
    | succ k ih =>
      intro d hd
      obtain ⟨d0, hd0'⟩ := hget (k + 1) (by have := (List.getElem?_eq_some_iff.mp hd).1; omega)
      obtain ⟨e1, e2⟩ := ih d0 hd0'
      have := C103_schedule hrun hr1 (k + 1) d0 d 0 hd0' hd (by rw [e1]; exact hs19) (by norm_num)
      omega
  have hlast : out.dev.refs.length = 20 ∧ out.data.length = 1 ∨ out.dev.refs.length = 19 := by
    obtain ⟨d, hd⟩ := hget (out.data.length - 1) (by omega)
    obtain ⟨_, _, _, hpi, -⟩ := hrun.iteration _ d hd
    have e := hpi.nDev
    rw [← hdev] at e
    by_cases h1 : out.data.length = 1
    · rw [h1] at hd
      exact .inl ⟨by rw [← e]; exact (hd0 d hd).1, h1⟩
    · obtain ⟨k, hk'⟩ : ∃ k, out.data.length - 1 = k + 1 := ⟨out.data.length - 2, by omega⟩
      rw [hk'] at hd
      exact .inr (by rw [← e]; exact (hk k d hd).1)
  have hlen : out.data.length = 101 := by
    rcases hend with ⟨hmax, -⟩ | ⟨-, hstop⟩
    · rw [hp] at hmax
      have : (out.data.length : ℤ) = 101 := hmax
      omega
    · exfalso
      rw [hp, hn] at hstop
      rcases hlast with ⟨e, -⟩ | e
      · rw [e] at hstop
        refine default_no_stop (by norm_num) le_rfl (by norm_num) (fun t hsz h0 => ?_) hstop
        have := default_testSize hsz
        rw [natFloor_eq (n := 2) (by norm_num) (by norm_num),
          natFloor_eq (n := 14) (by norm_num) (by norm_num),
          natFloor_eq (n := 4) (by norm_num) (by norm_num)] at this
        have h2 : t = 2 := by simpa using this
        rw [h2, show ⌊(5 / 100 : ℝ) * (20 : ℕ)⌋ = 1 from by rw [Int.floor_eq_iff]; norm_num]
        norm_num
      · rw [e] at hstop
        refine default_no_stop (by norm_num) (by norm_num) (by norm_num) (fun t hsz h0 => ?_) hstop
        rw [show ⌊(5 / 100 : ℝ) * (19 : ℕ)⌋ = 0 from by rw [Int.floor_eq_iff]; norm_num]
        norm_num
  refine ⟨out, status, tr, h, hrun, hlen, fun k h1 h2 => ?_, ?_⟩
  · obtain ⟨j, rfl⟩ : ∃ j, k = j + 1 := ⟨k - 1, by omega⟩
    obtain ⟨d, hd⟩ := hget (j + 1) (by omega)
    obtain ⟨_, _, _, hpi, -⟩ := hrun.iteration _ d hd
    refine ⟨d, hd, (hk j d hd).1, (hk j d hd).2, ?_⟩
    rw [hpi.nTrain]
    have := hpi.trainSize
    rw [← hpi.nDev, (hk j d hd).1, hp] at this
    exact default_trainSize_19 this
  · obtain ⟨d, hd⟩ := hget 0 h0
    obtain ⟨_, _, _, hpi, -⟩ := hrun.iteration _ d hd
    refine ⟨d, hd, ?_⟩
    rw [hpi.nTrain]
    have := hpi.trainSize
    rw [← hpi.nDev, (hd0 d hd).1, hp] at this
    exact default_trainSize_20 this

/-- A pruning step need not prune. With the default parameters a data set of twenty samples loses
one sample in the first step; the hundredth iteration still has the other nineteen. -/
theorem C103_progress_violated {env : PruneEnv M} (he : Shuffles env) (ht : TrainingSucceeds env)
    {cfg : PruneCfg} (hp : cfg.params = defaultPruneParams)
    (htest : ∀ t ∈ cfg.testing, t = "unused_data") {full : List ℕ} (hn : full.length = 20) :
    ∃ out status, pruneTimeSeriesDataset env cfg full 101 = some (.ok (out, status)) ∧
      out.data.length = 101 ∧ ∀ k, 1 ≤ k → k ≤ 100 → ∃ d, out.data[k]? = some d ∧ d.nDev = 19 := by
  obtain ⟨out, status, tr, h, -, hlen, hk, -⟩ := default_20 he ht hp htest hn
  exact ⟨out, status, h, hlen, fun k h1 h2 => by
    obtain ⟨d, hd, h3, -⟩ := hk k h1 h2
    exact ⟨d, hd, h3⟩⟩

/-- The data sets of an iteration are not kept. With the default parameters the first two
iterations of a pruning of twenty samples have sixteen training samples, and the training data set
in the directory named after this number is a subset of the development samples of the last
iteration. -/
theorem C103_kept_violated {env : PruneEnv M} (he : Shuffles env) (ht : TrainingSucceeds env)
    {cfg : PruneCfg} (hp : cfg.params = defaultPruneParams)
    (htest : ∀ t ∈ cfg.testing, t = "unused_data") {full : List ℕ} (hn : full.length = 20) :
    ∃ out status, pruneTimeSeriesDataset env cfg full 101 = some (.ok (out, status)) ∧
      (∃ d d', out.data[0]? = some d ∧ out.data[1]? = some d' ∧ d.nTrain = 16 ∧ d'.nTrain = 16) ∧
      out.dev.refs.length = 19 ∧ ∃ l, out.fs.load
          ["n16", "1_training_dataset", "ss_paths_dataset_n16.pkl"] = .ok l ∧
        ∀ x ∈ l, x ∈ out.dev.refs := by
  obtain ⟨out, status, tr, h, hrun, hlen, hk, d0, hd0, hd0'⟩ := default_20 he ht hp htest hn
  obtain ⟨tr', hrun', -, hdev', -⟩ := C103_run he (by rw [hp]; exact default_named) h
  obtain ⟨d1, hd1, -, -, hd1'⟩ := hk 1 (by norm_num) (by norm_num)
  obtain ⟨d, hd, hd19, -, hd16⟩ := hk 100 (by norm_num) (by norm_num)
  obtain ⟨train, val, m, hpi, hst⟩ := hrun'.iteration 100 d hd
  have hst' := hst fun j d' hj hd' => by
    have := (List.getElem?_eq_some_iff.mp hd').1
    omega
  have ht16 : train.length = 16 := by rw [← hpi.nTrain]; exact hd16
  rw [hlen, show 101 - 1 = 100 from rfl] at hdev'
  refine ⟨out, status, h, ⟨d0, d1, hd0, hd1, hd0', hd1'⟩, ?_, train, ?_, fun x hx => ?_⟩
  · rw [hdev', ← hpi.nDev, hd19]
  · have := hst'.1
    rw [ht16] at this
    exact this
  · rw [hdev']
    exact hpi.partition.mem_iff.mp (List.mem_append_left _ hx)

/-- The minimum size is not reached in good order. With the default parameters a pruning of nine
samples raises, instead of returning that the minimum size of ten is reached. -/
theorem C103_minimum_reached_violated (env : PruneEnv M) (he : Shuffles env) {cfg : PruneCfg}
    (hp : cfg.params = defaultPruneParams) {full : List ℕ} (hn : full.length = 9) (fuel : ℕ)
    (hf : 2 ≤ fuel) : ∃ e, pruneTimeSeriesDataset env cfg full fuel = some (.error e) := by
  have hnm : NamedSubsets cfg.params := by rw [hp]; exact default_named
  have hsplit : ∀ (dev : InMemory) (u : InMemory) (fs : PFs M), dev.refs.length = 9 →
      ∃ e, performPruningStep env cfg.params full.length 1 fs dev u = .error e := by
    intro dev u fs hdev
    cases hr : performPruningStep env cfg.params full.length 1 fs dev u with
    | error e => exact ⟨e, rfl⟩
    | ok r =>
      exfalso
      unfold performPruningStep at hr
      obtain ⟨n, -, h⟩ := bind_ok hr
      obtain ⟨split, hs, h⟩ := bind_ok h
      obtain ⟨train, htr, h⟩ := bind_ok h
      obtain ⟨val, hva, h⟩ := bind_ok h
      obtain ⟨test, hte, h⟩ := bind_ok h
      rw [orRaise_ok] at htr hva hte
      obtain ⟨hsub, -⟩ := split_lookup (vs := [train, val, test]) (he.step 1 dev.len) hs hnm.step
        (by decide) (.cons htr (.cons hva (.cons hte .nil)))
      obtain ⟨hs1, hs2⟩ := hsub test (by simp)
      have hsz := split_size (he.step 1 dev.len) hs (hnm.step.nodup_iff.mpr (by decide)) hte
      rw [hdev, hp] at hsz
      have h0 := default_testSize_9 hsz
      rw [hs1] at h0
      exact hs2 (List.length_eq_zero_iff.mp h0)
  obtain ⟨fuel, rfl⟩ : ∃ f, fuel = f + 2 := ⟨fuel - 2, by omega⟩
  unfold pruneTimeSeriesDataset
  cases hck : checkTesting cfg with
  | error e => exact ⟨e, rfl⟩
  | ok u =>
    simp only []
    rw [pruneLoop]
    simp only [iterStep, if_true]
    cases hev : evaluateIter env cfg full.length
        ⟨0, InMemory.new full, InMemory.new [], fun _ => none, []⟩ with
    | error e => exact ⟨e, by simp⟩
    | ok s' =>
      obtain ⟨-, hd, -⟩ := evaluateIter_spec he hnm (checkTesting_ok hck) hev
      have hmax : ¬ (((0 : ℕ) : ℤ) ≥ cfg.params.nIterMax) := by
        rw [hp]; decide
      simp only [Bool.true_eq_false, if_false, if_neg hmax]
      rw [pruneLoop]
      simp only [iterStep]
      obtain ⟨e, hee⟩ := hsplit s'.dev s'.unused s'.fs (by rw [hd]; exact hn)
      rw [if_neg (by norm_num), hee]
      exact ⟨e, rfl⟩

end Hooke
