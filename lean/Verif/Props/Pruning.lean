import Verif.Lemmas.Pruning
import Std.Data.String.ToNat

/-!
# C103: pruning of a data set
-/

namespace Hooke

open Spec

variable {M : Type}

/-! ## Files -/

theorem datasetPath_inj {d : List String} {a b : ℕ} :
    datasetPath d a = datasetPath d b ↔ a = b := by
  refine ⟨fun h => ?_, fun h => h ▸ rfl⟩
  unfold datasetPath at h
  have h1 := List.cons.inj (List.append_cancel_left h)
  have h2 := congrArg String.toList h1.1
  simp only [String.toList_append] at h2
  have h3 := List.append_cancel_left (List.append_cancel_right h2)
  exact Nat.repr_inj.mp (String.toList_inj.mp h3)

theorem datasetPath_ne {d d' : List String} {a b : ℕ} (h : d ≠ d') :
    datasetPath d a ≠ datasetPath d' b := by
  intro e
  have := congrArg List.dropLast e
  simp only [datasetPath, List.dropLast_concat] at this
  exact h this

theorem PFs.load_save (fs : PFs M) (dir : List String) (d : DS ℕ) :
    (fs.save dir d).load (datasetPath dir d.len) = d.toList := by
  unfold PFs.load PFs.save
  rw [Function.update_self]

theorem PFs.load_save_ne (fs : PFs M) {dir : List String} {d : DS ℕ} {path : List String}
    (h : path ≠ datasetPath dir d.len) : (fs.save dir d).load path = fs.load path := by
  unfold PFs.load PFs.save
  rw [Function.update_of_ne h]

theorem getNPrunSample_ok {p : PruneParams} {nDev : ℕ} {n : ℤ}
    (h : getNPrunSample p nDev = .ok n) : Scheduled p nDev n := by
  unfold getNPrunSample at h
  split_ifs at h with h1 h2
  · exact .inl ⟨h1, orRaise_ok.mp h⟩
  · refine .inr ⟨h2, ?_⟩
    cases hr : p.prunRatio with
    | none => rw [hr] at h; exact absurd h (by simp [orRaise, Except.map])
    | some r =>
      rw [hr] at h
      obtain rfl : pyTrunc (r * nDev) = n := Except.ok.inj h
      refine ⟨r, rfl, fun h0 => ?_, fun h0 => ?_⟩
      · rw [pyTrunc, if_pos (by positivity)]
      · rw [pyTrunc]
        split_ifs with h3
        · have : r * nDev = 0 := le_antisymm (mul_nonpos_of_nonpos_of_nonneg h0 (by positivity)) h3
          rw [this]; simp
        · rfl

theorem stepStatus_none {p : PruneParams} {nFull nDev nTest : ℕ} {n : ℤ}
    (h : stepStatus p nFull nDev nTest n = none) :
    PruneAdmissible p nFull nDev ∧ (n : ℝ) / nTest ≤ p.prunTestRatioMax := by
  unfold stepStatus at h
  split_ifs at h with h1 h2 h3 h4
  exact ⟨⟨not_le.mp h1, not_lt.mp h2, not_lt.mp h3⟩, not_lt.mp h4⟩

theorem stepStatus_some {p : PruneParams} {nFull nDev nTest : ℕ} {n : ℤ} {status : String}
    (hs : Scheduled p nDev n) (h0 : 0 < nTest) (hle : nTest ≤ nDev)
    (hsz : SubsetSize p.stepSizes "testing" nDev nTest)
    (h : stepStatus p nFull nDev nTest n = some status) : StopReason p nFull nDev status := by
  unfold stepStatus at h
  split_ifs at h with h1 h2 h3 h4
  · exact .inl ⟨h1, (Option.some.inj h).symm⟩
  · exact .inr (.inl ⟨h2, (Option.some.inj h).symm⟩)
  · exact .inr (.inr (.inl ⟨h3, (Option.some.inj h).symm⟩))
  · exact .inr (.inr (.inr ⟨n, nTest, hs, h0, hle, hsz, h4, (Option.some.inj h).symm⟩))

/-! ## A pruning step -/

theorem stepDir_loads (fs : PFs M) (train val test : DS ℕ) :
    (setPruningStepDir fs train val test).load
        (datasetPath ["pruning_step", "1_training_dataset"] train.len) = train.toList ∧
      (setPruningStepDir fs train val test).load
        (datasetPath ["pruning_step", "2_validation_dataset"] val.len) =
          (if val.len = test.len then test.toList else val.toList) ∧
      (setPruningStepDir fs train val test).load
        (datasetPath ["pruning_step", "2_validation_dataset"] test.len) = test.toList := by
  unfold setPruningStepDir
  refine ⟨?_, ?_, PFs.load_save _ _ _⟩
  · rw [PFs.load_save_ne _ (datasetPath_ne (by decide)),
      PFs.load_save_ne _ (datasetPath_ne (by decide)), PFs.load_save]
  · split_ifs with h
    · rw [h, PFs.load_save]
    · rw [PFs.load_save_ne _ (fun e => h (datasetPath_inj.mp e)), PFs.load_save]

/-- The number of samples taken by `l[:n]`. -/
def sliceCount (len : ℕ) (n : ℤ) : ℕ := if 0 ≤ n then n.toNat else len - (-n).toNat

/-- Indexes of the samples pruned in a step with the given model. -/
noncomputable def prunedIdx (env : PruneEnv M) (dev i3 : List ℕ) (n : ℤ) (m : M) : List ℕ :=
  samplesAt i3 ((sortedByLoss ((samplesAt dev i3).map (env.loss m))).take (sliceCount i3.length n))

theorem prunedIdx_mem {env : PruneEnv M} {dev i3 : List ℕ} {n : ℤ} {m : M} {j : ℕ}
    (hj : j ∈ prunedIdx env dev i3 n m) : j ∈ i3 := by
  rw [prunedIdx, samplesAt, List.mem_map] at hj
  obtain ⟨a, ha, rfl⟩ := hj
  have ha' : a < i3.length := by
    have := (sortedByLoss_perm _).mem_iff.mp (List.mem_of_mem_take ha)
    simpa using this
  simp [ha']

/-- The pruning of an admissible step, given the index lists of the split. -/
theorem pruneSamples_eval {env : PruneEnv M} (he : Shuffles env) {k : ℕ} {n : ℤ} {fs : PFs M}
    {dev unused : InMemory} {i1 i2 i3 : List ℕ}
    (hp : (i1 ++ i2 ++ i3).Perm (List.range dev.refs.length)) (h3 : i3 ≠ []) :
    pruneSamples env k n fs dev unused (.subset (.base dev.refs) i1)
      (.subset (.base dev.refs) i2) (.subset (.base dev.refs) i3) =
    env.trainStep k (samplesAt dev.refs i1)
        (if i2.length = i3.length then samplesAt dev.refs i3 else samplesAt dev.refs i2) >>= fun m =>
      .ok ⟨true, "Pruning step performed successfully.",
        dev.remove ((prunedIdx env dev.refs i3 n m).map Int.ofNat),
        unused.add (samplesAt dev.refs (prunedIdx env dev.refs i3 n m)),
        (setPruningStepDir fs (.subset (.base dev.refs) i1) (.subset (.base dev.refs) i2)
          (.subset (.base dev.refs) i3)).rmtree ["pruning_step"]⟩ := by
  have hlt : ∀ i ∈ i1 ++ i2 ++ i3, i < dev.refs.length := fun i hi =>
    List.mem_range.mp (hp.mem_iff.mp hi)
  have hlt1 : ∀ i ∈ i1, i < dev.refs.length := fun i hi => hlt i (by simp [hi])
  have hlt2 : ∀ i ∈ i2, i < dev.refs.length := fun i hi => hlt i (by simp [hi])
  have hlt3 : ∀ i ∈ i3, i < dev.refs.length := fun i hi => hlt i (by simp [hi])
  obtain ⟨hl1, hl2, hl3⟩ := stepDir_loads fs (.subset (.base dev.refs) i1)
      (.subset (.base dev.refs) i2) (.subset (.base dev.refs) i3)
  rw [toList_subset hlt1] at hl1
  rw [toList_subset hlt2, toList_subset hlt3] at hl2
  rw [toList_subset hlt3] at hl3
  have hl2' : (setPruningStepDir fs (.subset (.base dev.refs) i1) (.subset (.base dev.refs) i2)
      (.subset (.base dev.refs) i3)).load
        (datasetPath ["pruning_step", "2_validation_dataset"] (DS.subset (.base dev.refs) i2).len) =
      .ok (if i2.length = i3.length then samplesAt dev.refs i3 else samplesAt dev.refs i2) := by
    rw [hl2]
    by_cases hc : i2.length = i3.length <;> simp [DS.len, hc]
  have hne : samplesAt dev.refs i3 ≠ [] := by
    intro e
    have := congrArg List.length e
    rw [samplesAt_length] at this
    exact h3 (List.length_eq_zero_iff.mp this)
  unfold pruneSamples
  simp only []
  rw [hl1, hl3, hl2']
  show (env.trainStep k _ _ >>= _) = (env.trainStep k _ _ >>= _)
  congr 1
  funext m
  show (readSamplesLoss (predictionFiles env k m (samplesAt dev.refs i3)) >>= _) = _
  rw [readSamplesLoss_files he k m hne]
  set losses := (samplesAt dev.refs i3).map (env.loss m) with hlosses
  have hll : losses.length = i3.length := by simp [hlosses]
  have hsp := sortedByLoss_perm losses
  rw [hll] at hsp
  have hslt : ∀ j ∈ sortedByLoss losses, j < i3.length := fun j hj =>
    List.mem_range.mp (hsp.mem_iff.mp hj)
  have hc : pySliceTo (sortedByLoss losses) n =
      (sortedByLoss losses).take (sliceCount i3.length n) := by
    unfold pySliceTo sliceCount
    rw [hsp.length_eq, List.length_range]
    split_ifs <;> rfl
  have hpar : parentIndices (.subset (.base dev.refs) i3)
      ((pySliceTo (sortedByLoss losses) n).map Int.ofNat) =
      .ok (prunedIdx env dev.refs i3 n m) := by
    rw [hc]
    show ((((sortedByLoss losses).take (sliceCount i3.length n)).map Int.ofNat).mapM
      (pyIndex i3)) = _
    rw [List.mapM_map]
    rw [mapM_of_forall (g := fun j => i3.getD j 0)]
    · rfl
    · intro j hj
      have hj' := hslt j (List.mem_of_mem_take hj)
      show pyIndex i3 (j : ℤ) = _
      rw [pyIndex_nat hj']
      simp [hj']
  show (parentIndices (.subset (.base dev.refs) i3)
      ((pySliceTo (sortedByLoss losses) n).map Int.ofNat) >>= _) = _
  rw [hpar]
  have hsam : ((prunedIdx env dev.refs i3 n m).mapM fun i : ℕ => dev.getitem (i : ℤ)) =
      .ok (samplesAt dev.refs (prunedIdx env dev.refs i3 n m)) := by
    rw [mapM_of_forall (g := fun i => dev.refs.getD i 0)]
    · rfl
    · intro j hj
      have hj' := hlt3 j (prunedIdx_mem hj)
      show pyIndex dev.refs (j : ℤ) = _
      rw [pyIndex_nat hj']
      simp [hj']
  show (((prunedIdx env dev.refs i3 n m).mapM fun i : ℕ => dev.getitem (i : ℤ)) >>= _) = _
  rw [hsam]
  rfl

open Spec in
/-- Size of a subset found by its name. -/
theorem split_size {l : List ℕ} {sizes : List (String × ℝ)} {perm : List ℕ}
    {subs : List (String × DS ℕ)} {name : String} {v : DS ℕ}
    (hp : perm.Perm (List.range l.length)) (hs : splitDataset (.base l) sizes perm = .ok subs)
    (hn : (sizes.map Prod.fst).Nodup) (hv : subs.lookup name = some v) :
    SubsetSize sizes name l.length v.len := by
  intro hone k f hk
  obtain ⟨sub, hsub, hlen⟩ := C43_sizes (d := .base l) hp hone hs k name f hk
  have hn' : (subs.map Prod.fst).Nodup := by rw [(split_indices (d := .base l) hp hs).1]; exact hn
  have := mem_lookup hn' (List.mem_of_getElem? hsub)
  rw [hv] at this
  obtain rfl := Option.some.inj this
  exact hlen

/-- Outcome of the pruning of an admissible step. -/
theorem pruneSamples_spec {env : PruneEnv M} (he : Shuffles env) {k : ℕ} {n : ℤ} {fs : PFs M}
    {dev unused : InMemory} {i1 i2 i3 : List ℕ}
    (hp : (i1 ++ i2 ++ i3).Perm (List.range dev.refs.length)) (h3 : i3 ≠ []) {r : StepResult M}
    (h : pruneSamples env k n fs dev unused (.subset (.base dev.refs) i1)
      (.subset (.base dev.refs) i2) (.subset (.base dev.refs) i3) = .ok r) :
    r.isValid = true ∧ (∀ q, ¬ ["pruning_step"] <+: q → r.fs q = fs q) ∧
    ∃ (gone kept : List ℕ) (m : M),
      env.trainStep k (samplesAt dev.refs i1)
        (if i2.length = i3.length then samplesAt dev.refs i3 else samplesAt dev.refs i2) = .ok m ∧
      (gone ++ kept).Perm (samplesAt dev.refs i3) ∧
      (∀ a ∈ gone, ∀ b ∈ kept, env.loss m a ≤ env.loss m b) ∧
      (0 ≤ n → gone.length = min n.toNat i3.length) ∧
      r.dev.refs.Sublist dev.refs ∧ (gone ++ r.dev.refs).Perm dev.refs ∧
      r.unused.refs = unused.refs ++ gone := by
  have hlt3 : ∀ i ∈ i3, i < dev.refs.length := fun i hi =>
    List.mem_range.mp (hp.mem_iff.mp (by simp [hi]))
  have hnd3 : i3.Nodup := (List.nodup_append.mp (hp.nodup_iff.mpr List.nodup_range)).2.1
  rw [pruneSamples_eval he hp h3] at h
  obtain ⟨m, hm, h⟩ := bind_ok h
  obtain rfl := Except.ok.inj h
  set losses := (samplesAt dev.refs i3).map (env.loss m) with hlosses
  have hll : losses.length = i3.length := by simp [hlosses]
  have hsp := sortedByLoss_perm losses
  rw [hll] at hsp
  have hslt : ∀ j ∈ sortedByLoss losses, j < i3.length := fun j hj =>
    List.mem_range.mp (hsp.mem_iff.mp hj)
  set c := sliceCount i3.length n with hc
  set js := prunedIdx env dev.refs i3 n m with hjs
  have hjs' : js = samplesAt i3 ((sortedByLoss losses).take c) := rfl
  have hall : (samplesAt i3 (sortedByLoss losses)).Perm i3 := by
    have := samplesAt_perm (l := i3) hsp
    rwa [samplesAt_range] at this
  have hsplit : samplesAt i3 (sortedByLoss losses) =
      js ++ samplesAt i3 ((sortedByLoss losses).drop c) := by
    rw [hjs', ← samplesAt_append, List.take_append_drop]
  have hjn : js.Nodup := by
    have := hall.nodup_iff.mpr hnd3
    rw [hsplit] at this
    exact (List.nodup_append.mp this).1
  refine ⟨rfl, ?_, samplesAt dev.refs js,
    samplesAt dev.refs (samplesAt i3 ((sortedByLoss losses).drop c)), m, hm, ?_, ?_, ?_, ?_, ?_, rfl⟩
  · intro q hq
    have hne : ∀ (d : String) (a : ℕ), q ≠ datasetPath ["pruning_step", d] a := by
      rintro d a rfl
      exact hq ⟨[d, "ss_paths_dataset_n" ++ toString a ++ ".pkl"], rfl⟩
    simp only [PFs.rmtree, if_neg hq, setPruningStepDir, PFs.save]
    rw [Function.update_of_ne (hne _ _), Function.update_of_ne (hne _ _),
      Function.update_of_ne (hne _ _)]
    exact if_neg hq
  · rw [← samplesAt_append, ← hsplit]
    exact samplesAt_perm hall
  · have hs := sortedByLoss_sorted losses
    rw [← List.take_append_drop c (sortedByLoss losses), List.pairwise_append] at hs
    intro a ha b hb
    rw [hjs'] at ha
    simp only [samplesAt, List.mem_map] at ha hb
    obtain ⟨-, ⟨u, hu, rfl⟩, rfl⟩ := ha
    obtain ⟨-, ⟨v, hv, rfl⟩, rfl⟩ := hb
    have := hs.2.2 u hu v hv
    have hu' := hslt u (List.mem_of_mem_take hu)
    have hv' := hslt v (List.mem_of_mem_drop hv)
    have e : ∀ w, w < i3.length → losses.getD w 0 = env.loss m (dev.refs.getD (i3.getD w 0) 0) := by
      intro w hw
      simp [hlosses, samplesAt, hw]
    rw [e u hu', e v hv'] at this
    exact this
  · intro h0
    rw [samplesAt_length, hjs', samplesAt_length, List.length_take, hsp.length_eq,
      List.length_range, hc, sliceCount, if_pos h0]
  · exact removeFrom_sublist _ _ _
  · exact remove_perm hjn fun j hj => hlt3 j (prunedIdx_mem hj)

/-- Outcome of a pruning step. -/
theorem performPruningStep_spec {env : PruneEnv M} (he : Shuffles env) {p : PruneParams}
    (hn : NamedSubsets p) {nFull k : ℕ} {fs : PFs M} {dev unused : InMemory} {r : StepResult M}
    (h : performPruningStep env p nFull k fs dev unused = .ok r) :
    (r.isValid = true ∧ PruningStep env p k dev.refs unused.refs r.dev.refs r.unused.refs ∧
      PruneAdmissible p nFull dev.refs.length ∧ ∀ q, ¬ ["pruning_step"] <+: q → r.fs q = fs q) ∨
    (r.isValid = false ∧ r.dev = dev ∧ r.unused = unused ∧ r.fs = fs ∧
      StopReason p nFull dev.refs.length r.status) := by
  unfold performPruningStep at h
  obtain ⟨n, hnp, h⟩ := bind_ok h
  obtain ⟨split, hsplit, h⟩ := bind_ok h
  obtain ⟨train, htr, h⟩ := bind_ok h
  obtain ⟨val, hva, h⟩ := bind_ok h
  obtain ⟨test, hte, h⟩ := bind_ok h
  rw [orRaise_ok] at htr hva hte
  obtain ⟨hsub, hperm⟩ := split_lookup (vs := [train, val, test]) (he.step k dev.len) hsplit hn.step
    (by decide) (.cons htr (.cons hva (.cons hte .nil)))
  obtain ⟨ht1, ht2⟩ := hsub train (by simp)
  obtain ⟨hv1, hv2⟩ := hsub val (by simp)
  obtain ⟨hs1, hs2⟩ := hsub test (by simp)
  have hp : (train.idx ++ val.idx ++ test.idx).Perm (List.range dev.refs.length) := by
    simpa [DS.len] using hperm
  have hsch := getNPrunSample_ok hnp
  have hnn : (p.stepSizes.map Prod.fst).Nodup := hn.step.nodup_iff.mpr (by decide)
  have hlenT : train.len = train.idx.length := by rw [ht1]; rfl
  have hlenV : val.len = val.idx.length := by rw [hv1]; rfl
  have hlen : test.len = test.idx.length := by rw [hs1]; rfl
  have hle : test.idx.length ≤ dev.refs.length := by
    have := hp.length_eq
    simp only [List.length_append, List.length_range] at this
    omega
  cases hst : stepStatus p nFull dev.len test.len n with
  | some status =>
    rw [hst] at h
    obtain rfl := Except.ok.inj h
    refine .inr ⟨rfl, rfl, rfl, rfl, stepStatus_some hsch ?_ (by rw [hlen]; exact hle)
      (split_size (he.step k dev.len) hsplit hnn hte) hst⟩
    rw [hlen]
    exact List.length_pos_iff.mpr hs2
  | none =>
    rw [hst] at h
    simp only [] at h
    rw [ht1, hv1, hs1] at h
    obtain ⟨hval, hfs, gone, kept, m, hm, hgk, hloss, hcount, hsubl, hrem, hun⟩ :=
      pruneSamples_spec he hp hs2 h
    obtain ⟨hadm, hratio⟩ := stepStatus_none hst
    refine .inl ⟨hval, ?_, hadm, hfs⟩
    refine ⟨samplesAt dev.refs train.idx, samplesAt dev.refs val.idx, samplesAt dev.refs test.idx,
      gone, kept, m, n, ?_, ?_, ?_, ?_, ?_, hgk, hloss, hsch, ?_, hsubl, hrem, hun, ?_, ?_, ?_, ?_⟩
    · have := samplesAt_perm (l := dev.refs) hp
      rwa [samplesAt_range, samplesAt_append, samplesAt_append] at this
    · exact fun e => ht2 (List.map_eq_nil_iff.mp e)
    · exact fun e => hv2 (List.map_eq_nil_iff.mp e)
    · exact fun e => hs2 (List.map_eq_nil_iff.mp e)
    · rw [samplesAt_length, samplesAt_length]; exact hm
    · rw [samplesAt_length]; exact hcount
    · rw [samplesAt_length, ← hlen]; exact hratio
    · rw [samplesAt_length, ← hlenT]; exact split_size (he.step k dev.len) hsplit hnn htr
    · rw [samplesAt_length, ← hlenV]; exact split_size (he.step k dev.len) hsplit hnn hva
    · rw [samplesAt_length, ← hlen]; exact split_size (he.step k dev.len) hsplit hnn hte

/-! ## An iteration -/

/-- Known testing types. -/
def KnownTest (t : String) : Prop :=
  t = "unused_data" ∨ t = "in_distribution" ∨ t = "out_distribution"

theorem checkTesting_ok {cfg : PruneCfg} {u : Unit} (h : checkTesting cfg = .ok u) :
    ∀ t ∈ cfg.testing, KnownTest t := by
  unfold checkTesting at h
  split_ifs at h with hc
  intro t ht
  rcases hc t ht with h1 | ⟨h1 | h1, -⟩
  · exact .inl h1
  · exact .inr (.inl h1)
  · exact .inr (.inr h1)

theorem testDir_inj {n : ℕ} {t t' : String} (h : KnownTest t) (h' : KnownTest t')
    (e : testDir n t = testDir n t') : t = t' := by
  unfold testDir at e
  have e1 := (List.cons.inj (List.append_cancel_left e)).1
  rcases h with rfl | rfl | rfl <;> rcases h' with rfl | rfl | rfl <;>
    first | rfl | (revert e1; decide)

theorem testDir_ne {n : ℕ} {t : String} (h : KnownTest t) {d : String}
    (hd : d = "1_training_dataset" ∨ d = "2_validation_dataset") :
    iterDir n ++ [d] ≠ testDir n t := by
  intro e
  unfold testDir at e
  have e1 := (List.cons.inj (List.append_cancel_left e)).1
  revert e1
  rcases h with rfl | rfl | rfl <;> rcases hd with rfl | rfl <;> decide

theorem foldl_save_ne {cfg : PruneCfg} {unused : InMemory} {n : ℕ} {q : List String}
    (l : List String) (hq : ∀ t ∈ l, q ≠ datasetPath (testDir n t) (testDataset cfg unused t).len)
    (fs : PFs M) :
    l.foldl (fun fs t => fs.save (testDir n t) (testDataset cfg unused t)) fs q = fs q := by
  induction l generalizing fs with
  | nil => rfl
  | cons t l ih =>
    rw [List.foldl_cons, ih (fun t' ht' => hq t' (List.mem_cons_of_mem _ ht'))]
    exact Function.update_of_ne (hq t List.mem_cons_self) _ _

theorem foldl_save_mem {cfg : PruneCfg} {unused : InMemory} {n : ℕ} {t : String}
    (l : List String) (hl : ∀ t ∈ l, KnownTest t) (ht : t ∈ l) (fs : PFs M) :
    l.foldl (fun fs t => fs.save (testDir n t) (testDataset cfg unused t)) fs
      (datasetPath (testDir n t) (testDataset cfg unused t).len) =
        some (.dataset (testDataset cfg unused t)) := by
  induction l generalizing fs with
  | nil => simp at ht
  | cons t' l ih =>
    rw [List.foldl_cons]
    by_cases hm : t ∈ l
    · exact ih (fun a ha => hl a (List.mem_cons_of_mem _ ha)) hm _
    · have : t = t' := by simpa [hm] using ht
      subst this
      rw [foldl_save_ne]
      · exact Function.update_self ..
      · intro a ha
        refine datasetPath_ne fun e => hm ?_
        rw [testDir_inj (hl t List.mem_cons_self) (hl a (List.mem_cons_of_mem _ ha)) e]
        exact ha

theorem testDataset_toList (cfg : PruneCfg) (unused : InMemory) (t : String) :
    (testDataset cfg unused t).toList = .ok (testSamples cfg unused.refs t) := by
  unfold testDataset testSamples
  split_ifs <;> exact toList_base _

theorem iterDir_eq {a b : ℕ} : iterDir a = iterDir b ↔ a = b := by
  refine ⟨fun h => ?_, fun h => h ▸ rfl⟩
  have h2 := congrArg String.toList (List.cons.inj h).1
  simp only [String.toList_append] at h2
  exact Nat.repr_inj.mp (String.toList_inj.mp (List.append_cancel_left h2))

theorem iterDir_prefix {a b : ℕ} {rest : List String} (h : iterDir a <+: iterDir b ++ rest) :
    a = b := by
  obtain ⟨u, hu⟩ := h
  refine iterDir_eq.mp ?_
  exact congrArg (fun x => [x]) (List.cons.inj hu).1

theorem step_prefix {b : ℕ} {rest : List String} : ¬ ["pruning_step"] <+: iterDir b ++ rest := by
  rintro ⟨u, hu⟩
  have h := congrArg String.toList (List.cons.inj hu).1
  simp only [String.toList_append] at h
  have := congrArg List.head? h
  revert this
  simp

/-- The files of an iteration. -/
theorem iterDir_files {cfg : PruneCfg} (hk : ∀ t ∈ cfg.testing, KnownTest t) (fs : PFs M)
    (train val : DS ℕ) (unused : InMemory) :
    setPruningIterDir cfg fs train val unused
        (datasetPath (iterDir train.len ++ ["1_training_dataset"]) train.len) =
      some (.dataset train) ∧
    setPruningIterDir cfg fs train val unused
        (datasetPath (iterDir train.len ++ ["2_validation_dataset"]) val.len) =
      some (.dataset val) ∧
    (∀ t ∈ cfg.testing, setPruningIterDir cfg fs train val unused
      (datasetPath (testDir train.len t) (testDataset cfg unused t).len) =
        some (.dataset (testDataset cfg unused t))) ∧
    ∀ q, ¬ iterDir train.len <+: q → setPruningIterDir cfg fs train val unused q = fs q := by
  refine ⟨?_, ?_, ?_, ?_⟩
  · rw [setPruningIterDir,
      foldl_save_ne _ fun t ht => datasetPath_ne (testDir_ne (hk t ht) (.inl rfl))]
    unfold PFs.save
    rw [Function.update_of_ne (datasetPath_ne (by
      intro e
      exact absurd (List.cons.inj (List.append_cancel_left e)).1 (by decide))),
      Function.update_self]
  · rw [setPruningIterDir,
      foldl_save_ne _ fun t ht => datasetPath_ne (testDir_ne (hk t ht) (.inr rfl))]
    unfold PFs.save
    rw [Function.update_self]
  · intro t ht
    exact foldl_save_mem _ hk ht _
  · intro q hq
    have hne : ∀ (d : String) (a : ℕ), q ≠ datasetPath (iterDir train.len ++ [d]) a := by
      rintro d a rfl
      refine hq ?_
      unfold datasetPath
      rw [List.append_assoc]
      exact List.prefix_append _ _
    rw [setPruningIterDir, foldl_save_ne _ fun t ht => hne _ _]
    unfold PFs.save
    rw [Function.update_of_ne (hne _ _), Function.update_of_ne (hne _ _)]
    exact if_neg hq

/-- No data set file is the model of an iteration. -/
theorem datasetPath_ne_model (n : ℕ) (d : String) (a : ℕ) :
    datasetPath (iterDir n ++ [d]) a ≠ iterDir n ++ ["3_model"] := by
  intro e
  have := congrArg List.length e
  simp [datasetPath, iterDir] at this

/-- Outcome of an iteration after the pruning step. -/
theorem evaluateIter_spec {env : PruneEnv M} (he : Shuffles env) {cfg : PruneCfg}
    (hn : NamedSubsets cfg.params) (hk : ∀ t ∈ cfg.testing, KnownTest t) {nFull : ℕ}
    {s s' : PruneState M} (h : evaluateIter env cfg nFull s = .ok s') :
    s'.iter = s.iter ∧ s'.dev = s.dev ∧ s'.unused = s.unused ∧
    ∃ (train val : List ℕ) (m : M) (d : IterData),
      PruningIteration env cfg nFull s.iter s.dev.refs s.unused.refs train val m d ∧
      s'.data = s.data ++ [d] ∧ Stored s'.fs cfg.removeModels train val m ∧
      ∀ q, ¬ iterDir train.length <+: q → s'.fs q = s.fs q := by
  unfold evaluateIter at h
  obtain ⟨split, hsplit, h⟩ := bind_ok h
  obtain ⟨train, htr, h⟩ := bind_ok h
  obtain ⟨val, hva, h⟩ := bind_ok h
  rw [orRaise_ok] at htr hva
  obtain ⟨hsub, hperm⟩ := split_lookup (vs := [train, val]) (he.iter s.iter s.dev.len) hsplit
    hn.iter (by decide) (.cons htr (.cons hva .nil))
  obtain ⟨ht1, ht2⟩ := hsub train (by simp)
  obtain ⟨hv1, hv2⟩ := hsub val (by simp)
  have hp : (train.idx ++ val.idx).Perm (List.range s.dev.refs.length) := by
    simpa [DS.len] using hperm
  have hlt : ∀ i ∈ train.idx ++ val.idx, i < s.dev.refs.length := fun i hi =>
    List.mem_range.mp (hp.mem_iff.mp hi)
  have hlt1 : ∀ i ∈ train.idx, i < s.dev.refs.length := fun i hi => hlt i (by simp [hi])
  have hlt2 : ∀ i ∈ val.idx, i < s.dev.refs.length := fun i hi => hlt i (by simp [hi])
  have hlt' : train.len = train.idx.length := by rw [ht1]; rfl
  have hlv' : val.len = val.idx.length := by rw [hv1]; rfl
  have htl : train.toList = .ok (samplesAt s.dev.refs train.idx) := by
    rw [ht1]; exact toList_subset hlt1
  have hvl : val.toList = .ok (samplesAt s.dev.refs val.idx) := by
    rw [hv1]; exact toList_subset hlt2
  set fs1 := setPruningIterDir cfg s.fs train val s.unused with hfs1
  obtain ⟨hT, hV, hX, hO⟩ := iterDir_files hk s.fs train val s.unused
  rw [← hfs1] at hT hV hX hO
  simp only [] at h
  obtain ⟨x1, hx1, h⟩ := bind_ok h
  obtain ⟨x2, hx2, h⟩ := bind_ok h
  obtain ⟨m, hm, h⟩ := bind_ok h
  unfold PFs.load at hx1 hx2
  rw [hT] at hx1
  rw [hV] at hx2
  simp only [] at hx1 hx2
  rw [htl] at hx1
  rw [hvl] at hx2
  obtain rfl := Except.ok.inj hx1
  obtain rfl := Except.ok.inj hx2
  set fs2 : PFs M := Function.update fs1 (iterDir train.len ++ ["3_model"]) (some (.model m))
    with hfs2
  have hfs2o : ∀ (d : String) (a : ℕ), fs2 (datasetPath (iterDir train.len ++ [d]) a) =
      fs1 (datasetPath (iterDir train.len ++ [d]) a) := fun d a =>
    Function.update_of_ne (datasetPath_ne_model _ d a) _ _
  have hfs2m : fs2 (iterDir train.len ++ ["3_model"]) = some (.model m) := Function.update_self ..
  have hfs2q : ∀ q, ¬ iterDir train.len <+: q → fs2 q = s.fs q := by
    intro q hq
    rw [hfs2, Function.update_of_ne (by rintro rfl; exact hq (List.prefix_append _ _)), hO q hq]
  obtain ⟨losses, hloss, h⟩ := bind_ok h
  obtain rfl := Except.ok.inj h
  have hloss' : losses = cfg.testing.map fun t =>
      (t, if t = "unused_data" ∧ s.unused.refs = [] then none
        else some (meanLoss env m (testSamples cfg s.unused.refs t))) := by
    have hall : ∀ t ∈ cfg.testing, ∀ y, testModel env cfg fs2 train.len s.unused t = .ok y →
        y = (t, if t = "unused_data" ∧ s.unused.refs = [] then none
          else some (meanLoss env m (testSamples cfg s.unused.refs t))) := by
      intro t ht y hy
      unfold testModel at hy
      by_cases hc : t = "unused_data" ∧ s.unused.refs = []
      · rw [if_pos ⟨hc.1, by rw [InMemory.len, hc.2]; rfl⟩] at hy
        rw [if_pos hc]
        exact (Except.ok.inj hy).symm
      · rw [if_neg (fun hh => hc ⟨hh.1, List.length_eq_zero_iff.mp hh.2⟩)] at hy
        rw [if_neg hc]
        obtain ⟨l, hl, hy⟩ := bind_ok hy
        obtain ⟨m', hm', hy⟩ := bind_ok hy
        obtain ⟨v, hv, hy⟩ := bind_ok hy
        obtain rfl := Except.ok.inj hy
        unfold PFs.load at hl
        have hl2 : fs2 (datasetPath (testDir train.len t) (testDataset cfg s.unused t).len) =
            some (.dataset (testDataset cfg s.unused t)) := by
          rw [← hX t ht]
          exact hfs2o _ _
        rw [hl2] at hl
        simp only [] at hl
        rw [testDataset_toList] at hl
        obtain rfl := Except.ok.inj hl
        unfold PFs.loadModel at hm'
        rw [hfs2m] at hm'
        obtain rfl := Except.ok.inj hm'
        unfold avgLoss at hv
        obtain ⟨-, -, hv⟩ := bind_ok hv
        obtain rfl := Except.ok.inj hv
        rfl
    have hf := mapM_forall₂ hloss
    have : ∀ l : List String, (∀ t ∈ l, t ∈ cfg.testing) → ∀ out : List (String × Option ℝ),
        List.Forall₂ (fun t y => testModel env cfg fs2 train.len s.unused t = .ok y) l out →
        out = l.map fun t => (t, if t = "unused_data" ∧ s.unused.refs = [] then none
          else some (meanLoss env m (testSamples cfg s.unused.refs t))) := by
      intro l hl out hfo
      induction hfo with
      | nil => rfl
      | @cons t y l' out' h1 h2 ih =>
        rw [List.map_cons, ← ih fun a ha => hl a (List.mem_cons_of_mem _ ha),
          hall t (hl t List.mem_cons_self) y h1]
    exact this _ (fun _ h => h) _ hf
  refine ⟨rfl, rfl, rfl, samplesAt s.dev.refs train.idx, samplesAt s.dev.refs val.idx, m, _,
    ⟨?_, ?_, ?_, hm, rfl, rfl, rfl, ?_, ?_, rfl, ?_, ?_, hloss'⟩, rfl, ⟨?_, ?_, ?_⟩, ?_⟩
  · have := samplesAt_perm (l := s.dev.refs) hp
    rwa [samplesAt_range, samplesAt_append] at this
  · exact fun e => ht2 (List.map_eq_nil_iff.mp e)
  · exact fun e => hv2 (List.map_eq_nil_iff.mp e)
  · rw [samplesAt_length]; exact hlt'
  · rw [samplesAt_length]; exact hlv'
  · rw [samplesAt_length, ← hlt']
    exact split_size (he.iter s.iter s.dev.len) hsplit (hn.iter.nodup_iff.mpr (by decide)) htr
  · rw [samplesAt_length, ← hlv']
    exact split_size (he.iter s.iter s.dev.len) hsplit (hn.iter.nodup_iff.mpr (by decide)) hva
  · rw [samplesAt_length, ← hlt']
    show PFs.load (if cfg.removeModels then fs2.rmtree (iterDir train.len ++ ["3_model"]) else fs2)
      (datasetPath (iterDir train.len ++ ["1_training_dataset"]) train.len) = _
    have hnp : ¬ (iterDir train.len ++ ["3_model"]) <+:
        datasetPath (iterDir train.len ++ ["1_training_dataset"]) train.len := by
      rintro ⟨u, hu⟩
      simp only [datasetPath, iterDir, List.cons_append, List.nil_append, List.cons.injEq] at hu
      exact absurd hu.2.1 (by decide)
    have : (if cfg.removeModels then fs2.rmtree (iterDir train.len ++ ["3_model"]) else fs2)
        (datasetPath (iterDir train.len ++ ["1_training_dataset"]) train.len) =
          some (.dataset train) := by
      split_ifs
      · rw [PFs.rmtree, if_neg hnp, hfs2o, hT]
      · rw [hfs2o, hT]
    unfold PFs.load
    rw [this]
    exact htl
  · rw [samplesAt_length, samplesAt_length, ← hlt', ← hlv']
    show PFs.load (if cfg.removeModels then fs2.rmtree (iterDir train.len ++ ["3_model"]) else fs2)
      (datasetPath (iterDir train.len ++ ["2_validation_dataset"]) val.len) = _
    have hnp : ¬ (iterDir train.len ++ ["3_model"]) <+:
        datasetPath (iterDir train.len ++ ["2_validation_dataset"]) val.len := by
      rintro ⟨u, hu⟩
      simp only [datasetPath, iterDir, List.cons_append, List.nil_append, List.cons.injEq] at hu
      exact absurd hu.2.1 (by decide)
    have : (if cfg.removeModels then fs2.rmtree (iterDir train.len ++ ["3_model"]) else fs2)
        (datasetPath (iterDir train.len ++ ["2_validation_dataset"]) val.len) =
          some (.dataset val) := by
      split_ifs
      · rw [PFs.rmtree, if_neg hnp, hfs2o, hV]
      · rw [hfs2o, hV]
    unfold PFs.load
    rw [this]
    exact hvl
  · intro hr
    rw [samplesAt_length, ← hlt']
    show PFs.loadModel (if cfg.removeModels then fs2.rmtree (iterDir train.len ++ ["3_model"])
      else fs2) (iterDir train.len ++ ["3_model"]) = _
    rw [hr]
    unfold PFs.loadModel
    simp only [Bool.false_eq_true, if_false]
    rw [hfs2m]
  · intro q hq
    rw [samplesAt_length, ← hlt'] at hq
    show (if cfg.removeModels then fs2.rmtree (iterDir train.len ++ ["3_model"]) else fs2) q = _
    have hnp : ¬ (iterDir train.len ++ ["3_model"]) <+: q := fun hh =>
      hq ((List.prefix_append _ _).trans hh)
    split_ifs
    · rw [PFs.rmtree, if_neg hnp, hfs2q q hq]
    · exact hfs2q q hq

end Hooke
