import Verif.Props.MeanMetrics
import Verif.Props.PredictionDataCases

/-!
# C117: processes, the convergence plot, errors and cases
-/

namespace Hooke

open Spec

/-! ## Processes -/

/-- **C117 (processes).** The results of each directory are stored under its label, and the file receives
the metrics of the processes one after the other. -/
theorem C117_processes {dirs : KDict Text PredDir} (hd : dirs.keys.Nodup) {metrics : List String}
    {R : Text → ℕ × PyDict (List MetricVal)}
    (h : ∀ p ∈ dirs, directoryMetrics p.2 metrics = .ok (R p.1)) (old : Option Text) :
    processesMetrics dirs metrics old = .ok (dirs.map fun p => (p.1, R p.1),
      dirs.foldl (fun f p => some (writeMetrics f false (R p.1).1 (R p.1).2 p.1)) old) := by
  unfold processesMetrics
  suffices ∀ (acc : KDict Text (ℕ × PyDict (List MetricVal))) (old : Option Text),
      (acc.keys ++ dirs.keys).Nodup →
      dirs.foldlM (fun acc p => do
        let r ← directoryMetrics p.2 metrics
        pure (acc.1.put p.1 r, some (writeMetrics acc.2 false r.1 r.2 p.1))) (acc, old)
        = (.ok (acc ++ dirs.map fun p => (p.1, R p.1),
          dirs.foldl (fun f p => some (writeMetrics f false (R p.1).1 (R p.1).2 p.1)) old) :
          Py (KDict Text (ℕ × PyDict (List MetricVal)) × Option Text)) by
    exact this [] old hd
  clear hd
  induction dirs with
  | nil => intro acc old _; simp [pure, Except.pure]
  | cons p dirs ih =>
    intro acc old hd
    rw [List.foldlM_cons, h p (by simp)]
    simp only [bind, Except.bind, pure, Except.pure]
    simp only [bind, Except.bind, pure, Except.pure] at ih
    have hnm : p.1 ∉ acc.keys := fun hm =>
      List.disjoint_of_nodup_append hd hm (by simp [KDict.keys])
    rw [put_of_notMem _ _ _ hnm, ih (fun q hq => h q (by simp [hq]))]
    · simp
    · simpa [KDict.keys, List.append_assoc] using hd

/-! ## The convergence plot -/

theorem sizeOfLabel_of (k : ℕ) : sizeOfLabel ('n' :: strNat k) = some k := parseInt_strNat k

/-- **C117 (convergence plot).** The rows of the data follow the sizes of the training sets (10 after 9),
in whatever order the processes are given; each row pairs the size with the metric of every feature. -/
theorem C117_convergence {res : KDict Text (ℕ × PyDict (List MetricVal))} {ks : List ℕ} (hne : ks ≠ [])
    (hk : ks.Pairwise (· < ·)) {R : ℕ → ℕ × PyDict (List MetricVal)}
    (hp : res.Perm (ks.map fun k => ('n' :: strNat k, R k))) {metric : String} {F : ℕ}
    {V : ℕ → List MetricVal} (hV : ∀ k ∈ ks, (R k).2.get? metric = some (V k) ∧ (V k).length = F) :
    convergenceData res metric = .ok (ks.map fun k => (V k).map fun x => (k, x)) := by
  have hinj : ∀ a b, 'n' :: strNat a = 'n' :: strNat b → a = b := fun a b he =>
    strNat_inj (List.cons.inj he).2
  have hnd : ks.Nodup := hk.imp fun h => Nat.ne_of_lt h
  have hkeys : res.keys.Perm (ks.map fun k => 'n' :: strNat k) := by
    have := hp.map Prod.fst
    simpa [KDict.keys, Function.comp_def] using this
  have hresnd : res.keys.Nodup := hkeys.nodup_iff.mpr (hnd.map fun a b h => hinj a b h)
  have hget : ∀ k ∈ ks, res.get? ('n' :: strNat k) = some (R k) := by
    intro k hk'
    exact get?_of_mem res hresnd _ _ (hp.mem_iff.mpr (List.mem_map.mpr ⟨k, hk', rfl⟩))
  have hsz : res.keys.mapM (fun l => orRaise (sizeOfLabel l) .attributeError)
      = .ok (res.keys.map fun l => (sizeOfLabel l).getD 0) := by
    refine mapM_of_forall fun l hl => ?_
    obtain ⟨k, -, rfl⟩ := List.mem_map.mp (hkeys.mem_iff.mp hl)
    rw [sizeOfLabel_of]
    rfl
  have hsort : (res.keys.map fun l => (sizeOfLabel l).getD 0).insertionSort (· ≤ ·) = ks := by
    refine List.Perm.eq_of_pairwise' (r := (· ≤ ·)) (List.pairwise_insertionSort _ _)
      (hk.imp fun h => Nat.le_of_lt h) ?_
    refine (List.perm_insertionSort _ _).trans ?_
    have := hkeys.map fun l => (sizeOfLabel l).getD 0
    rw [List.map_map] at this
    have e : ks.map ((fun l => (sizeOfLabel l).getD 0) ∘ fun k => 'n' :: strNat k) = ks := by
      conv_rhs => rw [← List.map_id ks]
      refine List.map_congr_left fun k _ => ?_
      simp [sizeOfLabel_of]
    rwa [e] at this
  unfold convergenceData
  rw [hsz]
  simp only [bind, Except.bind]
  rw [hsort, mapM_of_forall (g := V)]
  · simp only
    obtain ⟨k, ks', rfl⟩ := List.exists_cons_of_ne_nil hne
    have hlen : (List.map V (k :: ks')).head?.map List.length = some F := by
      simp [(hV k (by simp)).2]
    rw [hlen]
    simp only [orRaise]
    rw [(raiseIf_ok (u := ())).mpr]
    · simp only [pure, Except.pure, List.zipWith_map_right, List.zipWith_self]
    · rintro ⟨v, hv, hne'⟩
      obtain ⟨q, hq, rfl⟩ := List.mem_map.mp hv
      exact hne' (hV q hq).2
  · intro k hk'
    simp only [hget k hk', (hV k hk').1, orRaise]

/-- **C117 is violated for processes with other labels.** The plot is meant to pass over them (the result
of the search is compared with `None`), but the comparison is made with a built-in function: an
`AttributeError` is raised. -/
theorem C117_other_label_violated {res : KDict Text (ℕ × PyDict (List MetricVal))}
    (h : ∃ l ∈ res.keys, sizeOfLabel l = none) (metric : String) :
    convergenceData res metric = .error .attributeError := by
  obtain ⟨l, hl, hn⟩ := h
  unfold convergenceData
  rw [mapM_error hl (by rw [hn]; rfl)]
  · rfl
  · intro y _
    cases hy : sizeOfLabel y with
    | none => exact .inl rfl
    | some k => exact .inr ⟨k, rfl⟩

/-! ## Errors -/

/-- **C117 (unknown metrics).** An unknown metric is reported if there are samples. -/
theorem C117_unknown {d : PredDir} {rs : List StoredResults} (h : StoresResults d rs) (hr : rs ≠ [])
    {F : ℕ} (hm : ∀ r ∈ rs, Measured F r) {metrics : List String}
    (hu : ∃ m ∈ metrics, m ≠ "rmse" ∧ m ≠ "nrmse") :
    directoryMetrics d metrics = .error .runtimeError := by
  have hdne : d ≠ [] := by
    rintro rfl
    obtain ⟨r, rs', rfl⟩ := List.exists_cons_of_ne_nil hr
    exact absurd (h.stored 0 r rfl) (by simp)
  obtain ⟨names, h1, h2⟩ := metricFiles_of h hdne
  obtain ⟨ss, h3, h4⟩ := loadResults_of h h2
  have hss : ss ≠ [] := by
    rintro rfl
    exact hr h4.symm.eq_nil
  obtain ⟨r, ss, rfl⟩ := List.exists_cons_of_ne_nil hss
  obtain ⟨res, rmse, mav, g1, g2, g3, g4⟩ := sampleValues_of (hm r (h4.mem_iff.mp (by simp)))
  have hstep : ∀ acc, metricsStep metrics acc (toSample r) = .error .runtimeError := by
    intro acc
    unfold metricsStep
    rw [g1]
    simp only [bind, Except.bind]
    rw [g2, g3]
    simp only [orRaise]
    clear h1 h2 h3 h4
    induction metrics generalizing acc with
    | nil => simp at hu
    | cons a ms ih =>
      rw [List.foldlM_cons]
      by_cases ha : a = "rmse" ∨ a = "nrmse"
      · rw [g4 a ha]
        simp only [bind, Except.bind, pure, Except.pure]
        refine ih ?_ _
        obtain ⟨m, hm', hne⟩ := hu
        rcases List.mem_cons.mp hm' with rfl | hm'
        · rcases ha with rfl | rfl
          · exact absurd rfl hne.1
          · exact absurd rfl hne.2
        · exact ⟨m, hm', hne⟩
      · have : sampleValues a rmse mav = .error .runtimeError := by
          unfold sampleValues
          rw [if_neg fun e => ha (.inl e), if_neg fun e => ha (.inr e)]
        rw [this]
        rfl
  unfold directoryMetrics meanMetrics
  rw [h1]
  simp only [bind, Except.bind]
  rw [h3]
  simp only [List.map_cons, List.foldlM_cons, hstep, bind, Except.bind]

/-- **C117 is violated for a directory without predictions.** With other files in the directory nothing is
reported: the mean over no samples is returned as an empty tensor, even for an unknown metric. -/
theorem C117_no_samples_violated {d : PredDir} (hd : d ≠ []) (h : ∀ n ∈ d.keys, sampleIdOf n = none)
    (m : String) : directoryMetrics d [m] = .ok (0, [(m, [])]) := by
  have h1 : metricFiles d = .ok [] := by
    unfold metricFiles
    rw [(raiseIf_ok (u := ())).mpr hd]
    have : (d.keys.filter fun name => (sampleIdOf name).isSome) = [] := by
      rw [List.filter_eq_nil_iff]
      intro n hn
      rw [h n hn]
      decide
    rw [this]
    rfl
  unfold directoryMetrics
  rw [h1]
  simp [meanMetrics, bind, Except.bind, pure, Except.pure, KDict.put, KDict.get?, stackMean]

/-! ## A case -/

theorem caseResults_measured (a : ℝ) : Measured 2 (caseResults a) :=
  ⟨_, rfl, rfl, by simp [caseResults], rfl, rfl⟩

theorem caseResults_error (a : ℝ) (j : ℕ) : sampleError j (caseResults a) = 1 := by
  simp [sampleError, caseResults, timeMean]

example : ∃ res v, directoryMetrics caseDir ["nrmse", "rmse"] = .ok (2, res) ∧
    res.get? "rmse" = some v ∧ v[1]? = some (.num 1) := by
  obtain ⟨res, h1, -, h3⟩ := C117_mean caseDir_stores (by simp) (F := 2) (by
    intro r hr
    simp only [List.mem_cons, List.not_mem_nil, or_false] at hr
    rcases hr with rfl | rfl <;> exact caseResults_measured _) (metrics := ["nrmse", "rmse"])
    (by simp) (by decide)
  obtain ⟨v, g1, -, g3⟩ := h3 "rmse" (by simp)
  refine ⟨res, v, h1, g1, ?_⟩
  rw [(g3 1 (by norm_num)).1 rfl]
  simp [sampleMean, caseResults_error]

/-- The metrics of two processes. -/
noncomputable def caseRecords : List ProcessRecord :=
  [⟨"n10".toList, 5, [("rmse", [1, 2]), ("nrmse", [1 / 3, 0])]⟩, ⟨"n20".toList, 7, [("rmse", [])]⟩]

theorem plainLabel_of {l : Text} (h1 : '\n' ∉ l) (h2 : '\r' ∉ l) (h3 : '=' ∉ l.map Char.toLower) :
    PlainLabel l := by
  refine ⟨h1, h2, fun pre suf he => h3 ?_⟩
  rw [he]
  simp

theorem caseRecords_proper : ∀ p ∈ caseRecords, ProperRecord p := by
  intro p hp
  simp only [caseRecords, List.mem_cons, List.not_mem_nil, or_false] at hp
  rcases hp with rfl | rfl
  · refine ⟨plainLabel_of (by decide) (by decide) (by decide), by simp, ?_, ?_⟩
    · show ["rmse", "nrmse"].Nodup
      decide
    · show ∀ m ∈ ["rmse", "nrmse"], MetricName m
      unfold MetricName
      decide
  · refine ⟨plainLabel_of (by decide) (by decide) (by decide), by simp, ?_, ?_⟩
    · show ["rmse"].Nodup
      decide
    · show ∀ m ∈ ["rmse"], MetricName m
      unfold MetricName
      decide

example : ∃ rd, RoundsTo 8 rd ∧ ∃ file,
    readMetrics file (some 5) = .ok [("rmse", [rd 1, rd 2]), ("nrmse", [rd (1 / 3), rd 0])] ∧
    readMetrics file (some 7) = .ok [("rmse", [])] ∧
    readMetrics file (some 6) = .error .runtimeError := by
  obtain ⟨rd, h1, h2⟩ := C117_file caseRecords_proper
  obtain ⟨file, hf⟩ : ∃ file, caseRecords.foldl (fun f p => some (writeMetrics f false p.n
      (p.metrics.map fun m => (m.1, m.2.map .num)) p.label)) none = some file := ⟨_, rfl⟩
  refine ⟨rd, h1, file, ?_, ?_, ?_⟩
  · rw [h2 file hf]; rfl
  · rw [h2 file hf]; rfl
  · rw [h2 file hf]; rfl

example : readMetrics (writeMetrics none false 5 [("rmse", [.num 1]), ("nrmse", [.num 2, .nan])]
    "n10".toList) none = .error .attributeError :=
  C117_not_finite_violated (plainLabel_of (by decide) (by decide) (by decide))
    (by
      show ∀ m ∈ ["rmse", "nrmse"], MetricName m
      unfold MetricName
      decide)
    ⟨("nrmse", [.num 2, .nan]), by simp, .nan, by simp, fun x h => by cases h⟩ 5 (.inl rfl)

/-- Training sizes 10 and 9, in this order. -/
example : convergenceData [("n10".toList, (5, [("rmse", [.num 1])])), ("n9".toList, (5, [("rmse", [.nan])]))]
    "rmse" = .ok [[(9, .nan)], [(10, .num 1)]] :=
  C117_convergence (ks := [9, 10]) (by simp) (by simp)
    (R := fun k => (5, [("rmse", [if k = 9 then .nan else .num 1])])) (List.Perm.swap _ _ _) (F := 1)
    (V := fun k => [if k = 9 then .nan else .num 1]) (by simp [KDict.get?])

example : convergenceData [("n10".toList, (5, [])), ("gru".toList, (5, []))] "rmse"
    = .error .attributeError :=
  C117_other_label_violated ⟨"gru".toList, by simp [KDict.keys], by decide⟩ _

end Hooke
