import Verif.Props.MeanMetricsFile
import Verif.Props.TimeSeriesBatch

/-!
# C117: mean prediction metrics
-/

namespace Hooke

open Spec

/-! ## Files -/

/-- The results given to the metrics. -/
def toSample (r : StoredResults) : SampleResults := ⟨r.out, r.targets⟩

theorem metricFiles_of {d : PredDir} {rs : List StoredResults} (h : StoresResults d rs) (hd : d ≠ []) :
    ∃ names, metricFiles d = .ok names ∧ names.Perm ((List.range rs.length).map sampleFile) := by
  refine ⟨d.keys.filter fun name => (sampleIdOf name).isSome, ?_, ?_⟩
  · unfold metricFiles
    rw [(raiseIf_ok (u := ())).mpr hd]
    rfl
  · refine (List.perm_ext_iff_of_nodup (h.nodup.filter _) ?_).mpr ?_
    · exact List.nodup_range.map fun i j => sampleFile_inj
    · intro name
      rw [List.mem_filter, List.mem_map]
      constructor
      · rintro ⟨hn, hs⟩
        obtain ⟨p, hp, rfl⟩ := List.mem_map.mp hn
        rcases h.others p.1 p.2 hp with ⟨j, hj, he⟩ | hno
        · exact ⟨j, List.mem_range.mpr hj, he.symm⟩
        · obtain ⟨i, hi⟩ := Option.isSome_iff_exists.mp hs
          exact absurd (sampleIdOf_prefix hi) hno
      · rintro ⟨i, hi, rfl⟩
        have hi' := List.mem_range.mp hi
        refine ⟨List.mem_map.mpr ⟨_, h.stored i _ (List.getElem?_eq_getElem hi'), rfl⟩, ?_⟩
        rw [sampleIdOf_file]
        rfl

theorem loadResults_of {d : PredDir} {rs : List StoredResults} (h : StoresResults d rs)
    {names : List Text} (hn : names.Perm ((List.range rs.length).map sampleFile)) :
    ∃ ss : List StoredResults, names.mapM (loadResults d) = .ok (ss.map toSample) ∧ ss.Perm rs := by
  have hl : ∀ i (hi : i < rs.length), loadResults d (sampleFile i) = .ok (toSample rs[i]) := by
    intro i hi
    unfold loadResults
    rw [get?_of_mem d h.nodup _ _ (h.stored i _ (List.getElem?_eq_getElem hi))]
    rfl
  have hall : ∀ name ∈ names, ∃ i, ∃ hi : i < rs.length, name = sampleFile i := by
    intro name hm
    obtain ⟨i, hi, rfl⟩ := List.mem_map.mp (hn.mem_iff.mp hm)
    exact ⟨i, List.mem_range.mp hi, rfl⟩
  obtain ⟨is, hp, rfl⟩ : ∃ is : List ℕ, is.Perm (List.range rs.length) ∧ names = is.map sampleFile := by
    refine ⟨names.map fun n => (sampleIdOf n).getD 0, ?_, ?_⟩
    · have := hn.map fun n => (sampleIdOf n).getD 0
      simpa [Function.comp_def, sampleIdOf_file] using this
    · rw [List.map_map]
      conv_lhs => rw [← List.map_id names]
      refine List.map_congr_left fun n hm => ?_
      obtain ⟨i, -, rfl⟩ := hall n hm
      simp [sampleIdOf_file]
  refine ⟨is.map fun i => rs[i]?.getD ⟨⟨0, 0, fun _ _ => 0⟩, none, none⟩, ?_, ?_⟩
  · rw [List.mapM_map, List.map_map]
    refine mapM_of_forall fun i hi => ?_
    have hi' := List.mem_range.mp (hp.mem_iff.mp hi)
    simp only [Function.comp_apply]
    rw [hl i hi', List.getElem?_eq_getElem hi', Option.getD_some]
  · refine (hp.map _).trans (List.Perm.of_eq ?_)
    exact range_getD rs _

/-! ## Metrics of a sample -/

/-- The metric of a sample. -/
noncomputable def metricVals (F : ℕ) (m : String) (r : StoredResults) : List MetricVal :=
  (List.range F).map fun j => if m = "rmse" then .num (sampleError j r)
    else divVal (sampleError j r) (sampleScale j r)

/-- The known metrics. -/
def KnownMetric (m : String) : Prop := m = "rmse" ∨ m = "nrmse"

theorem sampleValues_of {F : ℕ} {r : StoredResults} (hr : Measured F r) :
    ∃ res rmse mav, predictionMetrics (toSample r) ["rmse", "mav_gt"] = .ok res ∧
      res.get? "rmse" = some rmse ∧ res.get? "mav_gt" = some mav ∧
      ∀ m, KnownMetric m → sampleValues m rmse mav = .ok (metricVals F m r) := by
  obtain ⟨t, ht, hl, h0, hf, hf'⟩ := hr
  obtain ⟨res, h1, h2⟩ := C66_metrics r.out t h0 hl (by rw [hf, hf']) ["rmse", "mav_gt"] (by simp)
  have e : toSample r = ⟨r.out, some t⟩ := by unfold toSample; rw [ht]
  rw [← e] at h1
  refine ⟨res, _, _, h1, h2 "rmse", h2 "mav_gt", ?_⟩
  rintro m (rfl | rfl)
  · unfold sampleValues metricVals sampleError
    rw [ht, hf]
    simp
  · unfold sampleValues metricVals sampleError sampleScale
    rw [ht, hf]
    simp [List.zipWith_map_left, List.zipWith_map_right, List.zipWith_self]

theorem metrics_inner {F : ℕ} {r : StoredResults} {rmse mav : List ℝ}
    (hv : ∀ m, KnownMetric m → sampleValues m rmse mav = .ok (metricVals F m r)) (ms : List String)
    (hk : ∀ m ∈ ms, KnownMetric m) (hd : ms.Nodup) (acc : PyDict (List (List MetricVal))) :
    ∃ acc', ms.foldlM (fun acc metric => do
        let v ← sampleValues metric rmse mav
        pure (acc.put metric ((acc.get? metric).getD [] ++ [v]))) acc = .ok acc' ∧
      ∀ m, acc'.get? m = if m ∈ ms then some ((acc.get? m).getD [] ++ [metricVals F m r])
        else acc.get? m := by
  induction ms generalizing acc with
  | nil => exact ⟨acc, rfl, fun m => by simp⟩
  | cons a ms ih =>
    rw [List.foldlM_cons, hv a (hk a (by simp))]
    simp only [bind, Except.bind, pure, Except.pure]
    obtain ⟨acc', h1, h2⟩ := ih (fun m hm => hk m (by simp [hm])) (List.nodup_cons.mp hd).2
      (acc.put a ((acc.get? a).getD [] ++ [metricVals F a r]))
    refine ⟨acc', h1, fun m => ?_⟩
    rw [h2]
    by_cases hma : m = a
    · subst hma
      rw [if_neg (List.nodup_cons.mp hd).1, if_pos (by simp), KDict.get?_put_self]
    · rw [KDict.get?_put_ne _ _ hma]
      simp [hma]

theorem metrics_outer {F : ℕ} {metrics : List String} (hk : ∀ m ∈ metrics, KnownMetric m)
    (hd : metrics.Nodup) (ss : List StoredResults) (hs : ∀ r ∈ ss, Measured F r)
    (acc : PyDict (List (List MetricVal))) :
    ∃ acc', (ss.map toSample).foldlM (metricsStep metrics) acc = .ok acc' ∧
      ∀ m ∈ metrics, (acc'.get? m).getD [] = (acc.get? m).getD [] ++ ss.map (metricVals F m) := by
  induction ss generalizing acc with
  | nil => exact ⟨acc, rfl, fun m _ => by simp⟩
  | cons r ss ih =>
    obtain ⟨res, rmse, mav, h1, h2, h3, h4⟩ := sampleValues_of (hs r (by simp))
    obtain ⟨a1, g1, g2⟩ := metrics_inner h4 metrics hk hd acc
    obtain ⟨a2, k1, k2⟩ := ih (fun q hq => hs q (by simp [hq])) a1
    refine ⟨a2, ?_, fun m hm => ?_⟩
    · rw [List.map_cons, List.foldlM_cons]
      have : metricsStep metrics acc (toSample r) = .ok a1 := by
        unfold metricsStep
        rw [h1]
        simp only [bind, Except.bind]
        rw [h2, h3]
        exact g1
      rw [this]
      exact k1
    · rw [k2 m hm, g2, if_pos hm]
      simp

theorem metrics_out (f : String → List (List MetricVal)) (g : String → List MetricVal)
    (ms : List String) (hg : ∀ m ∈ ms, stackMean (f m) = .ok (g m)) (out : PyDict (List MetricVal)) :
    ∃ out', ms.foldlM (fun out metric => do
        let v ← stackMean (f metric)
        pure (out.put metric v)) out = .ok out' ∧
      ∀ m, out'.get? m = if m ∈ ms then some (g m) else out.get? m := by
  induction ms generalizing out with
  | nil => exact ⟨out, rfl, fun m => by simp⟩
  | cons a ms ih =>
    rw [List.foldlM_cons, hg a (by simp)]
    simp only [bind, Except.bind, pure, Except.pure]
    obtain ⟨out', h1, h2⟩ := ih (fun m hm => hg m (by simp [hm])) (out.put a (g a))
    refine ⟨out', h1, fun m => ?_⟩
    rw [h2]
    by_cases hma : m = a
    · subst hma
      rw [KDict.get?_put_self]
      simp
    · rw [KDict.get?_put_ne _ _ hma]
      simp [hma]

theorem stackMean_of {F : ℕ} {m : String} {ss : List StoredResults} (hs : ss ≠ []) :
    stackMean (ss.map (metricVals F m)) = .ok ((List.range F).map fun j =>
      meanVals (ss.map fun r => if m = "rmse" then .num (sampleError j r)
        else divVal (sampleError j r) (sampleScale j r))) := by
  obtain ⟨r, ss, rfl⟩ := List.exists_cons_of_ne_nil hs
  have hl : ∀ r, (metricVals F m r).length = F := fun r => by simp [metricVals]
  rw [List.map_cons, stackMean, (raiseIf_ok (u := ())).mpr]
  · simp only [bind, Except.bind, pure, Except.pure, hl]
    congr 1
    refine List.map_congr_left fun j hj => ?_
    have hj' := List.mem_range.mp hj
    congr 1
    rw [← List.map_cons, List.map_map]
    refine List.map_congr_left fun q _ => ?_
    simp [metricVals, hj']
  · rintro ⟨w, hw, hne⟩
    obtain ⟨q, -, rfl⟩ := List.mem_map.mp hw
    exact hne (by rw [hl, hl])

theorem meanVals_num {ss : List StoredResults} (f : StoredResults → ℝ) :
    meanVals (ss.map fun r => .num (f r)) = .num (sampleMean ss f) := by
  have h1 : (ss.map fun r => MetricVal.num (f r)).any MetricVal.isNan = false := by
    simp [List.any_map, Function.comp_def, MetricVal.isNan]
  have h2 : (ss.map fun r => MetricVal.num (f r)).any MetricVal.isInf = false := by
    simp [List.any_map, Function.comp_def, MetricVal.isInf]
  have h3 : (ss.map fun r => MetricVal.num (f r)).filterMap MetricVal.num? = ss.map f := by
    rw [List.filterMap_map]
    simp [Function.comp_def, MetricVal.num?]
  unfold meanVals
  rw [h1, h2, h3]
  simp [meanR, sampleMean]

theorem sampleMean_perm {ss rs : List StoredResults} (h : ss.Perm rs) (f : StoredResults → ℝ) :
    sampleMean ss f = sampleMean rs f := by
  unfold sampleMean
  rw [(h.map f).sum_eq, h.length_eq]

theorem meanVals_notFinite {l : List MetricVal} (h : ∃ v ∈ l, NotFinite v) : NotFinite (meanVals l) := by
  obtain ⟨v, hv, hn⟩ := h
  intro x hx
  unfold meanVals at hx
  split_ifs at hx with h1 h2
  cases hvv : v with
  | num y => exact hn y hvv
  | inf => exact h2 (List.any_eq_true.mpr ⟨v, hv, by rw [hvv]; rfl⟩)
  | nan => exact h1 (List.any_eq_true.mpr ⟨v, hv, by rw [hvv]; rfl⟩)

/-- **C117 (means).** For the predictions of a directory, listed in any order, the number of samples is
returned with, for each requested metric and each feature, the mean over the samples of the root mean
square error (`rmse`), or of its ratio to the mean absolute value of the ground truth (`nrmse`).  The
normalized error is a number exactly if no sample has a ground truth that is zero at all times. -/
theorem C117_mean {d : PredDir} {rs : List StoredResults} (h : StoresResults d rs) (hr : rs ≠ [])
    {F : ℕ} (hm : ∀ r ∈ rs, Measured F r) {metrics : List String}
    (hk : ∀ m ∈ metrics, m = "rmse" ∨ m = "nrmse") (hd : metrics.Nodup) :
    ∃ res, directoryMetrics d metrics = .ok (rs.length, res) ∧
      (∀ m, m ∉ metrics → res.get? m = none) ∧
      ∀ m ∈ metrics, ∃ v, res.get? m = some v ∧ v.length = F ∧ ∀ j < F,
        (m = "rmse" → v[j]? = some (.num (sampleMean rs (sampleError j)))) ∧
        (m = "nrmse" → (∀ r ∈ rs, sampleScale j r ≠ 0) →
          v[j]? = some (.num (sampleMean rs fun r => sampleError j r / sampleScale j r))) ∧
        (m = "nrmse" → (∃ r ∈ rs, sampleScale j r = 0) → ∃ x, v[j]? = some x ∧ NotFinite x) := by
  have hdne : d ≠ [] := by
    rintro rfl
    obtain ⟨r, rs', rfl⟩ := List.exists_cons_of_ne_nil hr
    exact absurd (h.stored 0 r rfl) (by simp)
  obtain ⟨names, h1, h2⟩ := metricFiles_of h hdne
  obtain ⟨ss, h3, h4⟩ := loadResults_of h h2
  have hss : ss ≠ [] := by
    rintro rfl
    exact hr h4.symm.eq_nil
  obtain ⟨acc, g1, g2⟩ := metrics_outer (F := F) hk hd ss (fun r hr' => hm r (h4.mem_iff.mp hr'))
    (metrics.foldl (fun d x => d.put x []) [])
  have hinit : ∀ (ms : List String) (a : PyDict (List (List MetricVal))) m,
      (a.get? m).getD [] = [] → ((ms.foldl (fun d x => d.put x []) a).get? m).getD [] = [] := by
    intro ms
    induction ms with
    | nil => exact fun a m h => h
    | cons x ms ih =>
      intro a m ha
      refine ih _ m ?_
      by_cases hx : m = x
      · subst hx; rw [KDict.get?_put_self]; rfl
      · rw [KDict.get?_put_ne _ _ hx]; exact ha
  have g3 : ∀ m ∈ metrics, (acc.get? m).getD [] = ss.map (metricVals F m) := by
    intro m hm'
    rw [g2 m hm', hinit metrics [] m rfl, List.nil_append]
  obtain ⟨out, k1, k2⟩ := metrics_out (fun m => (acc.get? m).getD []) _ metrics
    (fun m hm' => by simp only [g3 m hm']; exact stackMean_of hss) []
  refine ⟨out, ?_, ?_, ?_⟩
  · unfold directoryMetrics meanMetrics
    rw [h1]
    simp only [bind, Except.bind]
    rw [h3]
    simp only
    rw [g1]
    simp only
    simp only [bind, Except.bind] at k1
    rw [k1]
    have : names.length = rs.length := by rw [h2.length_eq]; simp
    rw [this]
    rfl
  · intro m hm'
    rw [k2, if_neg hm']
    rfl
  · intro m hm'
    refine ⟨_, by rw [k2, if_pos hm'], by simp, fun j hj => ⟨?_, ?_, ?_⟩⟩
    · rintro rfl
      simp only [if_true]
      rw [List.getElem?_map, List.getElem?_range hj, Option.map_some, meanVals_num,
        sampleMean_perm h4]
    · rintro rfl hz
      rw [List.getElem?_map, List.getElem?_range hj, Option.map_some]
      have : (ss.map fun r => if "nrmse" = "rmse" then MetricVal.num (sampleError j r)
          else divVal (sampleError j r) (sampleScale j r))
          = ss.map fun r => MetricVal.num (sampleError j r / sampleScale j r) := by
        refine List.map_congr_left fun r hr' => ?_
        rw [if_neg (by decide)]
        unfold divVal
        rw [if_pos (hz r (h4.mem_iff.mp hr'))]
      rw [this, meanVals_num, sampleMean_perm h4]
    · rintro rfl ⟨r, hr', hz⟩
      rw [List.getElem?_map, List.getElem?_range hj, Option.map_some]
      refine ⟨_, rfl, meanVals_notFinite ⟨_, List.mem_map.mpr ⟨r, h4.mem_iff.mpr hr', rfl⟩, ?_⟩⟩
      intro x
      rw [if_neg (by decide)]
      unfold divVal
      rw [if_neg (by simpa using hz)]
      split_ifs <;> simp

end Hooke
