import Verif.Props.PredictionData

/-!
# C116: time series, cases and what goes wrong
-/

namespace Hooke

open Spec

/-! ## Time series -/

theorem appendColumn_map (T : ℕ) (R : ℕ → List ℝ) (c : ℕ → ℝ) :
    appendColumn ((List.range T).map R) ((List.range T).map c)
      = .ok ((List.range T).map fun k => R k ++ [c k]) := by
  unfold appendColumn
  rw [(raiseIf_ok (u := ())).mpr (by simp)]
  simp only [bind, Except.bind, pure, Except.pure]
  rw [List.zipWith_map, List.zipWith_self]

theorem sliceColumn_of {t : SeqTensor} {n i : ℕ} (hi : i < n) (hn : n ≤ t.nFeat) :
    t.sliceColumn n i = .ok ((List.range t.len).map fun k => t.val k i) := by
  unfold SeqTensor.sliceColumn
  rw [(raiseIf_ok (u := ())).mpr (by omega)]
  rfl

theorem series_rest {n i T : ℕ} (hi : i < n) (ms : List StoredResults)
    (hm : ∀ m ∈ ms, Comparable n m ∧ m.out.len = T) (j : ℕ) (hj : 0 < j) (R : ℕ → List ℝ) :
    (ms.zipIdx j).foldlM (seriesModel fun t => t.sliceColumn n i) ((List.range T).map R)
      = .ok ((List.range T).map fun k => R k ++ ms.map fun m => m.out.val k i) := by
  induction ms generalizing j R with
  | nil => simp [pure, Except.pure]
  | cons m ms ih =>
    obtain ⟨⟨t, h1, h2, h3, h4⟩, h5⟩ := hm m (by simp)
    rw [List.zipIdx_cons, List.foldlM_cons]
    have hstep : seriesModel (fun t => t.sliceColumn n i) ((List.range T).map R) (m, j)
        = .ok ((List.range T).map fun k => R k ++ [m.out.val k i]) := by
      unfold seriesModel
      simp only [h1, orRaise, bind, Except.bind]
      rw [sliceColumn_of hi h3, sliceColumn_of hi h4]
      simp only
      rw [if_neg (by omega), h5]
      exact appendColumn_map _ _ _
    rw [hstep]
    simp only [bind, Except.bind]
    rw [ih (fun x hx => hm x (by simp [hx])) (j + 1) (by omega)]
    congr 1
    refine List.map_congr_left fun k _ => ?_
    simp

theorem seriesArray_of {type : String} (ht : ByColumns type) {n i : ℕ} (hi : i < n) (time : List ℝ)
    (m : StoredResults) (ms : List StoredResults)
    (hm : ∀ r ∈ m :: ms, Comparable n r ∧ r.out.len = time.length) :
    seriesArray type n time (m :: ms) i = .ok (seriesRows i time m ms) := by
  have hne : type ≠ "acc_p_strain" := by rcases ht with rfl | rfl <;> decide
  obtain ⟨⟨t, h1, h2, h3, h4⟩, h5⟩ := hm m (by simp)
  unfold seriesArray
  rw [if_neg hne]
  have h0 : (time.map fun x => [x]) = (List.range time.length).map fun k => [time.getD k 0] := by
    apply List.ext_getElem
    · simp
    · intro k h1 h2
      have hk : k < time.length := by simpa using h1
      simp [hk]
  rw [h0, List.zipIdx_cons, List.foldlM_cons]
  have hstep : seriesModel (fun t => t.sliceColumn n i)
      ((List.range time.length).map fun k => [time.getD k 0]) (m, 0)
      = .ok ((List.range time.length).map fun k => [time.getD k 0] ++ [t.val k i] ++ [m.out.val k i]) := by
    unfold seriesModel
    simp only [h1, orRaise, bind, Except.bind]
    rw [sliceColumn_of hi h3, sliceColumn_of hi h4]
    simp only
    rw [if_pos trivial, h2, h5, appendColumn_map]
    exact appendColumn_map _ _ _
  rw [hstep]
  simp only [bind, Except.bind]
  rw [series_rest hi ms (fun x hx => hm x (by simp [hx])) _ (by omega)]
  unfold seriesRows
  rw [h1]
  simp

/-- The results of the samples of a model. -/
abbrev ModelResults := List StoredResults

/-- The results of the sample `id` of the models. -/
def modelsOf (rss : List ModelResults) (id : ℕ) : List StoredResults := rss.filterMap fun rs => rs[id]?

theorem loadModels_of {dirs : List PredDir} {rss : List ModelResults}
    (hd : List.Forall₂ StoresResults dirs rss) {id : ℕ} (hN : ∀ rs ∈ rss, id < rs.length) :
    (dirs.mapM fun d => loadSample d id) = .ok (modelsOf rss id) := by
  unfold modelsOf
  induction hd with
  | nil => rfl
  | @cons d rs dirs rss h hd ih =>
    have hlt := hN rs (by simp)
    rw [List.mapM_cons, loadSample_of h hlt]
    simp only [bind, Except.bind]
    rw [ih fun x hx => hN x (by simp [hx])]
    rw [List.filterMap_cons, List.getElem?_eq_getElem hlt]
    rfl

theorem series_fold {dirs : List PredDir} {rss : List ModelResults}
    (hd : List.Forall₂ StoresResults dirs rss) {fids : List ℕ} {N : ℕ}
    (hf : fids.Perm (List.range N)) (hN : ∀ rs ∈ rss, rs.length = N) {times : List (List ℝ)}
    {type : String} {n : ℕ} (V : ℕ → ℕ → List (List ℝ)) (ids : List ℕ) (hid : ∀ id ∈ ids, id < N)
    (hV : ∀ id ∈ ids, ∃ time, times[id]? = some time ∧
      ∀ i < n, seriesArray type n time (modelsOf rss id) i = .ok (V id i))
    (D : ℕ → KDict ℕ (List (List ℝ))) :
    ids.foldlM (seriesStep dirs times fids type n) ((List.range n).map D)
      = .ok ((List.range n).map fun i => ids.foldl (fun d id => d.put id (V id i)) (D i)) := by
  induction ids generalizing D with
  | nil => rfl
  | cons id ids ih =>
    obtain ⟨time, h1, h2⟩ := hV id (by simp)
    have hlt := hid id (by simp)
    rw [List.foldlM_cons]
    have hstep : seriesStep dirs times fids type n ((List.range n).map D) id
        = .ok ((List.range n).map fun i => (D i).put id (V id i)) := by
      unfold seriesStep
      rw [h1]
      simp only [orRaise, bind, Except.bind]
      rw [(raiseIf_ok (u := ())).mpr (by
        rw [not_not]
        exact hf.mem_iff.mpr (List.mem_range.mpr hlt))]
      simp only
      rw [loadModels_of hd fun rs hrs => by rw [hN rs hrs]; exact hlt]
      simp only
      rw [mapM_of_forall (g := V id) fun i hi => h2 i (List.mem_range.mp hi)]
      simp only [pure, Except.pure]
      rw [List.zipWith_map, List.zipWith_self]
    rw [hstep]
    simp only [bind, Except.bind]
    rw [ih (fun k hk => hid k (by simp [hk])) (fun k hk => hV k (by simp [hk]))]
    rfl

theorem foldl_put_ids {β : Type} (ids : List ℕ) (V : ℕ → β) (D : KDict ℕ β) (id : ℕ) :
    (ids.foldl (fun d k => d.put k (V k)) D).get? id = if id ∈ ids then some (V id) else D.get? id := by
  induction ids generalizing D with
  | nil => simp
  | cons k ids ih =>
    rw [List.foldl_cons, ih]
    by_cases h1 : id ∈ ids
    · simp [h1]
    · rw [if_neg h1]
      by_cases h2 : id = k
      · subst h2
        simp
      · rw [KDict.get?_put_ne _ _ h2]
        simp [h1, h2]

/-- **C116 (time series).** Of the predictions stored for one or more models, dictionary `i` holds, for
each sample requested and no other, the time, the ground truth (of the first model) and the prediction of
each model, in the order of the models, of the feature `i`. -/
theorem C116_series {dirs : List PredDir} {rss : List ModelResults} {N : ℕ} (hN0 : 0 < N)
    (hd : List.Forall₂ StoresResults dirs rss) (hne : rss ≠ []) (hN : ∀ rs ∈ rss, rs.length = N)
    {times : List (List ℝ)} (hT : times.length = N) {type : String} (ht : ByColumns type)
    {labels : List String} {samples : Option (List ℕ)}
    (hs : ∀ ids, samples = some ids → ids ≠ [] ∧ ∀ id ∈ ids, id < N)
    (hc : ∀ rs ∈ rss, ∀ (id : ℕ) (r : StoredResults) (time : List ℝ),
      rs[id]? = some r → times[id]? = some time →
      Comparable labels.length r ∧ r.out.len = time.length) :
    ∃ ids out, (samples = some ids ∨ samples = none ∧ ids.Perm (List.range N)) ∧
      predictionSeries dirs times type labels samples = .ok out ∧ out.length = labels.length ∧
      ∀ i dict, out[i]? = some dict → ∀ id,
        (id ∉ ids → dict.get? id = none) ∧
        (id ∈ ids → ∃ time m ms, times[id]? = some time ∧
          rss.map (fun rs => rs[id]?) = (m :: ms).map some ∧
          dict.get? id = some (seriesRows i time m ms)) := by
  obtain ⟨rs0, rest, rfl⟩ := List.exists_cons_of_ne_nil hne
  cases hd with
  | @cons d0 _ drest _ h0 hrest =>
  have hr0 : rs0 ≠ [] := by
    rintro rfl
    have := hN [] (by simp)
    simp at this
    omega
  obtain ⟨fids, hf1, hf2⟩ := fileIds_of h0 hr0
  rw [hN rs0 (by simp)] at hf2
  have hn : nComponents type labels = .ok labels.length := by
    unfold nComponents
    rcases ht with rfl | rfl <;> simp
  have hids : ∀ id ∈ samples.getD fids, id < N := by
    intro id hid
    cases samples with
    | none => exact List.mem_range.mp (hf2.mem_iff.mp hid)
    | some ids => exact (hs ids rfl).2 id hid
  have hmods : ∀ id < N, (rs0 :: rest).map (fun rs => rs[id]?)
      = (modelsOf (rs0 :: rest) id).map some := by
    intro id hid
    have hall : ∀ l : List ModelResults, (∀ rs ∈ l, rs.length = N) →
        l.map (fun rs => rs[id]?) = (modelsOf l id).map some := by
      intro l hl
      induction l with
      | nil => rfl
      | cons rs l ih =>
        have : rs[id]? = some (rs[id]'(by rw [hl rs (by simp)]; exact hid)) :=
          List.getElem?_eq_getElem _
        unfold modelsOf at ih ⊢
        rw [List.map_cons, List.filterMap_cons, this, ih fun x hx => hl x (by simp [hx])]
        rfl
    exact hall _ hN
  have hcons : ∀ id < N, ∃ m ms, modelsOf (rs0 :: rest) id = m :: ms := by
    intro id hid
    have := congrArg List.length (hmods id hid)
    rw [List.length_map, List.length_map] at this
    exact List.exists_cons_of_length_pos (by rw [← this]; simp)
  have hmem : ∀ id < N, ∀ m ∈ modelsOf (rs0 :: rest) id, ∃ rs ∈ rs0 :: rest, rs[id]? = some m := by
    intro id _ m hm
    unfold modelsOf at hm
    exact List.mem_filterMap.mp hm
  have hrow : ∀ id < N, ∃ time m ms, times[id]? = some time ∧
      modelsOf (rs0 :: rest) id = m :: ms ∧ ∀ i < labels.length,
        seriesArray type labels.length time (modelsOf (rs0 :: rest) id) i
          = .ok (seriesRows i time m ms) := by
    intro id hid
    obtain ⟨m, ms, hm⟩ := hcons id hid
    have htime : times[id]? = some (times[id]'(by omega)) := List.getElem?_eq_getElem _
    refine ⟨_, m, ms, htime, hm, fun i hi => ?_⟩
    rw [hm]
    refine seriesArray_of ht hi _ m ms fun r hr => ?_
    obtain ⟨rs, hrs, hre⟩ := hmem id hid r (by rw [hm]; exact hr)
    exact hc rs hrs id r _ hre htime
  classical
  let V : ℕ → ℕ → List (List ℝ) := fun id i =>
    if h : id < N then seriesRows i (hrow id h).choose (hrow id h).choose_spec.choose
      (hrow id h).choose_spec.choose_spec.choose else []
  have hV : ∀ id < N, ∃ time m ms, times[id]? = some time ∧
      modelsOf (rs0 :: rest) id = m :: ms ∧ (∀ i, V id i = seriesRows i time m ms) ∧
      ∀ i < labels.length, seriesArray type labels.length time (modelsOf (rs0 :: rest) id) i
          = .ok (V id i) := by
    intro id hid
    have hsp := (hrow id hid).choose_spec.choose_spec.choose_spec
    have hVe : ∀ i, V id i = seriesRows i (hrow id hid).choose (hrow id hid).choose_spec.choose
        (hrow id hid).choose_spec.choose_spec.choose := fun i => dif_pos hid
    exact ⟨_, _, _, hsp.1, hsp.2.1, hVe, fun i hi => by rw [hVe]; exact hsp.2.2 i hi⟩
  refine ⟨samples.getD fids, (List.range labels.length).map fun i =>
    (samples.getD fids).foldl (fun d id => d.put id (V id i)) [], ?_, ?_, by simp, ?_⟩
  · cases samples with
    | none => exact .inr ⟨rfl, hf2⟩
    | some ids => exact .inl rfl
  · unfold predictionSeries
    rw [(raiseIf_ok (u := ())).mpr (fun he => (hs [] he).1 rfl)]
    simp only [bind, Except.bind]
    rw [(raiseIf_ok (u := ())).mpr (by
      rintro ⟨ids, he, id, hid, hle⟩
      have := (hs ids he).2 id hid
      omega)]
    simp only [List.head?_cons, orRaise]
    rw [hf1]
    simp only
    rw [hn]
    simp only
    have hrep : List.replicate labels.length ([] : KDict ℕ (List (List ℝ)))
        = (List.range labels.length).map fun _ => [] := by simp
    rw [hrep]
    exact series_fold (.cons h0 hrest) hf2 hN V _ hids (fun id hid => by
      obtain ⟨time, m, ms, g1, g2, g3, g4⟩ := hV id (hids id hid)
      exact ⟨time, g1, g4⟩) _
  · intro i dict hi id
    obtain ⟨hlt, rfl⟩ := List.getElem?_eq_some_iff.mp hi
    rw [List.getElem_map, List.getElem_range, foldl_put_ids]
    refine ⟨fun h => by rw [if_neg h]; rfl, fun h => ?_⟩
    rw [if_pos h]
    obtain ⟨time, m, ms, g1, g2, g3, g4⟩ := hV id (hids id h)
    exact ⟨time, m, ms, g1, by rw [hmods id (hids id h), g2], by rw [g3]⟩

/-! ## Models of an uncertainty quantification -/

theorem isModelDir_modelDir (k : ℕ) : isModelDir (modelDir k) = true := by
  unfold isModelDir modelDir
  rw [afterPrefix_append]
  obtain ⟨c, cs, hc⟩ := List.exists_cons_of_ne_nil (strNat_ne_nil k)
  rw [hc]
  exact isDigit_of_mem_strNat (n := k) (by rw [hc]; simp)

theorem isModelDir_prefix {name : Text} (h : isModelDir name = true) : "model_".toList <+: name := by
  unfold isModelDir at h
  cases hr : afterPrefix "model_".toList name with
  | none => rw [hr] at h; cases h
  | some r => exact ⟨r, (afterPrefix_eq.mp hr).symm⟩

theorem lastNumber_modelDir (k : ℕ) : lastNumber (modelDir k) = some k := by
  have := lastNumber_of (p := "model".toList) (c := '_') (w := strNat k) (s := []) (by decide)
    (strNat_ne_nil k) (fun c hc => isDigit_of_mem_strNat hc) (by simp)
  rw [List.append_nil, parseInt_strNat] at this
  exact this

/-- **C116 (models).** Listed in any order among other directories, the directories of the models are
taken in the order of their numbers (10 after 9). -/
theorem C116_models {dirs others : List (Text × PredDir)} {ks : List ℕ} (hk : ks.Pairwise (· < ·))
    (P : ℕ → PredDir) (hp : dirs.Perm ((ks.map fun k => (modelDir k, P k)) ++ others))
    (ho : ∀ p ∈ others, ¬ "model_".toList <+: p.1) : uqDirs dirs = ks.map P := by
  have h1 : (dirs.filter fun p => isModelDir p.1).Perm (ks.map fun k => (modelDir k, P k)) := by
    refine (hp.filter _).trans ?_
    rw [List.filter_append]
    have e1 : (ks.map fun k => (modelDir k, P k)).filter (fun p => isModelDir p.1)
        = ks.map fun k => (modelDir k, P k) := by
      rw [List.filter_eq_self]
      intro p hp
      obtain ⟨k, -, rfl⟩ := List.mem_map.mp hp
      exact isModelDir_modelDir k
    have e2 : others.filter (fun p => isModelDir p.1) = [] := by
      rw [List.filter_eq_nil_iff]
      intro p hp h
      exact ho p hp (isModelDir_prefix h)
    rw [e1, e2, List.append_nil]
  unfold uqDirs
  have h2 := h1.map fun p : Text × PredDir => ((lastNumber p.1).getD 0, p.2)
  rw [List.map_map] at h2
  have e3 : ks.map ((fun p : Text × PredDir => ((lastNumber p.1).getD 0, p.2)) ∘
      fun k => (modelDir k, P k)) = ks.map fun k => (k, P k) := by
    refine List.map_congr_left fun k _ => ?_
    simp [lastNumber_modelDir]
  rw [e3] at h2
  rw [sortByKey_perm (l := ks.map fun k => (k, P k)) (by
    rw [List.map_map]
    simpa [Function.comp_def] using hk) h2]
  simp

/-! ## A case -/

/-- Two stress components at three times; the model predicts one more than the truth. -/
noncomputable def caseResults (a : ℝ) : StoredResults :=
  ⟨⟨3, 2, fun k i => a + k + 10 * i + 1⟩, some ⟨3, 2, fun k i => a + k + 10 * i⟩, none⟩

theorem caseResults_comparable (a : ℝ) : Comparable 2 (caseResults a) :=
  ⟨_, rfl, rfl, le_refl _, le_refl _⟩

/-- A directory listed with the second sample first. -/
noncomputable def caseDir : PredDir :=
  [(sampleFile 1, .results (caseResults 100)), ("summary.dat".toList, .other),
    (sampleFile 0, .results (caseResults 0))]

theorem caseDir_stores : StoresResults caseDir [caseResults 0, caseResults 100] where
  nodup := by
    show [sampleFile 1, "summary.dat".toList, sampleFile 0].Nodup
    decide
  stored := by
    intro i r h
    rcases i with _ | _ | i
    · cases h; simp [caseDir]
    · cases h; simp [caseDir]
    · cases h
  others := by
    intro name e h
    simp only [caseDir, List.mem_cons, List.not_mem_nil, or_false, Prod.mk.injEq] at h
    rcases h with ⟨rfl, -⟩ | ⟨rfl, -⟩ | ⟨rfl, -⟩
    · exact .inl ⟨1, by simp, rfl⟩
    · exact .inr (by decide)
    · exact .inl ⟨0, by simp, rfl⟩

example : predictionArrays caseDir "stress_comps" ["stress_11", "stress_22"] (some [0, 1])
    = .ok ((List.range 2).map fun i => [0, 1].flatMap fun id =>
        (([caseResults 0, caseResults 100][id]?).map (truthRows i)).getD []) := by
  obtain ⟨ids, h1, h2⟩ := C116_arrays caseDir_stores (by simp) (.inl rfl)
    (labels := ["stress_11", "stress_22"]) (samples := some [0, 1]) (by
      rintro ids h id hid
      cases h
      simp at hid ⊢
      omega) (by
      intro r hr
      simp only [List.mem_cons, List.not_mem_nil, or_false] at hr
      rcases hr with rfl | rfl <;> exact caseResults_comparable _)
  rcases h1 with h1 | h1
  · cases h1; exact h2
  · cases h1.1

/-- Two models (listed as 10 and 9), both samples. -/
example : ∃ (ids : List ℕ) (out : _), ids.Perm [0, 1] ∧
    predictionSeriesUq [(modelDir 10, caseDir), ("plots".toList, []), (modelDir 9, caseDir)]
      [[0, 1, 2], [0, 2, 4]] "stress_comps" ["stress_11", "stress_22"] none = .ok out ∧
    ∀ dict, out[1]? = some dict → 1 ∈ ids → dict.get? 1
      = some (seriesRows 1 [0, 2, 4] (caseResults 100) [caseResults 100]) := by
  have hm := C116_models (dirs := [(modelDir 10, caseDir), ("plots".toList, []), (modelDir 9, caseDir)])
    (others := [("plots".toList, [])]) (ks := [9, 10]) (by simp) (fun _ => caseDir)
    (by
      show List.Perm [_, _, _] [_, _, _]
      refine (List.Perm.swap _ _ _).trans ?_
      refine (List.Perm.cons _ (List.Perm.swap _ _ _)).trans ?_
      exact (List.Perm.swap _ _ _).trans (List.Perm.cons _ (List.Perm.swap _ _ _)))
    (by simp)
  unfold predictionSeriesUq
  rw [hm]
  obtain ⟨ids, out, h1, h2, -, h4⟩ := C116_series (N := 2) (by norm_num)
    (dirs := [9, 10].map fun _ => caseDir)
    (rss := [[caseResults 0, caseResults 100], [caseResults 0, caseResults 100]])
    (.cons caseDir_stores (.cons caseDir_stores .nil)) (by simp) (by simp)
    (times := [[0, 1, 2], [0, 2, 4]]) rfl (.inl rfl) (labels := ["stress_11", "stress_22"])
    (samples := none) (by intro ids h; cases h) (by
      intro rs hrs id r time h1 h2
      have : rs = [caseResults 0, caseResults 100] := by simpa using hrs
      subst this
      rcases id with _ | _ | id
      · cases h1; cases h2; exact ⟨caseResults_comparable _, rfl⟩
      · cases h1; cases h2; exact ⟨caseResults_comparable _, rfl⟩
      · cases h1)
  refine ⟨ids, out, ?_, h2, ?_⟩
  · rcases h1 with h1 | h1
    · cases h1
    · exact h1.2
  · intro dict hd hid
    obtain ⟨time, m, ms, g1, g2, g3⟩ := (h4 1 dict hd 1).2 hid
    cases g1
    have g2' : m = caseResults 100 ∧ ms = [caseResults 100] := by
      simp only [List.map_cons, List.map_nil, List.cons.injEq] at g2
      refine ⟨(Option.some.inj g2.1).symm, ?_⟩
      rcases ms with _ | ⟨m', _ | ⟨m'', ms⟩⟩
      · simp at g2
      · have := g2.2
        simp at this
        rw [this]
      · simp at g2
    rw [g3, g2'.1, g2'.2]

example : StoresResults ([caseResults 0, caseResults 100].zipIdx.foldl
    (fun d p => saveSample d p.2 p.1) [("summary.dat".toList, .other)])
    [caseResults 0, caseResults 100] := by
  refine C116_stored (by decide) ?_ _
  intro name h
  have : name = "summary.dat".toList := by simpa [KDict.keys] using h
  subst this
  decide

example : ∃ k, makeSubdir "out".toList ["out/prediction_set_0".toList]
    = .ok ("out".toList ++ "/prediction_set_".toList ++ strNat k) ∧ k ≠ 0 := by
  obtain ⟨k, h1, h2, -⟩ := C116_subdir "out".toList ["out/prediction_set_0".toList]
  refine ⟨k, h1, ?_⟩
  rintro rfl
  exact h2 (by decide)

/-! ## Errors -/

/-- **C116 (unknown samples).** A sample without a file is reported with a `RuntimeError`. -/
theorem C116_unknown {d : PredDir} {rs : List StoredResults} (h : StoresResults d rs) (hr : rs ≠ [])
    {type : String} (ht : ByColumns type) {labels : List String} {ids : List ℕ}
    (hc : ∀ r ∈ rs, Comparable labels.length r) (hid : ∃ id ∈ ids, rs.length ≤ id) :
    predictionArrays d type labels (some ids) = .error .runtimeError := by
  obtain ⟨fids, h1, h2⟩ := fileIds_of h hr
  have hn : nComponents type labels = .ok labels.length := by
    unfold nComponents
    rcases ht with rfl | rfl <;> simp
  unfold predictionArrays
  rw [h1]
  simp only [bind, Except.bind]
  rw [hn]
  simp only [Option.getD_some]
  have h0 : List.replicate labels.length ([] : List (ℝ × ℝ))
      = (List.range labels.length).map fun _ => [] := by simp
  rw [h0]
  suffices ∀ A : ℕ → List (ℝ × ℝ), ids.foldlM (arraysStep d fids type labels.length)
      ((List.range labels.length).map A) = .error .runtimeError from this _
  induction ids with
  | nil => simp at hid
  | cons id ids ih =>
    intro A
    rw [List.foldlM_cons]
    by_cases hlt : id < rs.length
    · rw [arraysStep_of h h2 ht hlt (hc _ (List.getElem_mem hlt))]
      simp only [bind, Except.bind]
      refine ih ?_ _
      obtain ⟨k, hk, hle⟩ := hid
      rcases List.mem_cons.mp hk with rfl | hk
      · omega
      · exact ⟨k, hk, hle⟩
    · have : id ∉ fids := fun hm => hlt (List.mem_range.mp (h2.mem_iff.mp hm))
      unfold arraysStep
      simp only [raiseIf, this, not_false_eq_true, if_true, bind, Except.bind]

example : predictionArrays caseDir "stress_comps" ["stress_11", "stress_22"] (some [0, 7])
    = .error .runtimeError :=
  C116_unknown caseDir_stores (by simp) (.inl rfl) (by
    intro r hr
    simp only [List.mem_cons, List.not_mem_nil, or_false] at hr
    rcases hr with rfl | rfl <;> exact caseResults_comparable _) ⟨7, by simp, by simp⟩

/-- **C116 (refusals).** A sample outside the data set is reported with a `RuntimeError` before anything is
read, whatever the directories hold, and so are the file of a sample that does not exist and a prediction
type that is not known; more labels than features of the first requested sample are an `IndexError`. -/
theorem C116_refusals :
    (∀ (dirs : List PredDir) (times : List (List ℝ)) (type : String) (labels : List String)
      (ids : List ℕ), (∃ id ∈ ids, times.length ≤ id) →
      predictionSeries dirs times type labels (some ids) = .error .runtimeError) ∧
    (∀ (d : PredDir) (i : ℕ), sampleFile i ∉ d.keys → loadSample d i = .error .runtimeError) ∧
    (∀ (d : PredDir) (rs : List StoredResults), StoresResults d rs → rs ≠ [] →
      ∀ type ∉ ["stress_comps", "acc_p_strain", "p_strain_comps"], ∀ labels samples,
      predictionArrays d type labels samples = .error .runtimeError) ∧
    (∀ (d : PredDir) (rs : List StoredResults), StoresResults d rs →
      ∀ (type : String) (labels : List String) (id : ℕ) (ids : List ℕ) (r : StoredResults)
        (t : SeqTensor), ByColumns type → rs[id]? = some r → r.targets = some t → t.len = r.out.len →
      min t.nFeat r.out.nFeat < labels.length →
      predictionArrays d type labels (some (id :: ids)) = .error .indexError) := by
  refine ⟨?_, ?_, ?_, ?_⟩
  · intro dirs times type labels ids ⟨id, hid, hle⟩
    unfold predictionSeries
    have h1 : ¬ (some ids = some ([] : List ℕ)) := by
      rintro h
      cases h
      simp at hid
    have h2 : ∃ ids', some ids = some ids' ∧ ∃ id ∈ ids', times.length ≤ id := ⟨ids, rfl, id, hid, hle⟩
    rw [(raiseIf_ok (u := ())).mpr h1]
    simp only [bind, Except.bind, raiseIf, if_pos h2]
  · intro d i hi
    unfold loadSample
    have : d.get? (sampleName i) = none := by
      rw [sampleName_eq]
      by_contra hne
      obtain ⟨v, hv⟩ := Option.ne_none_iff_exists'.mp hne
      exact hi (List.mem_map.mpr ⟨_, KDict.get?_mem hv, rfl⟩)
    rw [this]
  · intro d rs h hr type ht labels samples
    obtain ⟨fids, h1, -⟩ := fileIds_of h hr
    simp only [List.mem_cons, List.not_mem_nil, or_false, not_or] at ht
    unfold predictionArrays
    rw [h1]
    simp only [bind, Except.bind, nComponents, ht.1, ht.2.1, ht.2.2, if_false]
  · intro d rs h type labels id ids r t ht hr hg hlen hmin
    obtain ⟨hlt, hre⟩ := List.getElem?_eq_some_iff.mp hr
    obtain ⟨fids, h1, h2⟩ := fileIds_of h (by rintro rfl; simp at hlt)
    have hne : type ≠ "acc_p_strain" := by rcases ht with rfl | rfl <;> decide
    have hc : nComponents type labels = .ok labels.length := by
      unfold nComponents
      rcases ht with rfl | rfl <;> simp
    unfold predictionArrays
    rw [h1]
    simp only [bind, Except.bind]
    rw [hc]
    simp only [Option.getD_some, List.foldlM_cons]
    have hs : ∀ i, sampleArray type labels.length rs[id] i
        = if min labels.length (min t.nFeat r.out.nFeat) ≤ i then .error .indexError
          else .ok (truthRows i r) := by
      intro i
      unfold sampleArray truthAndPrediction SeqTensor.sliceColumn
      rw [if_neg hne, hre, hg]
      simp only [orRaise, bind, Except.bind, raiseIf]
      by_cases ha : min labels.length t.nFeat ≤ i
      · rw [if_pos (show min labels.length (min t.nFeat r.out.nFeat) ≤ i by omega), if_pos ha]
      · rw [if_neg ha]
        by_cases hb : min labels.length r.out.nFeat ≤ i
        · rw [if_pos (show min labels.length (min t.nFeat r.out.nFeat) ≤ i by omega), if_pos hb]
        · rw [if_neg (show ¬ min labels.length (min t.nFeat r.out.nFeat) ≤ i by omega), if_neg hb]
          simp [truthRows, hg, hlen, pure, Except.pure, List.zip_map']
    have hm : ((List.range labels.length).mapM fun i => sampleArray type labels.length rs[id] i)
        = .error .indexError := by
      refine mapM_error (x := min t.nFeat r.out.nFeat) (List.mem_range.mpr hmin) ?_ fun y _ => ?_
      · rw [hs, if_pos (by omega)]
      · rw [hs]
        split
        · exact .inl rfl
        · exact .inr ⟨_, rfl⟩
    unfold arraysStep
    rw [(raiseIf_ok (u := ())).mpr (by
      rw [not_not]
      exact h2.mem_iff.mpr (List.mem_range.mpr hlt))]
    simp only [bind, Except.bind]
    rw [loadSample_of h hlt]
    simp only
    rw [hm]

example : predictionSeries [caseDir] [[0, 1], [0, 1]] "stress_comps" ["stress_11"] (some [0, 2])
    = .error .runtimeError :=
  C116_refusals.1 _ _ _ _ _ ⟨2, by simp, by simp⟩

example : predictionArrays caseDir "stress" ["stress_11"] none = .error .runtimeError :=
  C116_refusals.2.2.1 _ _ caseDir_stores (by simp) _ (by decide) _ _

/-- **C116 is violated for predictions without ground truth.** The targets are sliced before they are
compared with `None`: a `TypeError` is raised, not the `RuntimeError` that names the sample. -/
theorem C116_no_truth_violated {d : PredDir} {rs : List StoredResults} (h : StoresResults d rs)
    {type : String} (ht : ByColumns type) {labels : List String} (hl : labels ≠ []) {id : ℕ}
    {ids : List ℕ} {r : StoredResults} (hr : rs[id]? = some r) (hn : r.targets = none) :
    predictionArrays d type labels (some (id :: ids)) = .error .typeError := by
  obtain ⟨hlt, hre⟩ := List.getElem?_eq_some_iff.mp hr
  obtain ⟨fids, h1, h2⟩ := fileIds_of h (by rintro rfl; simp at hlt)
  have hne : type ≠ "acc_p_strain" := by rcases ht with rfl | rfl <;> decide
  have hc : nComponents type labels = .ok labels.length := by
    unfold nComponents
    rcases ht with rfl | rfl <;> simp
  unfold predictionArrays
  rw [h1]
  simp only [bind, Except.bind]
  rw [hc]
  simp only [Option.getD_some, List.foldlM_cons]
  have hm : ((List.range labels.length).mapM fun i => sampleArray type labels.length rs[id] i)
      = .error .typeError := by
    have hs : ∀ i, sampleArray type labels.length rs[id] i = .error .typeError := by
      intro i
      unfold sampleArray truthAndPrediction
      rw [if_neg hne, hre, hn]
      rfl
    exact mapM_error (x := 0) (List.mem_range.mpr (List.length_pos_iff.mpr hl)) (hs 0)
      fun y _ => .inl (hs y)
  unfold arraysStep
  rw [(raiseIf_ok (u := ())).mpr (by
    rw [not_not]
    exact h2.mem_iff.mpr (List.mem_range.mpr hlt))]
  simp only [bind, Except.bind]
  rw [loadSample_of h hlt]
  simp only
  rw [hm]

/-- **C116 is violated for the accumulated plastic strain.** The results stored by `predict` do not have
the order of the stress components: a `KeyError` is raised for every stored prediction. -/
theorem C116_acc_violated {d : PredDir} {rs : List StoredResults} (h : StoresResults d rs)
    (labels : List String) {id : ℕ} (hlt : id < rs.length) (ids : List ℕ)
    (hn : ∀ r ∈ rs, r.stressOrder = none) :
    predictionArrays d "acc_p_strain" labels (some (id :: ids)) = .error .keyError := by
  obtain ⟨fids, h1, h2⟩ := fileIds_of h (by rintro rfl; simp at hlt)
  unfold predictionArrays
  rw [h1]
  simp only [bind, Except.bind, nComponents, if_neg (show ¬ "acc_p_strain" = "stress_comps" by decide),
    if_true, Option.getD_some, List.foldlM_cons]
  unfold arraysStep
  rw [(raiseIf_ok (u := ())).mpr (by
    rw [not_not]
    exact h2.mem_iff.mpr (List.mem_range.mpr hlt))]
  simp only [bind, Except.bind]
  rw [loadSample_of h hlt]
  simp only [List.range_one, List.mapM_cons, sampleArray, truthAndPrediction, if_true,
    hn _ (List.getElem_mem hlt), orRaise, bind, Except.bind]

/-- **C116 is violated for labels.** Only their number counts: other stress components, or plastic
strain components in place of stress components, give the same arrays. -/
theorem C116_labels_violated (d : PredDir) {type type' : String} (ht : ByColumns type)
    (ht' : ByColumns type') {labels labels' : List String} (hl : labels.length = labels'.length)
    (samples : Option (List ℕ)) :
    predictionArrays d type labels samples = predictionArrays d type' labels' samples := by
  have hn : ∀ t l, ByColumns t → nComponents t l = .ok l.length := by
    intro t l ht
    unfold nComponents
    rcases ht with rfl | rfl <;> simp
  have hs : ∀ n fids, arraysStep d fids type n = arraysStep d fids type' n := by
    intro n fids
    funext acc id
    unfold arraysStep sampleArray truthAndPrediction
    have e : type ≠ "acc_p_strain" := by rcases ht with rfl | rfl <;> decide
    have e' : type' ≠ "acc_p_strain" := by rcases ht' with rfl | rfl <;> decide
    simp only [if_neg e, if_neg e']
  unfold predictionArrays
  rw [hn _ _ ht, hn _ _ ht', hl]
  congr 1
  funext fids
  simp only [bind, Except.bind]
  rw [hs]

example : predictionArrays caseDir "stress_comps" ["stress_22"] none
    = predictionArrays caseDir "p_strain_comps" ["strain_11"] none :=
  C116_labels_violated _ (.inl rfl) (.inr rfl) rfl _

/-- **C116 is violated for other directories.** A directory whose name only begins like that of a model,
such as a copy kept of it, is taken for a model. -/
theorem C116_copies_violated (P Q : PredDir) :
    uqDirs [("model_1".toList, P), ("model_0_old".toList, Q)] = [Q, P] := by
  have h1 : isModelDir "model_1".toList = true := by decide
  have h2 : isModelDir "model_0_old".toList = true := by decide
  have h3 : lastNumber "model_1".toList = some 1 := by decide
  have h4 : lastNumber "model_0_old".toList = some 0 := by decide
  unfold uqDirs
  simp only [List.filter_cons, h1, h2, if_true, List.filter_nil, List.map_cons, List.map_nil, h3, h4,
    Option.getD_some]
  rfl

end Hooke
