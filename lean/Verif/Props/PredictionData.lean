import Verif.Spec.PredictionData
import Verif.Lemmas.MapM
import Verif.Props.SpecimenHistory
import Verif.Props.LearnableParameters
import Verif.Props.TimeSeriesBatch
import Verif.Props.AbaqusLinksConvert

/-!
# C116: predictions are stored and collected sample by sample
-/

namespace Hooke

open Spec

/-! ## The directory of a prediction -/

/-- The directory with the number `k`. -/
def setDir (dir : Text) (k : ℕ) : Text := joinPath dir ("prediction_set_".toList ++ strNat k)

theorem strNat_inj {a b : ℕ} (h : strNat a = strNat b) : a = b := by
  have := congrArg parseInt h
  rw [parseInt_strNat, parseInt_strNat] at this
  exact Option.some.inj this

theorem setDir_inj {dir : Text} {a b : ℕ} (h : setDir dir a = setDir dir b) : a = b := by
  unfold setDir joinPath at h
  exact strNat_inj (by simpa using h)

theorem nextSubdir_setDir (dir : Text) (k : ℕ) : nextSubdir dir (setDir dir k) = .ok (setDir dir (k + 1)) := by
  have hs : (splitText (· == '_') (setDir dir k)).getLast? = some (strNat k) := by
    have e : setDir dir k = (dir ++ "/prediction_set".toList) ++ '_' :: strNat k := by
      unfold setDir joinPath
      simp
    rw [e, splitText_append (by decide), splitText_none (s := strNat k) (fun c hc => by
      by_contra h
      simp only [beq_iff_eq, Bool.not_eq_false] at h
      subst h
      exact absurd (isDigit_of_mem_strNat hc) (by decide))]
    simp
  unfold nextSubdir
  rw [hs]
  simp only [orRaise, bind, Except.bind]
  have := intOfText_strNat 0 k
  simp only [List.replicate_zero, List.nil_append] at this
  rw [this]
  simp only [pure, Except.pure]
  rw [show ((k : ℤ) + 1) = ((k + 1 : ℕ) : ℤ) by push_cast; rfl, textOfInt_natCast]
  rfl

theorem subdirLoop_setDir (dir : Text) (taken : List Text) (k : ℕ)
    (h : ∀ j < k, setDir dir j ∈ taken) (hk : setDir dir k ∉ taken) :
    ∀ n j, j ≤ k → k < n + j → subdirLoop dir taken n (setDir dir j) = .ok (setDir dir k) := by
  intro n
  induction n with
  | zero => intro j h1 h2; omega
  | succ n ih =>
    intro j h1 h2
    unfold subdirLoop
    rcases Nat.lt_or_ge j k with hj | hj
    · rw [if_pos (h j hj), nextSubdir_setDir]
      simp only [bind, Except.bind]
      exact ih (j + 1) hj (by omega)
    · have : j = k := by omega
      subst this
      rw [if_neg hk]

/-- **C116 (directory).** Whatever exists, a prediction gets a directory that does not exist yet: the
first free one of the numbered directories. -/
theorem C116_subdir (dir : Text) (taken : List Text) :
    ∃ k, makeSubdir dir taken = .ok (dir ++ "/prediction_set_".toList ++ strNat k) ∧
      dir ++ "/prediction_set_".toList ++ strNat k ∉ taken ∧
      ∀ j < k, dir ++ "/prediction_set_".toList ++ strNat j ∈ taken := by
  have he : ∀ j, dir ++ "/prediction_set_".toList ++ strNat j = setDir dir j := by
    intro j
    unfold setDir joinPath
    simp
  simp only [he]
  have hex : ∃ k, k ≤ taken.length ∧ setDir dir k ∉ taken := by
    by_contra hno
    push Not at hno
    have hsub : ((List.range (taken.length + 1)).map (setDir dir)) ⊆ taken := by
      intro x hx
      obtain ⟨j, hj, rfl⟩ := List.mem_map.mp hx
      exact hno j (by have := List.mem_range.mp hj; omega)
    have hnd : ((List.range (taken.length + 1)).map (setDir dir)).Nodup :=
      List.Nodup.map (fun a b h => setDir_inj h) List.nodup_range
    have := (hnd.subperm hsub).length_le
    simp at this
  classical
  let k := Nat.find hex
  have hk := Nat.find_spec hex
  have hmin : ∀ j < k, setDir dir j ∈ taken := by
    intro j hj
    by_contra hno
    exact Nat.find_min hex hj ⟨by have := hk.1; omega, hno⟩
  refine ⟨k, ?_, hk.2, hmin⟩
  have h0 : joinPath dir "prediction_set_0".toList = setDir dir 0 := by
    unfold setDir joinPath
    have : strNat 0 = ['0'] := by decide
    rw [this]
    rfl
  unfold makeSubdir
  rw [h0]
  exact subdirLoop_setDir dir taken k hmin hk.2 _ 0 (Nat.zero_le _) (by have := hk.1; omega)

/-! ## The files of the samples -/

theorem sampleName_eq (i : ℕ) : sampleName i = sampleFile i := rfl

theorem sampleFile_inj {i j : ℕ} (h : sampleFile i = sampleFile j) : i = j := by
  unfold sampleFile at h
  rw [List.append_assoc, List.append_assoc] at h
  exact strNat_inj (List.append_cancel_right (List.append_cancel_left h))

theorem sampleFile_prefix (i : ℕ) : "prediction_sample_".toList <+: sampleFile i := by
  unfold sampleFile
  rw [List.append_assoc]
  exact List.prefix_append _ _

theorem sampleIdOf_file (i : ℕ) : sampleIdOf (sampleFile i) = some i := by
  unfold sampleIdOf sampleFile
  rw [List.append_assoc, afterPrefix_append]
  have hl : (strNat i ++ ".pkl".toList).getLast? = some 'l' := by
    rw [List.getLast?_append]
    rfl
  have hn : 0 < (strNat i).length := List.length_pos_iff.mpr (strNat_ne_nil i)
  have hlen : (strNat i ++ ".pkl".toList).length = (strNat i).length + 4 := by simp
  have h3 : (strNat i).length + 4 - 3 = (strNat i).length + 1 := by omega
  have h4 : (strNat i).length + 4 - 4 = (strNat i).length := by omega
  simp only [bind, Option.bind]
  rw [if_neg (show ¬ (strNat i ++ ".pkl".toList).getLast? = some '\n' by rw [hl]; decide), hlen, h3, h4,
    if_neg]
  · rw [List.take_left, parseInt_strNat]
  · push Not
    refine ⟨by omega, ?_, ?_⟩
    · rw [← List.drop_drop, List.drop_left]
      rfl
    · rw [List.getElem?_append_right (le_refl _)]
      simp

theorem sampleIdOf_prefix {name : Text} {i : ℕ} (h : sampleIdOf name = some i) :
    "prediction_sample_".toList <+: name := by
  unfold sampleIdOf at h
  cases hr : afterPrefix "prediction_sample_".toList name with
  | none => rw [hr] at h; cases h
  | some r =>
    rw [afterPrefix_eq] at hr
    exact ⟨r, hr.symm⟩

/-- **C116 (storing).** Results saved one after the other are all stored, each in its file. -/
theorem C116_stored {d : PredDir} (hd : d.keys.Nodup)
    (ho : ∀ name ∈ d.keys, ¬ "prediction_sample_".toList <+: name) (rs : List StoredResults) :
    StoresResults (rs.zipIdx.foldl (fun d p => saveSample d p.2 p.1) d) rs := by
  induction rs using List.reverseRecOn with
  | nil =>
    refine ⟨hd, by simp, fun name e h => .inr (ho name ?_)⟩
    exact List.mem_map.mpr ⟨_, h, rfl⟩
  | append_singleton rs r ih =>
    rw [List.zipIdx_append, List.foldl_append]
    simp only [List.zipIdx_singleton, List.foldl_cons, List.foldl_nil, Nat.zero_add]
    generalize rs.zipIdx.foldl (fun d p => saveSample d p.2 p.1) d = d' at ih ⊢
    have hnew : sampleFile rs.length ∉ d'.keys := by
      intro hm
      obtain ⟨p, hp, he⟩ := List.mem_map.mp hm
      rcases ih.others p.1 p.2 hp with ⟨i, hi, he'⟩ | hno
      · rw [he] at he'
        have := sampleFile_inj he'
        omega
      · exact hno (he ▸ sampleFile_prefix _)
    unfold saveSample
    rw [sampleName_eq, put_of_notMem d' _ _ hnew]
    refine ⟨?_, ?_, ?_⟩
    · have := KDict.nodup_put ih.nodup (sampleFile rs.length) (PredEntry.results r)
      rwa [put_of_notMem d' _ _ hnew] at this
    · intro i x hx
      rw [List.mem_append]
      rcases Nat.lt_or_ge i rs.length with hi | hi
      · rw [List.getElem?_append_left hi] at hx
        exact .inl (ih.stored i x hx)
      · rw [List.getElem?_append_right hi] at hx
        have h0 : i - rs.length = 0 := by
          by_contra h0
          rw [List.getElem?_eq_none (by simp; omega)] at hx
          cases hx
        rw [h0] at hx
        simp only [List.getElem?_cons_zero, Option.some.injEq] at hx
        have : i = rs.length := by omega
        subst this hx
        exact .inr (by simp)
    · intro name e h
      rcases List.mem_append.mp h with h | h
      · rcases ih.others name e h with ⟨i, hi, he⟩ | hno
        · exact .inl ⟨i, by simp; omega, he⟩
        · exact .inr hno
      · simp only [List.mem_singleton, Prod.mk.injEq] at h
        exact .inl ⟨rs.length, by simp, h.1⟩

theorem fileIds_perm {d : PredDir} {rs : List StoredResults} (h : StoresResults d rs) :
    (d.keys.filterMap sampleIdOf).Perm (List.range rs.length) := by
  have hname : ∀ name ∈ d.keys, ∀ i, sampleIdOf name = some i → i < rs.length ∧ name = sampleFile i := by
    intro name hn i hi
    obtain ⟨p, hp, rfl⟩ := List.mem_map.mp hn
    rcases h.others p.1 p.2 hp with ⟨j, hj, he⟩ | hno
    · rw [he, sampleIdOf_file] at hi
      cases hi
      exact ⟨hj, he⟩
    · exact absurd (sampleIdOf_prefix hi) hno
  refine (List.perm_ext_iff_of_nodup ?_ List.nodup_range).mpr ?_
  · unfold List.Nodup
    rw [List.pairwise_filterMap]
    refine List.Pairwise.imp_of_mem ?_ h.nodup
    intro a b ha hb hne i hi j hj he
    subst he
    exact hne (by rw [(hname a ha i hi).2, (hname b hb i hj).2])
  · intro i
    rw [List.mem_filterMap, List.mem_range]
    constructor
    · rintro ⟨name, hn, hi⟩
      exact (hname name hn i hi).1
    · intro hi
      exact ⟨sampleFile i, List.mem_map.mpr ⟨_, h.stored i _ (List.getElem?_eq_getElem hi), rfl⟩,
        sampleIdOf_file i⟩

theorem fileIds_of {d : PredDir} {rs : List StoredResults} (h : StoresResults d rs) (hr : rs ≠ []) :
    ∃ ids, fileIds d = .ok ids ∧ ids.Perm (List.range rs.length) := by
  have hp := fileIds_perm h
  have hpos : 0 < rs.length := List.length_pos_iff.mpr hr
  refine ⟨_, ?_, hp⟩
  unfold fileIds
  have h2 : d.keys.filterMap sampleIdOf ≠ [] := by
    intro he
    rw [he] at hp
    have := hp.length_eq
    simp at this
    omega
  have h1 : d ≠ [] := by
    rintro rfl
    exact h2 rfl
  rw [(raiseIf_ok (u := ())).mpr h1]
  simp only [bind, Except.bind]
  rw [(raiseIf_ok (u := ())).mpr h2]
  rfl

theorem loadSample_of {d : PredDir} {rs : List StoredResults} (h : StoresResults d rs) {i : ℕ}
    (hi : i < rs.length) : loadSample d i = .ok rs[i] := by
  unfold loadSample
  rw [sampleName_eq, get?_of_mem d h.nodup _ _ (h.stored i _ (List.getElem?_eq_getElem hi))]

/-! ## Arrays -/

theorem sampleArray_of {type : String} (ht : ByColumns type) {n : ℕ} {r : StoredResults}
    (hr : Comparable n r) {i : ℕ} (hi : i < n) : sampleArray type n r i = .ok (truthRows i r) := by
  obtain ⟨t, h1, h2, h3, h4⟩ := hr
  have hne : type ≠ "acc_p_strain" := by rcases ht with rfl | rfl <;> decide
  unfold sampleArray truthAndPrediction SeqTensor.sliceColumn truthRows
  rw [if_neg hne, h1]
  simp only [orRaise, bind, Except.bind]
  rw [(raiseIf_ok (u := ())).mpr (by omega)]
  simp only
  rw [(raiseIf_ok (u := ())).mpr (by omega)]
  simp only [pure, Except.pure]
  rw [(raiseIf_ok (u := ())).mpr (by simp [h2]), h2]
  simp only
  rw [List.zip_map']

theorem arraysStep_of {d : PredDir} {rs : List StoredResults} (h : StoresResults d rs) {fids : List ℕ}
    (hf : fids.Perm (List.range rs.length)) {type : String} (ht : ByColumns type) {n : ℕ} {id : ℕ}
    (hi : id < rs.length) (hc : Comparable n rs[id]) (A : ℕ → List (ℝ × ℝ)) :
    arraysStep d fids type n ((List.range n).map A) id
      = .ok ((List.range n).map fun i => A i ++ truthRows i rs[id]) := by
  unfold arraysStep
  rw [(raiseIf_ok (u := ())).mpr (by
    rw [not_not]
    exact hf.mem_iff.mpr (List.mem_range.mpr hi))]
  simp only [bind, Except.bind]
  rw [loadSample_of h hi]
  simp only
  rw [mapM_of_forall (g := fun i => truthRows i rs[id]) fun i hi =>
    sampleArray_of ht hc (List.mem_range.mp hi)]
  simp only [pure, Except.pure]
  rw [List.zipWith_map, List.zipWith_self]

theorem arrays_fold {d : PredDir} {rs : List StoredResults} (h : StoresResults d rs) {fids : List ℕ}
    (hf : fids.Perm (List.range rs.length)) {type : String} (ht : ByColumns type) {n : ℕ}
    (ids : List ℕ) (hi : ∀ id ∈ ids, ∃ r, rs[id]? = some r ∧ Comparable n r)
    (A : ℕ → List (ℝ × ℝ)) :
    ids.foldlM (arraysStep d fids type n) ((List.range n).map A)
      = .ok ((List.range n).map fun i => A i ++ ids.flatMap fun id =>
          ((rs[id]?).map (truthRows i)).getD []) := by
  induction ids generalizing A with
  | nil => simp [pure, Except.pure]
  | cons id ids ih =>
    obtain ⟨r, hr, hc⟩ := hi id (by simp)
    obtain ⟨hlt, hre⟩ := List.getElem?_eq_some_iff.mp hr
    rw [List.foldlM_cons, arraysStep_of h hf ht hlt (by rw [hre]; exact hc)]
    simp only [bind, Except.bind]
    rw [ih (fun k hk => hi k (by simp [hk]))]
    congr 1
    refine List.map_congr_left fun i _ => ?_
    rw [List.flatMap_cons, hr, hre]
    simp

/-- **C116 (arrays).** Of stored predictions with ground truth, array `i` holds, for each sample
requested, in that order, the ground truth and the prediction of the feature `i` at each time.  All the
samples are taken in the order in which the directory is listed. -/
theorem C116_arrays {d : PredDir} {rs : List StoredResults} (h : StoresResults d rs) (hr : rs ≠ [])
    {type : String} (ht : ByColumns type) {labels : List String} {samples : Option (List ℕ)}
    (hs : ∀ ids, samples = some ids → ∀ id ∈ ids, id < rs.length)
    (hc : ∀ r ∈ rs, Comparable labels.length r) :
    ∃ ids, (samples = some ids ∨ samples = none ∧ ids.Perm (List.range rs.length)) ∧
      predictionArrays d type labels samples
        = .ok ((List.range labels.length).map fun i => ids.flatMap fun id =>
            ((rs[id]?).map (truthRows i)).getD []) := by
  obtain ⟨fids, h1, h2⟩ := fileIds_of h hr
  have hn : nComponents type labels = .ok labels.length := by
    unfold nComponents
    rcases ht with rfl | rfl <;> simp
  have hids : ∀ id ∈ samples.getD fids, ∃ r, rs[id]? = some r ∧ Comparable labels.length r := by
    intro id hid
    have hlt : id < rs.length := by
      cases samples with
      | none => exact List.mem_range.mp (h2.mem_iff.mp hid)
      | some ids => exact hs ids rfl id hid
    exact ⟨rs[id], List.getElem?_eq_getElem hlt, hc _ (List.getElem_mem hlt)⟩
  refine ⟨samples.getD fids, ?_, ?_⟩
  · cases samples with
    | none => exact .inr ⟨rfl, h2⟩
    | some ids => exact .inl rfl
  · unfold predictionArrays
    rw [h1]
    simp only [bind, Except.bind]
    rw [hn]
    simp only
    have h0 : List.replicate labels.length ([] : List (ℝ × ℝ))
        = (List.range labels.length).map fun _ => [] := by simp
    rw [h0, arrays_fold h h2 ht _ hids]
    simp

end Hooke
