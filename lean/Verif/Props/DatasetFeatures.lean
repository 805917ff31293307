import Verif.Spec.DatasetFeatures
import Verif.Lemmas.PyDict
import Verif.Lemmas.Py
import Mathlib.Tactic.Ring
import Mathlib.Data.List.Nodup

/-!
# C45, C46: features of time series data sets
-/

namespace Hooke

/-! ## Loops over samples -/

theorem sampleLoop_ok {kind : DsKind} (hk : kind ≠ .filesSubset) {f : Feats → Py Unit × Feats}
    {g : ℕ → Feats} {slots : List ℕ} {st : FStore} (hnd : slots.Nodup)
    (hf : ∀ r ∈ slots, f (st r) = (.ok (), g r)) :
    sampleLoop kind f slots st = (.ok (), fun r => if r ∈ slots then g r else st r) := by
  induction slots generalizing st with
  | nil => simp [sampleLoop]
  | cons r rs ih =>
    have hr := hf r List.mem_cons_self
    obtain ⟨hr', hnd'⟩ := List.nodup_cons.mp hnd
    have hstep : sampleStep kind f st r = (.ok (), Function.update st r (g r)) := by
      cases kind <;> simp_all [sampleStep]
    have := ih (st := Function.update st r (g r)) hnd' (by
      intro r2 h2
      have hne : r2 ≠ r := fun e => hr' (e ▸ h2)
      rw [Function.update_of_ne hne]
      exact hf r2 (List.mem_cons_of_mem _ h2))
    simp only [sampleLoop, hstep, this, Prod.mk.injEq, true_and]
    funext r2
    by_cases h2 : r2 = r
    · subst h2; simp [hr']
    · simp [h2]

theorem sampleLoop_filesSubset (f : Feats → Py Unit × Feats) (slots : List ℕ) (st : FStore) :
    (sampleLoop .filesSubset f slots st).2 = st := by
  induction slots with
  | nil => rfl
  | cons r rs ih =>
    simp only [sampleLoop, sampleStep]
    split
    · rename_i h
      obtain ⟨-, rfl⟩ := Prod.mk.inj h
      exact ih
    · rename_i h
      obtain ⟨-, rfl⟩ := Prod.mk.inj h
      rfl

theorem probe_ok {ds : FDataset} {st : FStore} {r : ℕ} {rs : List ℕ} (hs : ds.slots = r :: rs)
    {labels : List String} (h : ∀ l ∈ labels, l ∈ (st r).keys) : probe ds st labels = .ok () := by
  induction labels with
  | nil => rfl
  | cons l ls ih =>
    have hl : (st r).has l = true := KDict.has_iff.mpr (h l List.mem_cons_self)
    simp [probe, firstHas, hs, hl, bind, Except.bind, ih fun l hl => h l (List.mem_cons_of_mem _ hl)]

theorem probe_missing {ds : FDataset} {st : FStore} {r : ℕ} {rs : List ℕ} (hs : ds.slots = r :: rs)
    {labels : List String} (h : ∃ l ∈ labels, l ∉ (st r).keys) :
    probe ds st labels = .error .runtimeError := by
  induction labels with
  | nil => simp at h
  | cons l ls ih =>
    simp only [probe, firstHas, hs, bind, Except.bind]
    by_cases hl : (st r).has l = true
    · rw [if_pos hl]
      obtain ⟨l', hl', hn⟩ := h
      rcases List.mem_cons.mp hl' with rfl | hl'
      · exact absurd (KDict.has_iff.mp hl) hn
      · exact ih ⟨l', hl', hn⟩
    · rw [if_neg hl]

theorem getAll_ok {labels : List String} {d : Feats} {v : String → FTensor}
    (h : ∀ l ∈ labels, d.get? l = some (v l)) : getAll labels d = .ok (labels.map v) := by
  induction labels with
  | nil => rfl
  | cons l ls ih =>
    have := ih fun l hl => h l (List.mem_cons_of_mem _ hl)
    simp [getAll, h l List.mem_cons_self, this, orRaise, bind, Except.bind, Except.map]

theorem popAll_ok {labels : List String} {d : Feats} (hd : d.keys.Nodup) (hnd : labels.Nodup)
    (h : ∀ l ∈ labels, l ∈ d.keys) :
    ∃ d', popAll labels d = (.ok (), d') ∧ (∀ l ∈ labels, d'.get? l = none) ∧
      ∀ l ∉ labels, d'.get? l = d.get? l := by
  induction labels generalizing d with
  | nil => exact ⟨d, rfl, by simp, by simp⟩
  | cons l ls ih =>
    obtain ⟨hl, hnd'⟩ := List.nodup_cons.mp hnd
    have hhas : d.has l = true := KDict.has_iff.mpr (h l List.mem_cons_self)
    obtain ⟨d', h1, h2, h3⟩ := ih (d := d.del l) (KDict.nodup_del hd l) hnd' (by
      intro l' hl'
      rw [KDict.keys_del]
      have hne : l' ≠ l := fun e => hl (e ▸ hl')
      exact (List.mem_erase_of_ne hne).mpr (h l' (List.mem_cons_of_mem _ hl')))
    refine ⟨d', by simp [popAll, hhas, h1], ?_, ?_⟩
    · intro l' hl'
      rcases List.mem_cons.mp hl' with rfl | hl'
      · rw [h3 _ hl, KDict.get?_del_self hd]
      · exact h2 l' hl'
    · intro l' hl'
      rw [List.mem_cons, not_or] at hl'
      rw [h3 l' hl'.2, KDict.get?_del_ne d hl'.1]

/-! ## Concatenation -/

theorem isConcat_cat {a b : FTensor} {ts : List FTensor} {n : ℕ} (ha : IsConcat a ts n)
    (hb : b.rows.length = n) : IsConcat (a.cat b) (ts ++ [b]) n := by
  obtain ⟨h1, h2, h3⟩ := ha
  refine ⟨by simp [FTensor.cat, h1, hb], by simp [FTensor.cat, h2], fun i hi => ?_⟩
  have ha' : i < a.rows.length := by omega
  have hb' : i < b.rows.length := by omega
  have hab : i < (a.rows.zipWith (· ++ ·) b.rows).length := by simp; omega
  have e : (a.cat b).row i = a.row i ++ b.row i := by
    simp only [FTensor.row, FTensor.cat, List.getD_eq_getElem?_getD, List.getElem?_eq_getElem hab,
      List.getElem?_eq_getElem ha', List.getElem?_eq_getElem hb', Option.getD_some,
      List.getElem_zipWith]
  rw [e, h3 i hi]
  simp

theorem catAll_ok {ts : List FTensor} {n : ℕ} (hne : ts ≠ []) (h : ∀ t ∈ ts, t.rows.length = n) :
    ∃ t, catAll ts = .ok t ∧ IsConcat t ts n := by
  cases ts with
  | nil => exact absurd rfl hne
  | cons t ts =>
    have ht := h t List.mem_cons_self
    refine ⟨ts.foldl FTensor.cat t, ?_, ?_⟩
    · rw [catAll, if_pos]
      intro u hu
      rw [h u (List.mem_cons_of_mem _ hu), ht]
    · have key : ∀ (us : List FTensor) (a : FTensor) (as : List FTensor), IsConcat a as n →
          (∀ u ∈ us, u.rows.length = n) → IsConcat (us.foldl FTensor.cat a) (as ++ us) n := by
        intro us
        induction us with
        | nil => intro a as ha _; simpa using ha
        | cons u us ih =>
          intro a as ha hu
          have := ih (a.cat u) (as ++ [u]) (isConcat_cat ha (hu u List.mem_cons_self))
            fun v hv => hu v (List.mem_cons_of_mem _ hv)
          simpa using this
      exact key ts t [t] ⟨ht, by simp, by simp⟩ fun u hu => h u (List.mem_cons_of_mem _ hu)

theorem concatValue_ok {labels : List String} {d : Feats} {v : String → FTensor} {n : ℕ}
    (hl : labels ≠ []) (h : ∀ l ∈ labels, d.get? l = some (v l) ∧ (v l).rows.length = n) :
    ∃ t, concatValue labels d = .ok t ∧ IsConcat t (labels.map v) n := by
  match labels, hl with
  | [l], _ =>
    obtain ⟨h1, h2⟩ := h l List.mem_cons_self
    exact ⟨v l, by simp [concatValue, h1, orRaise], h2, by simp, by simp⟩
  | l :: l' :: ls, _ =>
    obtain ⟨t, h1, h2⟩ := catAll_ok (ts := (l :: l' :: ls).map v) (n := n) (by simp) (by
      intro t ht
      obtain ⟨x, hx, rfl⟩ := List.mem_map.mp ht
      exact (h x hx).2)
    refine ⟨t, ?_, h2⟩
    rw [concatValue, getAll_ok fun x hx => (h x hx).1]
    exact h1

/-- **C45** (concatenation). On an in-memory or file data set whose samples have the given features
(with one number of rows per sample), the call succeeds and every sample has the concatenation of
the features in the given order as new feature and all other features unchanged; nothing else
changes. -/
theorem C45_concat (ds : FDataset) (st : FStore) (new : String) (labels : List String)
    (hk : ds.kind ≠ .filesSubset) (hs : ds.slots ≠ []) (hnd : ds.slots.Nodup) (hl : labels ≠ [])
    (v : ℕ → String → FTensor) (n : ℕ → ℕ)
    (hv : ∀ r ∈ ds.slots, ∀ l ∈ labels, (st r).get? l = some (v r l) ∧ (v r l).rows.length = n r) :
    ∃ st', concatFeatures ds st new labels false = (.ok (), st') ∧
      (∀ r ∈ ds.slots,
        (∃ t, (st' r).get? new = some t ∧ IsConcat t (labels.map (v r)) (n r)) ∧
        ∀ l ≠ new, (st' r).get? l = (st r).get? l) ∧
      ∀ r ∉ ds.slots, st' r = st r := by
  have hval : ∀ r, ∃ t, r ∈ ds.slots →
      concatValue labels (st r) = .ok t ∧ IsConcat t (labels.map (v r)) (n r) := by
    intro r
    by_cases hr : r ∈ ds.slots
    · obtain ⟨t, ht⟩ := concatValue_ok hl (hv r hr)
      exact ⟨t, fun _ => ht⟩
    · exact ⟨⟨0, []⟩, fun h => absurd h hr⟩
  choose t ht using hval
  obtain ⟨r0, rs, hrs⟩ := List.exists_cons_of_ne_nil hs
  have hpr : probe ds st labels = .ok () := probe_ok hrs fun l hl' =>
    KDict.mem_keys_iff.mpr ⟨_, (hv r0 (by rw [hrs]; exact List.mem_cons_self) l hl').1⟩
  have hloop := sampleLoop_ok (st := st) (f := featureBody (concatValue labels) new labels false)
    (g := fun r => (st r).put new (t r)) hk hnd (by
      intro r hr
      simp [featureBody, (ht r hr).1])
  refine ⟨_, by simp only [concatFeatures, hpr, Bool.false_and]; exact hloop, ?_, ?_⟩
  · intro r hr
    simp only [hr, if_true]
    exact ⟨⟨t r, KDict.get?_put_self _ _ _, (ht r hr).2⟩, fun l hl' => KDict.get?_put_ne _ _ hl'⟩
  · intro r hr
    simp [hr]

theorem featureBody_remove {value : Feats → Py FTensor} {new : String} {labels : List String}
    {d : Feats} {t : FTensor} (hd : d.keys.Nodup) (hnd : labels.Nodup) (ht : value d = .ok t)
    (hin : ∀ l ∈ labels, l ∈ d.keys) :
    ∃ d', featureBody value new labels true d = (.ok (), d') ∧
      (∀ l ∈ labels, d'.get? l = none) ∧ (new ∉ labels → d'.get? new = some t) ∧
      ∀ l ∉ labels, l ≠ new → d'.get? l = d.get? l := by
  obtain ⟨d', h1, h2, h3⟩ := popAll_ok (d := d.put new t) (KDict.nodup_put hd new t) hnd (by
    intro l hl
    rw [KDict.keys_put]
    split_ifs
    · exact hin l hl
    · exact List.mem_append_left _ (hin l hl))
  refine ⟨d', by simp only [featureBody, ht, if_true, h1], h2, fun hn => ?_, fun l hl hln => ?_⟩
  · rw [h3 new hn, KDict.get?_put_self]
  · rw [h3 l hl, KDict.get?_put_ne _ _ hln]

/-- **C45** (concatenation with removal). On an in-memory data set with removal of the inputs, a new
label that is not one of the inputs holds the concatenation, the inputs are gone and the other
features are unchanged.  If the new label is one of the inputs the result is removed with them. -/
theorem C45_concat_remove (ds : FDataset) (st : FStore) (new : String) (labels : List String)
    (hk : ds.kind = .inMemory) (hs : ds.slots ≠ []) (hnd : ds.slots.Nodup) (hl : labels ≠ [])
    (hlnd : labels.Nodup) (hkeys : ∀ r ∈ ds.slots, (st r).keys.Nodup)
    (v : ℕ → String → FTensor) (n : ℕ → ℕ)
    (hv : ∀ r ∈ ds.slots, ∀ l ∈ labels, (st r).get? l = some (v r l) ∧ (v r l).rows.length = n r) :
    ∃ st', concatFeatures ds st new labels true = (.ok (), st') ∧
      (∀ r ∈ ds.slots,
        (new ∉ labels → ∃ t, (st' r).get? new = some t ∧ IsConcat t (labels.map (v r)) (n r)) ∧
        (∀ l ∈ labels, (st' r).get? l = none) ∧
        ∀ l ∉ labels, l ≠ new → (st' r).get? l = (st r).get? l) ∧
      ∀ r ∉ ds.slots, st' r = st r := by
  have hval : ∀ r, ∃ d', r ∈ ds.slots → ∃ t,
      IsConcat t (labels.map (v r)) (n r) ∧
      featureBody (concatValue labels) new labels true (st r) = (.ok (), d') ∧
      (∀ l ∈ labels, d'.get? l = none) ∧ (new ∉ labels → d'.get? new = some t) ∧
      ∀ l ∉ labels, l ≠ new → d'.get? l = (st r).get? l := by
    intro r
    by_cases hr : r ∈ ds.slots
    · obtain ⟨t, ht, ht'⟩ := concatValue_ok hl (hv r hr)
      obtain ⟨d', hd'⟩ := featureBody_remove (new := new) (hkeys r hr) hlnd ht fun l hl' =>
        KDict.mem_keys_iff.mpr ⟨_, (hv r hr l hl').1⟩
      exact ⟨d', fun _ => ⟨t, ht', hd'⟩⟩
    · exact ⟨[], fun h => absurd h hr⟩
  choose g hg using hval
  obtain ⟨r0, rs, hrs⟩ := List.exists_cons_of_ne_nil hs
  have hpr : probe ds st labels = .ok () := probe_ok hrs fun l hl' =>
    KDict.mem_keys_iff.mpr ⟨_, (hv r0 (by rw [hrs]; exact List.mem_cons_self) l hl').1⟩
  have hloop := sampleLoop_ok (kind := ds.kind)
    (f := featureBody (concatValue labels) new labels true) (g := g) (by rw [hk]; decide) hnd
    fun r hr => by obtain ⟨t, -, h, -⟩ := hg r hr; exact h
  refine ⟨_, by simp only [concatFeatures, hpr, hk, Bool.true_and]; rw [hk] at hloop; exact hloop,
    ?_, ?_⟩
  · intro r hr
    obtain ⟨t, h1, -, h2, h3, h4⟩ := hg r hr
    simp only [hr, if_true]
    exact ⟨fun hn => ⟨t, h3 hn, h1⟩, h2, h4⟩
  · intro r hr
    simp [hr]

/-- **C45** is violated when the new label is one of the inputs and the inputs are to be removed:
the result is not stored in any sample. -/
theorem C45_concat_remove_collision_violated (ds : FDataset) (st : FStore) (new : String)
    (labels : List String) (hk : ds.kind = .inMemory) (hs : ds.slots ≠ []) (hnd : ds.slots.Nodup)
    (hlnd : labels.Nodup) (hnew : new ∈ labels) (hkeys : ∀ r ∈ ds.slots, (st r).keys.Nodup)
    (v : ℕ → String → FTensor) (n : ℕ → ℕ)
    (hv : ∀ r ∈ ds.slots, ∀ l ∈ labels, (st r).get? l = some (v r l) ∧ (v r l).rows.length = n r) :
    ∃ st', concatFeatures ds st new labels true = (.ok (), st') ∧
      ∀ r ∈ ds.slots, (st' r).get? new = none := by
  obtain ⟨st', h1, h2, -⟩ := C45_concat_remove ds st new labels hk hs hnd
    (List.ne_nil_of_mem hnew) hlnd hkeys v n hv
  exact ⟨st', h1, fun r hr => (h2 r hr).2.1 new hnew⟩

/-- **C45** (removal on file data sets). The request to remove the inputs is ignored. -/
theorem C45_remove_ignored_for_files (ds : FDataset) (st : FStore) (new : String)
    (labels : List String) (w : Option (PyDict ℝ)) (hk : ds.kind = .files) :
    concatFeatures ds st new labels true = concatFeatures ds st new labels false ∧
    sumFeatures ds st new labels w true = sumFeatures ds st new labels w false := by
  constructor
  · simp [concatFeatures, hk]
  · simp [sumFeatures, hk]

/-- **C45** (missing feature). A label missing in the first sample raises `RuntimeError` and changes
nothing. -/
theorem C45_missing_feature (ds : FDataset) (st : FStore) (new : String) (labels : List String)
    (w : Option (PyDict ℝ)) (remove : Bool) (r : ℕ) (rs : List ℕ) (hs : ds.slots = r :: rs)
    (h : ∃ l ∈ labels, l ∉ (st r).keys) :
    concatFeatures ds st new labels remove = (.error .runtimeError, st) ∧
    sumFeatures ds st new labels w remove = (.error .runtimeError, st) := by
  simp [concatFeatures, sumFeatures, probe_missing hs h]

/-- **C45** is violated for a `Subset` of a file data set: whatever the call, no sample changes. -/
theorem C45_subset_of_files_violated (ds : FDataset) (st : FStore) (new : String)
    (labels : List String) (w : Option (PyDict ℝ)) (remove : Bool) (init : FTensor)
    (hk : ds.kind = .filesSubset) :
    (concatFeatures ds st new labels remove).2 = st ∧
    (sumFeatures ds st new labels w remove).2 = st ∧
    (addFeatureInit ds st new init).2 = st := by
  refine ⟨?_, ?_, ?_⟩
  · unfold concatFeatures
    rw [hk]
    split
    · rfl
    · exact sampleLoop_filesSubset _ _ _
  · unfold sumFeatures
    rw [hk]
    split
    · rfl
    · split
      · rfl
      · exact sampleLoop_filesSubset _ _ _
      · exact sampleLoop_filesSubset _ _ _
  · unfold addFeatureInit
    rw [hk]
    exact sampleLoop_filesSubset _ _ _

/-! ## Weighted sum -/

theorem FTensor.Rect.row_length {t : FTensor} (h : t.Rect) {i : ℕ} (hi : i < t.rows.length) :
    (t.row i).length = t.cols := by
  rw [FTensor.row, List.getD_eq_getElem?_getD, List.getElem?_eq_getElem hi, Option.getD_some]
  exact h _ (List.getElem_mem hi)

theorem row_scale (w : ℝ) (t : FTensor) (i : ℕ) : (t.scale w).row i = (t.row i).map (w * ·) := by
  simp only [FTensor.row, FTensor.scale, List.getD_eq_getElem?_getD, List.getElem?_map]
  cases t.rows[i]? <;> simp

theorem entry_scale (w : ℝ) (t : FTensor) (i j : ℕ) : (t.scale w).entry i j = w * t.entry i j := by
  rw [FTensor.entry, row_scale, FTensor.entry]
  simp only [List.getD_eq_getElem?_getD, List.getElem?_map]
  cases (t.row i)[j]? <;> simp

theorem isSum_scale (w : ℝ) {t : FTensor} (h : t.Rect) :
    IsWeightedSum (t.scale w) [(w, t)] t.rows.length t.cols := by
  refine ⟨by simp [FTensor.scale], rfl, fun i hi => ?_, fun i _ j _ => by simp [entry_scale]⟩
  rw [row_scale, List.length_map, h.row_length hi]

theorem isSum_add {a b : FTensor} {n m : ℕ} {ws ws' : List (ℝ × FTensor)} (ha : IsWeightedSum a ws n m)
    (hb : IsWeightedSum b ws' n m) : IsWeightedSum (a.add b) (ws ++ ws') n m := by
  obtain ⟨a1, a2, a3, a4⟩ := ha
  obtain ⟨b1, b2, b3, b4⟩ := hb
  have hrow : ∀ i < n, (a.add b).row i = (a.row i).zipWith (· + ·) (b.row i) := by
    intro i hi
    have ha' : i < a.rows.length := by omega
    have hb' : i < b.rows.length := by omega
    have hab : i < (a.rows.zipWith (fun r s => r.zipWith (· + ·) s) b.rows).length := by simp; omega
    simp only [FTensor.row, FTensor.add, List.getD_eq_getElem?_getD, List.getElem?_eq_getElem hab,
      List.getElem?_eq_getElem ha', List.getElem?_eq_getElem hb', Option.getD_some,
      List.getElem_zipWith]
  refine ⟨by simp [FTensor.add, a1, b1], a2, fun i hi => ?_, fun i hi j hj => ?_⟩
  · rw [hrow i hi, List.length_zipWith, a3 i hi, b3 i hi, min_self]
  · have ha' : j < (a.row i).length := by rw [a3 i hi]; exact hj
    have hb' : j < (b.row i).length := by rw [b3 i hi]; exact hj
    have hab : j < ((a.row i).zipWith (· + ·) (b.row i)).length := by simp; omega
    have e : (a.add b).entry i j = a.entry i j + b.entry i j := by
      simp only [FTensor.entry, hrow i hi, List.getD_eq_getElem?_getD, List.getElem?_eq_getElem hab,
        List.getElem?_eq_getElem ha', List.getElem?_eq_getElem hb', Option.getD_some,
        List.getElem_zipWith]
    rw [e, a4 i hi j hj, b4 i hi j hj]
    simp

theorem sumValue_ok {weights : PyDict ℝ} {labels : List String} {d : Feats} {v : String → FTensor}
    {n m : ℕ} (hl : labels ≠ [])
    (h : ∀ l ∈ labels, d.get? l = some (v l) ∧ (v l).Rect ∧ (v l).rows.length = n ∧
      (v l).cols = m) :
    ∃ t, sumValue weights labels d = .ok t ∧
      IsWeightedSum t (labels.map fun l => (weightOf weights l, v l)) n m := by
  match labels, hl with
  | [l], _ =>
    obtain ⟨h1, h2, h3, h4⟩ := h l List.mem_cons_self
    refine ⟨(v l).scale (weightOf weights l), by simp [sumValue, h1, orRaise, Except.map], ?_⟩
    rw [← h3, ← h4]
    exact isSum_scale _ h2
  | l :: l' :: ls, _ =>
    have hz : ((l :: l' :: ls).map (weightOf weights)).zipWith FTensor.scale ((l :: l' :: ls).map v)
        = (l :: l' :: ls).map fun x => (v x).scale (weightOf weights x) := by
      generalize (l :: l' :: ls) = k
      induction k with
      | nil => rfl
      | cons x k ih => simp [ih]
    have key : ∀ (us : List String) (a : FTensor) (as : List (ℝ × FTensor)), IsWeightedSum a as n m →
        (∀ u ∈ us, (v u).Rect ∧ (v u).rows.length = n ∧ (v u).cols = m) →
        IsWeightedSum ((us.map fun x => (v x).scale (weightOf weights x)).foldl FTensor.add a)
          (as ++ us.map fun x => (weightOf weights x, v x)) n m := by
      intro us
      induction us with
      | nil => intro a as ha _; simpa using ha
      | cons u us ih =>
        intro a as ha hu
        obtain ⟨u1, u2, u3⟩ := hu u List.mem_cons_self
        have hu' := isSum_scale (weightOf weights u) u1
        rw [u2, u3] at hu'
        have := ih (a.add ((v u).scale (weightOf weights u))) _ (isSum_add ha hu')
          fun x hx => hu x (List.mem_cons_of_mem _ hx)
        simpa using this
    obtain ⟨-, h2, h3, h4⟩ := h l List.mem_cons_self
    have h0 := isSum_scale (weightOf weights l) h2
    rw [h3, h4] at h0
    refine ⟨((l' :: ls).map fun x => (v x).scale (weightOf weights x)).foldl FTensor.add
      ((v l).scale (weightOf weights l)), ?_, key (l' :: ls) _ _ h0 fun u hu =>
        (h u (List.mem_cons_of_mem _ hu)).2⟩
    rw [sumValue, getAll_ok fun x hx => (h x hx).1]
    simp only [bind, Except.bind]
    rw [hz]
    show sumAll (((v l).scale (weightOf weights l)) ::
      (l' :: ls).map fun x => (v x).scale (weightOf weights x)) = _
    rw [sumAll, if_pos]
    intro u hu
    obtain ⟨x, hx, rfl⟩ := List.mem_map.mp hu
    obtain ⟨-, -, x3, x4⟩ := h x (List.mem_cons_of_mem _ hx)
    simp [FTensor.scale, x3, x4, h3, h4]

/-- **C45** (weighted sum). With given weights (one for labels without weight) every sample gets the
weighted sum as new feature; all other features are unchanged; nothing else changes. -/
theorem C45_sum (ds : FDataset) (st : FStore) (new : String) (labels : List String)
    (weights : PyDict ℝ) (hk : ds.kind ≠ .filesSubset) (hs : ds.slots ≠ []) (hnd : ds.slots.Nodup)
    (hl : labels ≠ []) (v : ℕ → String → FTensor) (n m : ℕ → ℕ)
    (hv : ∀ r ∈ ds.slots, ∀ l ∈ labels, (st r).get? l = some (v r l) ∧ (v r l).Rect ∧
      (v r l).rows.length = n r ∧ (v r l).cols = m r) :
    ∃ st', sumFeatures ds st new labels (some weights) false = (.ok (), st') ∧
      (∀ r ∈ ds.slots,
        (∃ t, (st' r).get? new = some t ∧ IsWeightedSum t
          (labels.map fun l => ((weights.get? l).getD 1, v r l)) (n r) (m r)) ∧
        ∀ l ≠ new, (st' r).get? l = (st r).get? l) ∧
      ∀ r ∉ ds.slots, st' r = st r := by
  have hval : ∀ r, ∃ t, r ∈ ds.slots → sumValue weights labels (st r) = .ok t ∧
      IsWeightedSum t (labels.map fun l => ((weights.get? l).getD 1, v r l)) (n r) (m r) := by
    intro r
    by_cases hr : r ∈ ds.slots
    · obtain ⟨t, ht⟩ := sumValue_ok (weights := weights) hl (hv r hr)
      exact ⟨t, fun _ => ht⟩
    · exact ⟨⟨0, []⟩, fun h => absurd h hr⟩
  choose t ht using hval
  obtain ⟨r0, rs, hrs⟩ := List.exists_cons_of_ne_nil hs
  have hpr : probe ds st labels = .ok () := probe_ok hrs fun l hl' =>
    KDict.mem_keys_iff.mpr ⟨_, (hv r0 (by rw [hrs]; exact List.mem_cons_self) l hl').1⟩
  have hloop := sampleLoop_ok (st := st) (f := featureBody (sumValue weights labels) new labels false)
    (g := fun r => (st r).put new (t r)) hk hnd (by
      intro r hr
      simp [featureBody, (ht r hr).1])
  refine ⟨_, by simp only [sumFeatures, hpr, Bool.false_and]; exact hloop, ?_, ?_⟩
  · intro r hr
    simp only [hr, if_true]
    exact ⟨⟨t r, KDict.get?_put_self _ _ _, (ht r hr).2⟩, fun l hl' => KDict.get?_put_ne _ _ hl'⟩
  · intro r hr
    simp [hr]

/-- **C45** (weighted sum with removal, in memory). -/
theorem C45_sum_remove (ds : FDataset) (st : FStore) (new : String) (labels : List String)
    (weights : PyDict ℝ) (hk : ds.kind = .inMemory) (hs : ds.slots ≠ []) (hnd : ds.slots.Nodup)
    (hl : labels ≠ []) (hlnd : labels.Nodup) (hkeys : ∀ r ∈ ds.slots, (st r).keys.Nodup)
    (v : ℕ → String → FTensor) (n m : ℕ → ℕ)
    (hv : ∀ r ∈ ds.slots, ∀ l ∈ labels, (st r).get? l = some (v r l) ∧ (v r l).Rect ∧
      (v r l).rows.length = n r ∧ (v r l).cols = m r) :
    ∃ st', sumFeatures ds st new labels (some weights) true = (.ok (), st') ∧
      (∀ r ∈ ds.slots,
        (new ∉ labels → ∃ t, (st' r).get? new = some t ∧ IsWeightedSum t
          (labels.map fun l => ((weights.get? l).getD 1, v r l)) (n r) (m r)) ∧
        (∀ l ∈ labels, (st' r).get? l = none) ∧
        ∀ l ∉ labels, l ≠ new → (st' r).get? l = (st r).get? l) ∧
      ∀ r ∉ ds.slots, st' r = st r := by
  have hval : ∀ r, ∃ d', r ∈ ds.slots → ∃ t,
      IsWeightedSum t (labels.map fun l => ((weights.get? l).getD 1, v r l)) (n r) (m r) ∧
      featureBody (sumValue weights labels) new labels true (st r) = (.ok (), d') ∧
      (∀ l ∈ labels, d'.get? l = none) ∧ (new ∉ labels → d'.get? new = some t) ∧
      ∀ l ∉ labels, l ≠ new → d'.get? l = (st r).get? l := by
    intro r
    by_cases hr : r ∈ ds.slots
    · obtain ⟨t, ht, ht'⟩ := sumValue_ok (weights := weights) hl (hv r hr)
      obtain ⟨d', hd'⟩ := featureBody_remove (new := new) (hkeys r hr) hlnd ht fun l hl' =>
        KDict.mem_keys_iff.mpr ⟨_, (hv r hr l hl').1⟩
      exact ⟨d', fun _ => ⟨t, ht', hd'⟩⟩
    · exact ⟨[], fun h => absurd h hr⟩
  choose g hg using hval
  obtain ⟨r0, rs, hrs⟩ := List.exists_cons_of_ne_nil hs
  have hpr : probe ds st labels = .ok () := probe_ok hrs fun l hl' =>
    KDict.mem_keys_iff.mpr ⟨_, (hv r0 (by rw [hrs]; exact List.mem_cons_self) l hl').1⟩
  have hloop := sampleLoop_ok (kind := ds.kind)
    (f := featureBody (sumValue weights labels) new labels true) (g := g) (by rw [hk]; decide) hnd
    fun r hr => by obtain ⟨t, -, h, -⟩ := hg r hr; exact h
  refine ⟨_, by simp only [sumFeatures, hpr, hk, Bool.true_and]; rw [hk] at hloop; exact hloop,
    ?_, ?_⟩
  · intro r hr
    obtain ⟨t, h1, -, h2, h3, h4⟩ := hg r hr
    simp only [hr, if_true]
    exact ⟨fun hn => ⟨t, h3 hn, h1⟩, h2, h4⟩
  · intro r hr
    simp [hr]

/-- **C45** is violated by the documented default of `sum_dataset_features`: without weights the call
raises on every data set whose first sample has the features, and nothing is summed. -/
theorem C45_sum_default_violated (ds : FDataset) (st : FStore) (new : String) (labels : List String)
    (remove : Bool) (r : ℕ) (rs : List ℕ) (hs : ds.slots = r :: rs) (hl : labels ≠ [])
    (h : ∀ l ∈ labels, l ∈ (st r).keys) :
    sumFeatures ds st new labels none remove = (.error .attributeError, st) := by
  obtain ⟨l, ls, rfl⟩ := List.exists_cons_of_ne_nil hl
  simp [sumFeatures, probe_ok hs h]

/-- **C45** (initialisation). `add_dataset_feature_init` stores the tensor in every sample and leaves
the other features. -/
theorem C45_feature_init (ds : FDataset) (st : FStore) (label : String) (init : FTensor)
    (hk : ds.kind ≠ .filesSubset) (hnd : ds.slots.Nodup) :
    ∃ st', addFeatureInit ds st label init = (.ok (), st') ∧
      (∀ r ∈ ds.slots, (st' r).get? label = some init ∧
        ∀ l ≠ label, (st' r).get? l = (st r).get? l) ∧
      ∀ r ∉ ds.slots, st' r = st r := by
  have hloop := sampleLoop_ok (st := st) (f := fun d : Feats => (.ok (), d.put label init))
    (g := fun r => (st r).put label init) hk hnd (fun _ _ => rfl)
  refine ⟨_, hloop, fun r hr => ?_, fun r hr => by simp [hr]⟩
  simp only [hr, if_true]
  exact ⟨KDict.get?_put_self _ _ _, fun l hl => KDict.get?_put_ne _ _ hl⟩

/-- Two in-memory samples with features `a` (two columns) and `b` (one column). -/
noncomputable def sampleStore : FStore := fun r =>
  [("a", ⟨2, [[1, 2], [3, 4 + r]]⟩), ("b", ⟨1, [[5], [6]]⟩)]

/-- The concatenation of the second sample. -/
example : ∃ st', concatFeatures ⟨.inMemory, [0, 1]⟩ sampleStore "c" ["b", "a"] false = (.ok (), st') ∧
    (st' 1).get? "c" = some ⟨3, [[5, 1, 2], [6, 3, 4 + 1]]⟩ := by
  refine ⟨_, rfl, ?_⟩
  simp [sampleStep, sampleStore, featureBody, concatValue, getAll, KDict.get?, KDict.put,
    orRaise, bind, Except.bind, Except.map, catAll, FTensor.cat, Function.update]

/-! ## C46 -/

theorem renameLoop_files {old new : String} {slots : List ℕ} {st : FStore} (hnd : slots.Nodup)
    (v : ℕ → FTensor) (h : ∀ r ∈ slots, (st r).get? old = some (v r)) :
    renameLoop .files old new slots st
      = (.ok (), fun r => if r ∈ slots then ((st r).del old).put new (v r) else st r) := by
  induction slots generalizing st with
  | nil => simp [renameLoop]
  | cons r rs ih =>
    have hr := h r List.mem_cons_self
    obtain ⟨hr', hnd'⟩ := List.nodup_cons.mp hnd
    have hstep : sampleStep .files (renameOne old new) st r
        = (.ok (), Function.update st r (((st r).del old).put new (v r))) := by
      simp [sampleStep, renameOne, hr]
    have := ih (st := Function.update st r (((st r).del old).put new (v r))) hnd' (by
      intro r2 h2
      have hne : r2 ≠ r := fun e => hr' (e ▸ h2)
      rw [Function.update_of_ne hne]
      exact h r2 (List.mem_cons_of_mem _ h2))
    simp only [renameLoop, hstep, this, Prod.mk.injEq, true_and, if_true]
    funext r2
    by_cases h2 : r2 = r
    · subst h2; simp [hr']
    · by_cases h3 : r2 ∈ rs
      · simp [h2, h3]
      · simp [h2, h3]

/-- **C46** (renaming). On a file data set whose samples have the same features, a label map with
distinct old labels and distinct new labels, where no new label is a feature or an old label,
renames every feature of the map and leaves the others; old labels that are not features are
ignored. -/
theorem C46_rename (ds : FDataset) (hk : ds.kind = .files) (hs : ds.slots ≠ [])
    (hnd : ds.slots.Nodup) (map : List (String × String)) (hold : (map.map Prod.fst).Nodup)
    (hnew : (map.map Prod.snd).Nodup) (st : FStore)
    (hkeys : ∀ r ∈ ds.slots, (st r).keys.Nodup)
    (hsame : ∀ r ∈ ds.slots, ∀ r' ∈ ds.slots, ∀ l, l ∈ (st r).keys → l ∈ (st r').keys)
    (hfresh : ∀ p ∈ map, p.2 ∉ map.map Prod.fst ∧ ∀ r ∈ ds.slots, p.2 ∉ (st r).keys) :
    ∃ st', changeLabels ds map st = (.ok (), st') ∧
      (∀ r ∈ ds.slots,
        (∀ p ∈ map, (st' r).get? p.2 = (st r).get? p.1 ∧ (st' r).get? p.1 = none) ∧
        ∀ l, l ∉ map.map Prod.fst → l ∉ map.map Prod.snd → (st' r).get? l = (st r).get? l) ∧
      ∀ r ∉ ds.slots, st' r = st r := by
  induction map generalizing st with
  | nil => exact ⟨st, rfl, fun r _ => ⟨by simp, by simp⟩, fun _ _ => rfl⟩
  | cons p rest ih =>
    obtain ⟨o, nw⟩ := p
    simp only [List.map_cons, List.nodup_cons] at hold hnew
    have hfr := hfresh (o, nw) List.mem_cons_self
    simp only [List.map_cons, List.mem_cons, not_or] at hfr
    have hrest : ∀ p ∈ rest, p.2 ∉ rest.map Prod.fst ∧ p.2 ≠ o ∧ p.2 ≠ nw ∧
        ∀ r ∈ ds.slots, p.2 ∉ (st r).keys := by
      intro p hp
      have h1 := hfresh p (List.mem_cons_of_mem _ hp)
      simp only [List.map_cons, List.mem_cons, not_or] at h1
      exact ⟨h1.1.2, h1.1.1, fun e => hnew.1 (e ▸ List.mem_map_of_mem hp), h1.2⟩
    obtain ⟨r0, rs, hrs⟩ := List.exists_cons_of_ne_nil hs
    have hr0 : r0 ∈ ds.slots := by rw [hrs]; exact List.mem_cons_self
    by_cases ho : o ∈ (st r0).keys
    · -- the feature exists
      have hall : ∀ r, ∃ t, r ∈ ds.slots → (st r).get? o = some t := by
        intro r
        by_cases hr : r ∈ ds.slots
        · obtain ⟨t, ht⟩ := KDict.mem_keys_iff.mp (hsame r0 hr0 r hr o ho)
          exact ⟨t, fun _ => ht⟩
        · exact ⟨⟨0, []⟩, fun h => absurd h hr⟩
      choose v hv using hall
      have hloop := renameLoop_files (old := o) (new := nw) hnd v hv
      set st1 : FStore := fun r => if r ∈ ds.slots then ((st r).del o).put nw (v r) else st r
        with hst1
      have hst1r : ∀ r ∈ ds.slots, st1 r = ((st r).del o).put nw (v r) := by
        intro r hr; simp [hst1, hr]
      have hget : ∀ r ∈ ds.slots, ∀ l, (st1 r).get? l
          = if l = nw then (st r).get? o else if l = o then none else (st r).get? l := by
        intro r hr l
        rw [hst1r r hr, KDict.get?_put, KDict.get?_del (hkeys r hr), hv r hr]
      have hmem : ∀ r ∈ ds.slots, ∀ l, l ∈ (st1 r).keys ↔ l = nw ∨ (l ≠ o ∧ l ∈ (st r).keys) := by
        intro r hr l
        rw [KDict.mem_keys_iff, hget r hr, KDict.mem_keys_iff]
        by_cases h1 : l = nw
        · simp [h1, hv r hr]
        · by_cases h2 : l = o
          · simp [h2, show o ≠ nw from fun e => h1 (h2.trans e)]
          · simp [h1, h2]
      obtain ⟨st', h1, h2, h3⟩ := ih hold.2 hnew.2 st1
        (by
          intro r hr
          rw [hst1r r hr]
          exact KDict.nodup_put (KDict.nodup_del (hkeys r hr) o) nw _)
        (by
          intro r hr r' hr' l hl
          rw [hmem r hr] at hl
          rw [hmem r' hr']
          exact hl.imp id fun h => ⟨h.1, hsame r hr r' hr' l h.2⟩)
        (by
          intro p hp
          obtain ⟨q1, q2, q3, q4⟩ := hrest p hp
          refine ⟨q1, fun r hr hm => ?_⟩
          rcases (hmem r hr _).mp hm with h | h
          · exact q3 h
          · exact q4 r hr h.2)
      refine ⟨st', ?_, ?_, ?_⟩
      · have hfh : firstHas ds st o = .ok true := by
          simp [firstHas, hrs, KDict.has_iff.mpr ho]
        rw [changeLabels, hfh, hk]
        simp only
        rw [hloop]
        exact h1
      · intro r hr
        obtain ⟨h2a, h2b⟩ := h2 r hr
        constructor
        · intro p hp
          rcases List.mem_cons.mp hp with rfl | hp
          · refine ⟨?_, ?_⟩
            · rw [h2b nw hfr.1.2 hnew.1, hget r hr]
              simp
            · have : o ∉ rest.map Prod.snd := by
                intro hm
                obtain ⟨q, hq, hqo⟩ := List.mem_map.mp hm
                exact (hrest q hq).2.1 hqo
              rw [h2b o hold.1 this, hget r hr, if_neg (fun e => hfr.1.1 e.symm), if_pos rfl]
          · obtain ⟨h2c, h2d⟩ := h2a p hp
            refine ⟨?_, h2d⟩
            rw [h2c, hget r hr, if_neg, if_neg]
            · intro e; exact hold.1 (e ▸ List.mem_map_of_mem hp)
            · intro e; exact hfr.1.2 (e ▸ List.mem_map_of_mem hp)
        · intro l hl1 hl2
          simp only [List.map_cons, List.mem_cons, not_or] at hl1 hl2
          rw [h2b l hl1.2 hl2.2, hget r hr, if_neg hl2.1, if_neg hl1.1]
      · intro r hr
        rw [h3 r hr]
        simp [hst1, hr]
    · -- the feature does not exist
      have hno : ∀ r ∈ ds.slots, o ∉ (st r).keys := fun r hr hm => ho (hsame r hr r0 hr0 o hm)
      obtain ⟨st', h1, h2, h3⟩ := ih hold.2 hnew.2 st hkeys hsame
        fun p hp => ⟨(hrest p hp).1, (hrest p hp).2.2.2⟩
      refine ⟨st', ?_, ?_, h3⟩
      · have hfh : firstHas ds st o = .ok false := by
          have : (st r0).has o = false := by
            rw [← Bool.not_eq_true, KDict.has_iff]; exact ho
          simp [firstHas, hrs, this]
        rw [changeLabels, hfh]
        exact h1
      · intro r hr
        obtain ⟨h2a, h2b⟩ := h2 r hr
        constructor
        · intro p hp
          rcases List.mem_cons.mp hp with rfl | hp
          · have : o ∉ rest.map Prod.snd := by
              intro hm
              obtain ⟨q, hq, hqo⟩ := List.mem_map.mp hm
              exact (hrest q hq).2.1 hqo
            rw [h2b nw hfr.1.2 hnew.1, h2b o hold.1 this, KDict.get?_eq_none.mpr (hno r hr),
              KDict.get?_eq_none.mpr (hfr.2 r hr)]
            exact ⟨rfl, rfl⟩
          · exact h2a p hp
        · intro l hl1 hl2
          simp only [List.map_cons, List.mem_cons, not_or] at hl1 hl2
          exact h2b l hl1.2 hl2.2

/-- **C46** is violated by swapping two labels: on every file data set whose samples have both, the
second feature is lost and the first keeps its label. -/
theorem C46_swap_violated (ds : FDataset) (hk : ds.kind = .files) (hs : ds.slots ≠ [])
    (hnd : ds.slots.Nodup) (a b : String) (hab : a ≠ b) (st : FStore)
    (hkeys : ∀ r ∈ ds.slots, (st r).keys.Nodup)
    (ha : ∀ r ∈ ds.slots, a ∈ (st r).keys) (hb : ∀ r ∈ ds.slots, b ∈ (st r).keys) :
    ∃ st', changeLabels ds [(a, b), (b, a)] st = (.ok (), st') ∧
      ∀ r ∈ ds.slots, (st' r).get? a = (st r).get? a ∧ (st' r).get? b = none := by
  obtain ⟨r0, rs, hrs⟩ := List.exists_cons_of_ne_nil hs
  have hr0 : r0 ∈ ds.slots := by rw [hrs]; exact List.mem_cons_self
  have hall : ∀ r, ∃ t, r ∈ ds.slots → (st r).get? a = some t := by
    intro r
    by_cases hr : r ∈ ds.slots
    · obtain ⟨t, ht⟩ := KDict.mem_keys_iff.mp (ha r hr)
      exact ⟨t, fun _ => ht⟩
    · exact ⟨⟨0, []⟩, fun h => absurd h hr⟩
  choose v hv using hall
  have hloop := renameLoop_files (old := a) (new := b) hnd v hv
  set st1 : FStore := fun r => if r ∈ ds.slots then ((st r).del a).put b (v r) else st r with hst1
  have hst1r : ∀ r ∈ ds.slots, st1 r = ((st r).del a).put b (v r) := by
    intro r hr; simp [hst1, hr]
  have hnd1 : ∀ r ∈ ds.slots, (st1 r).keys.Nodup := by
    intro r hr
    rw [hst1r r hr]
    exact KDict.nodup_put (KDict.nodup_del (hkeys r hr) a) b _
  have hv1 : ∀ r ∈ ds.slots, (st1 r).get? b = some (v r) := by
    intro r hr
    rw [hst1r r hr, KDict.get?_put_self]
  have hloop1 := renameLoop_files (old := b) (new := a) hnd v hv1
  refine ⟨fun r => if r ∈ ds.slots then ((st1 r).del b).put a (v r) else st1 r, ?_, ?_⟩
  · have hfh : firstHas ds st a = .ok true := by
      simp [firstHas, hrs, KDict.has_iff.mpr (ha r0 hr0)]
    have hfh1 : firstHas ds st1 b = .ok true := by
      have : (st1 r0).has b = true := KDict.has_iff.mpr (KDict.mem_keys_iff.mpr ⟨_, hv1 r0 hr0⟩)
      simp [firstHas, hrs, this]
    rw [changeLabels, hfh, hk]
    simp only
    rw [hloop]
    simp only
    rw [changeLabels, hfh1, hk]
    simp only
    rw [hloop1]
    rfl
  · intro r hr
    simp only [hr, if_true]
    rw [KDict.get?_put_self, KDict.get?_put_ne _ _ (fun e => hab e.symm),
      KDict.get?_del_self (hnd1 r hr), hv r hr]
    exact ⟨rfl, rfl⟩

/-- **C46** is violated on data sets that are not file data sets: as soon as a feature is to be
renamed the call raises `TypeError`; an in-memory data set is left with the first sample renamed
and the others not. -/
theorem C46_in_memory_violated (ds : FDataset) (r : ℕ) (rs : List ℕ) (hs : ds.slots = r :: rs)
    (hk : ds.kind ≠ .files) (old new : String) (rest : List (String × String)) (st : FStore)
    (t : FTensor) (ht : (st r).get? old = some t) :
    (changeLabels ds ((old, new) :: rest) st).1 = .error .typeError ∧
    (ds.kind = .inMemory → (changeLabels ds ((old, new) :: rest) st).2
      = Function.update st r (((st r).del old).put new t)) ∧
    (ds.kind = .filesSubset → (changeLabels ds ((old, new) :: rest) st).2 = st) := by
  have hfh : firstHas ds st old = .ok true := by
    simp [firstHas, hs, KDict.has, ht]
  cases hkd : ds.kind with
  | files => exact absurd hkd hk
  | inMemory =>
    simp [changeLabels, hfh, hkd, hs, renameLoop, sampleStep, renameOne, ht]
  | filesSubset =>
    simp [changeLabels, hfh, hkd, hs, renameLoop, sampleStep, renameOne, ht]

/-- A rename meeting the hypotheses of `C46_rename`. -/
example : ∃ st', changeLabels ⟨.files, [0, 1]⟩ [("a", "x"), ("missing", "y")] sampleStore
    = (.ok (), st') ∧ (st' 1).get? "x" = some ⟨2, [[1, 2], [3, 4 + (1 : ℕ)]]⟩ ∧
      (st' 1).get? "a" = none := by
  obtain ⟨st', h1, h2, -⟩ := C46_rename ⟨.files, [0, 1]⟩ rfl (by simp) (by simp)
    [("a", "x"), ("missing", "y")] (by simp) (by simp) sampleStore
    (by intro r _; simp [sampleStore, KDict.keys])
    (by intro r _ r' _ l; simp [sampleStore, KDict.keys])
    (by intro p hp
        simp only [List.mem_cons, List.not_mem_nil, or_false] at hp
        rcases hp with rfl | rfl <;> simp [sampleStore, KDict.keys])
  have h3 := (h2 1 (by simp)).1 ("a", "x") (by simp)
  exact ⟨st', h1, by rw [h3.1]; simp [sampleStore, KDict.get?], h3.2⟩

end Hooke
