import Verif.Spec.TimeSeriesBatch
import Verif.Lemmas.PyDict
import Verif.Lemmas.StrainPath
import Verif.Props.LearnableParameters
import Mathlib.Tactic.Linarith
import Mathlib.Tactic.NormNum

/-!
# C66: batches of time series, prediction metrics
-/

namespace Hooke

open Spec

noncomputable section

/-- One batched feature: the body of the loop. -/
def collateOne (batch : List (PyDict FeatVal)) (k : String) : Py Tensor := do
  let ts ← batch.mapM fun x => stackItem x k
  stack1 ts

instance : Inhabited Tensor := ⟨⟨[], fun _ => 0⟩⟩

theorem mem_of_get? {K β : Type} [DecidableEq K] {d : KDict K β} {k : K} {v : β}
    (h : d.get? k = some v) : (k, v) ∈ d := by
  induction d with
  | nil => simp [KDict.get?] at h
  | cons p d ih =>
    obtain ⟨k', v'⟩ := p
    simp only [KDict.get?] at h
    split at h
    · next e => simp at h; subst h; subst e; simp
    · exact List.mem_cons_of_mem _ (ih h)

theorem stackItem_ok {x : PyDict FeatVal} {k : String} {t : Tensor} :
    stackItem x k = .ok t ↔ x.get? k = some (.tensor t) := by
  unfold stackItem
  cases h : x.get? k with
  | none => simp [orRaise, bind, Except.bind]
  | some v =>
    cases v <;> simp [orRaise, bind, Except.bind]

theorem mapM_ok_of_forall₂ {α β : Type} {f : α → Py β} {l : List α} {r : List β}
    (h : List.Forall₂ (fun x y => f x = .ok y) l r) : l.mapM f = .ok r := by
  induction h with
  | nil => rfl
  | cons h1 _ ih => rw [List.mapM_cons, h1, ih]; rfl

theorem forall₂_iff_get {α β : Type} {R : α → β → Prop} {l : List α} {r : List β} :
    List.Forall₂ R l r ↔ l.length = r.length ∧ ∀ (i : ℕ) a b, l[i]? = some a → r[i]? = some b → R a b := by
  constructor
  · intro h
    induction h with
    | nil => simp
    | cons h1 _ ih =>
      refine ⟨by simp [ih.1], fun i a b ha hb => ?_⟩
      cases i with
      | zero => simp at ha hb; subst ha; subst hb; exact h1
      | succ i => exact ih.2 i a b (by simpa using ha) (by simpa using hb)
  · rintro ⟨hl, h⟩
    induction l generalizing r with
    | nil => cases r with
      | nil => exact .nil
      | cons => simp at hl
    | cons a l ih => cases r with
      | nil => simp at hl
      | cons b r =>
        refine .cons (h 0 a b rfl rfl) (ih (by simpa using hl) fun i x y hx hy => ?_)
        exact h (i + 1) x y (by simpa using hx) (by simpa using hy)

theorem fold_collate (batch : List (PyDict FeatVal)) (l : PyDict FeatVal) (acc out : PyDict Tensor)
    (hn : l.keys.Nodup) (hd : ∀ k ∈ l.keys, k ∉ acc.keys) :
    l.foldlM (fun out item =>
      if item.2.isBatchable then do
        let ts ← batch.mapM fun x => stackItem x item.1
        let t ← stack1 ts
        .ok (out.put item.1 t)
      else .ok out) acc = .ok out ↔
    ∃ r, List.Forall₂ (fun (item : String × FeatVal) (p : String × Tensor) =>
      p.1 = item.1 ∧ collateOne batch item.1 = .ok p.2)
      (l.filter fun item => item.2.isBatchable) r ∧ out = acc ++ r := by
  induction l generalizing acc with
  | nil =>
    simp only [List.foldlM_nil, pure, Except.pure, Except.ok.injEq, List.filter_nil,
      List.forall₂_nil_left_iff, exists_eq_left, List.append_nil]
    exact eq_comm
  | cons item l ih =>
    simp only [KDict.keys, List.map_cons, List.nodup_cons] at hn
    rw [List.foldlM_cons]
    by_cases hb : item.2.isBatchable = true
    · rw [if_pos hb, List.filter_cons_of_pos (p := fun item : String × FeatVal => item.2.isBatchable) hb]
      have hput : ∀ t, acc.put item.1 t = acc ++ [(item.1, t)] := fun t =>
        put_of_notMem _ _ _ (hd _ (by simp [KDict.keys]))
      have step : ∀ t, _ := fun t => ih (acc ++ [(item.1, t)]) hn.2 (fun k hk => by
        have h1 : k ∉ acc.keys := hd k (by simp only [KDict.keys, List.map_cons, List.mem_cons]; exact Or.inr hk)
        have h2 : k ≠ item.1 := fun e => hn.1 (e ▸ hk)
        simp only [KDict.keys, List.map_append, List.mem_append, List.map_cons, List.map_nil,
          List.mem_singleton, not_or]
        exact ⟨h1, h2⟩)
      constructor
      · intro h
        obtain ⟨acc', h1, h2⟩ := bind_ok h
        obtain ⟨ts, h3, h4⟩ := bind_ok h1
        obtain ⟨t, h5, h6⟩ := bind_ok h4
        simp only [Except.ok.injEq] at h6
        subst h6
        rw [hput] at h2
        obtain ⟨r, hr, rfl⟩ := (step t).1 h2
        refine ⟨(item.1, t) :: r, .cons ⟨rfl, ?_⟩ hr, by simp⟩
        simp only [collateOne, h3, bind, Except.bind]
        exact h5
      · rintro ⟨r, hr, rfl⟩
        cases hr with
        | @cons _ p _ r h1 hr =>
          obtain ⟨k, t⟩ := p
          obtain ⟨rfl, h1⟩ := h1
          obtain ⟨ts, h3, h5⟩ := bind_ok h1
          dsimp only at h5
          simp only [h3, h5, bind, Except.bind]
          rw [hput]
          exact (step t).2 ⟨r, hr, by simp⟩
    · rw [if_neg hb, List.filter_cons_of_neg (p := fun item : String × FeatVal => item.2.isBatchable) hb]
      exact ih acc hn.2 fun k hk => hd k (by simp only [KDict.keys, List.map_cons, List.mem_cons]; exact Or.inr hk)

theorem stack1_ok {ts : List Tensor} {t v : Tensor} (h0 : ts[0]? = some t) :
    stack1 ts = .ok v ↔ (∀ u ∈ ts, u.shape = t.shape) ∧
      v = ⟨t.shape.insertIdx 1 ts.length, fun idx =>
        (ts[idx.getD 1 0]?.getD t).val (idx.eraseIdx 1)⟩ := by
  cases ts with
  | nil => simp at h0
  | cons u rest =>
    simp only [List.length_cons, List.getElem?_cons_zero, Option.some.injEq] at h0
    subst h0
    unfold stack1
    dsimp only
    split
    · next h =>
      simp only [Except.ok.injEq, List.length_cons]
      constructor
      · rintro rfl
        exact ⟨by simpa using h, rfl⟩
      · rintro ⟨-, rfl⟩
        rfl
    · next h =>
      simp only [reduceCtorEq, false_iff, not_and]
      intro h2
      exact absurd (fun u hu => h2 u (by simp [hu])) h

theorem collateOne_ok {batch : List (PyDict FeatVal)} {first : PyDict FeatVal} {k : String}
    {t v : Tensor} {T F : ℕ} (h0 : batch[0]? = some first) (ht : HasSeries first k T F t)
    (hv : collateOne batch k = .ok v) :
    v.shape = [T, batch.length, F] ∧ ∀ b x, batch[b]? = some x → ∃ u, HasSeries x k T F u ∧
      ∀ i j, v.val [i, b, j] = u.val [i, j] := by
  obtain ⟨ts, h1, h2⟩ := bind_ok hv
  have h3 := forall₂_iff_get.1 (mapM_forall₂ h1)
  have hpos : 0 < batch.length := by
    by_contra hc
    have : batch = [] := by simpa using hc
    subst this; simp at h0
  obtain ⟨u0, hu0⟩ : ∃ u, ts[0]? = some u := ⟨ts[0]'(h3.1 ▸ hpos), List.getElem?_eq_getElem _⟩
  have e := stackItem_ok.1 (h3.2 0 first u0 h0 hu0)
  have : u0 = t := by
    have := e.symm.trans ht.1
    simpa using this
  subst this
  obtain ⟨hs, rfl⟩ := (stack1_ok hu0).1 h2
  refine ⟨by simp [ht.2, h3.1], fun b x hx => ?_⟩
  have hb : b < ts.length := by
    rw [← h3.1]
    exact (List.getElem?_eq_some_iff.1 hx).1
  have hub : ts[b]? = some ts[b] := List.getElem?_eq_getElem hb
  refine ⟨ts[b], ⟨stackItem_ok.1 (h3.2 b x _ hx hub), by rw [hs _ (List.getElem_mem hb), ht.2]⟩,
    fun i j => ?_⟩
  simp [hub]

/-- **C66.** A batch is built exactly if every time series of the first sample (a feature stored as a
two-dimensional tensor) is, under the same name, a time series of the same shape in every sample. -/
theorem C66_collate (first : PyDict FeatVal) (rest : List (PyDict FeatVal))
    (hn : first.keys.Nodup) :
    (∃ out, timeCollator (first :: rest) = .ok out) ↔
      ∀ k T F t, HasSeries first k T F t → ∀ x ∈ rest, ∃ u, HasSeries x k T F u := by
  unfold timeCollator
  simp only [List.getElem?_cons_zero, orRaise, bind, Except.bind]
  have key := fun out => fold_collate (first :: rest) first [] out hn (by simp [KDict.keys])
  simp only [bind, Except.bind] at key
  simp only [key]
  constructor
  · rintro ⟨out, r, hr, -⟩ k T F t ht x hx
    have hmem : (k, FeatVal.tensor t) ∈ first.filter fun item => item.2.isBatchable := by
      rw [List.mem_filter]
      exact ⟨mem_of_get? ht.1, by simp [FeatVal.isBatchable, ht.2]⟩
    obtain ⟨i, hi, he⟩ := List.mem_iff_getElem.1 hmem
    have h2 := forall₂_iff_get.1 hr
    have hri : i < r.length := h2.1 ▸ hi
    have h3 := (h2.2 i _ _ (List.getElem?_eq_getElem hi) (List.getElem?_eq_getElem hri)).2
    rw [he] at h3
    obtain ⟨b, hb, rfl⟩ := List.mem_iff_getElem.1 hx
    obtain ⟨-, h4⟩ := collateOne_ok (by simp) ht h3
    obtain ⟨u, hu, -⟩ := h4 (b + 1) rest[b] (by simp)
    exact ⟨u, hu⟩
  · intro h
    have ex : ∀ item ∈ first.filter (fun item => item.2.isBatchable), ∃ p : String × Tensor,
        p.1 = item.1 ∧ collateOne (first :: rest) item.1 = .ok p.2 := by
      rintro ⟨k, v⟩ hm
      rw [List.mem_filter] at hm
      obtain ⟨hm, hb⟩ := hm
      cases v with
      | other => simp [FeatVal.isBatchable] at hb
      | tensor t =>
        simp only [FeatVal.isBatchable, decide_eq_true_eq] at hb
        obtain ⟨T, F, hs⟩ := List.length_eq_two.1 hb
        have ht : HasSeries first k T F t := ⟨get?_of_mem _ hn _ _ hm, hs⟩
        have hall : ∀ x ∈ first :: rest, ∃ u, HasSeries x k T F u := by
          intro x hx
          rcases List.mem_cons.1 hx with rfl | hx
          · exact ⟨t, ht⟩
          · exact h k T F t ht x hx
        choose! g hg using hall
        have hmap : (first :: rest).mapM (fun x => stackItem x k) = .ok ((first :: rest).map g) :=
          mapM_of_forall fun x hx => stackItem_ok.2 (hg x hx).1
        have hst := (stack1_ok (ts := (first :: rest).map g) (t := g first) (by simp)).2 ⟨fun u hu => by
          obtain ⟨x, hx, rfl⟩ := List.mem_map.1 hu
          rw [(hg x hx).2, (hg first (by simp)).2], rfl⟩
        refine ⟨(k, ⟨(g first).shape.insertIdx 1 ((first :: rest).map g).length, fun idx =>
            (((first :: rest).map g)[idx.getD 1 0]?.getD (g first)).val (idx.eraseIdx 1)⟩), rfl, ?_⟩
        unfold collateOne
        rw [hmap]
        exact hst
    choose! g hg using ex
    refine ⟨_, (first.filter (fun item => item.2.isBatchable)).map g, ?_, rfl⟩
    rw [List.forall₂_map_right_iff]
    exact List.forall₂_same.2 fun item hi => hg item hi

/-- **C66.** The batch holds exactly the time series of the first sample, in their order; the series
of shape `(T, F)` becomes a tensor of shape `(T, B, F)` whose entry `[i, b, j]` is entry `[i, j]` of
the series of sample `b`. -/
theorem C66_values (first : PyDict FeatVal) (rest : List (PyDict FeatVal)) (hn : first.keys.Nodup)
    (out : PyDict Tensor) (h : timeCollator (first :: rest) = .ok out) :
    (∀ k, k ∈ out.keys ↔ ∃ T F t, HasSeries first k T F t) ∧
    out.keys.Sublist first.keys ∧
    ∀ k v, out.get? k = some v → ∃ T F, v.shape = [T, rest.length + 1, F] ∧
      ∀ b x, (first :: rest)[b]? = some x → ∃ u, HasSeries x k T F u ∧
        ∀ i j, v.val [i, b, j] = u.val [i, j] := by
  unfold timeCollator at h
  simp only [List.getElem?_cons_zero, orRaise, bind, Except.bind] at h
  have key := (fold_collate (first :: rest) first [] out hn (by simp [KDict.keys])).1 h
  obtain ⟨r, hr, hout⟩ := key
  rw [List.nil_append] at hout
  rw [hout]
  have h2 := forall₂_iff_get.1 hr
  have hkeys : KDict.keys r = KDict.keys (first.filter fun item => item.2.isBatchable) := by
    apply List.ext_getElem (by simp [KDict.keys, h2.1])
    intro i h3 h4
    simp only [KDict.keys, List.length_map] at h3 h4
    simp only [KDict.keys, List.getElem_map]
    exact (h2.2 i _ _ (List.getElem?_eq_getElem h4) (List.getElem?_eq_getElem h3)).1
  have hser : ∀ k v, (k, v) ∈ first.filter (fun item => item.2.isBatchable) →
      ∃ T F t, HasSeries first k T F t := by
    intro k v hm
    rw [List.mem_filter] at hm
    obtain ⟨hm, hb⟩ := hm
    cases v with
    | other => simp [FeatVal.isBatchable] at hb
    | tensor t =>
      simp only [FeatVal.isBatchable, decide_eq_true_eq] at hb
      obtain ⟨T, F, hs⟩ := List.length_eq_two.1 hb
      exact ⟨T, F, t, get?_of_mem _ hn _ _ hm, hs⟩
  refine ⟨fun k => ?_, ?_, fun k v hk => ?_⟩
  · rw [hkeys]
    constructor
    · intro hk
      obtain ⟨⟨k', v⟩, hm, rfl⟩ := List.mem_map.1 hk
      exact hser k' v hm
    · rintro ⟨T, F, t, ht⟩
      refine List.mem_map.2 ⟨(k, .tensor t), ?_, rfl⟩
      rw [List.mem_filter]
      exact ⟨mem_of_get? ht.1, by simp [FeatVal.isBatchable, ht.2]⟩
  · rw [hkeys]
    exact List.Sublist.map _ List.filter_sublist
  · obtain ⟨i, hi, he⟩ := List.mem_iff_getElem.1 (mem_of_get? hk)
    have hi' : i < (first.filter fun item => item.2.isBatchable).length := h2.1 ▸ hi
    have h3 := h2.2 i _ _ (List.getElem?_eq_getElem hi') (List.getElem?_eq_getElem hi)
    rw [he] at h3
    dsimp only at h3
    obtain ⟨T, F, t, ht⟩ := hser k _ (by rw [h3.1]; exact List.getElem_mem hi')
    rw [← h3.1] at h3
    exact ⟨T, F, by simpa using collateOne_ok (by simp) ht h3.2⟩

/-- **C66.** An empty batch raises. -/
theorem C66_empty : timeCollator [] = .error .indexError := rfl

/-- Two samples with a time series, a scalar and a text. -/
def collateSample (c : ℝ) : PyDict FeatVal :=
  [("strain", .tensor ⟨[3, 2], fun _ => c⟩), ("label", .other), ("scalar", .tensor ⟨[], fun _ => c⟩)]

example : (collateSample 1).keys.Nodup ∧
    ∃ out, timeCollator [collateSample 1, collateSample 2] = .ok out := by
  refine ⟨by decide, (C66_collate _ _ (by decide)).2 ?_⟩
  intro k T F t ht x hx
  simp only [List.mem_singleton] at hx
  subst hx
  obtain ⟨h1, h2⟩ := ht
  simp only [collateSample, KDict.get?] at h1
  split at h1
  · next e =>
    subst e
    simp only [Option.some.injEq, FeatVal.tensor.injEq] at h1
    subst h1
    exact ⟨⟨[3, 2], fun _ => 2⟩, by simp [collateSample, KDict.get?], h2⟩
  · split at h1
    · simp at h1
    · split at h1
      · simp only [Option.some.injEq, FeatVal.tensor.injEq] at h1
        subst h1
        simp at h2
      · simp at h1

/-! ### Metrics -/

theorem column_ok (t : SeqTensor) (j : ℕ) (h : j < t.nFeat) :
    t.column j = .ok ((List.range t.len).map fun i => t.val i j) := by
  simp [SeqTensor.column, raiseIf, not_le.2 h, bind, Except.bind]

theorem mean_range (n : ℕ) (g : ℕ → ℝ) : meanR ((List.range n).map g) = timeMean n g := by
  unfold meanR timeMean
  rw [Finset.sum_range, List.length_map, List.length_range]
  congr 1
  rw [← List.sum_ofFn]
  congr 1
  apply List.ext_getElem <;> simp

/-- Value of a metric for feature `j`, as documented. -/
def metricSpec (label : String) (out gt : SeqTensor) (j : ℕ) : ℝ :=
  if label = "mse" then timeMean out.len fun i => (out.val i j - gt.val i j) ^ 2
  else if label = "rmse" then √(timeMean out.len fun i => (out.val i j - gt.val i j) ^ 2)
  else if label = "mav_gt" then timeMean out.len fun i => |gt.val i j|
  else timeMean out.len fun i => |out.val i j|

theorem featureMetric_ok (label : String) (out gt : SeqTensor) (j : ℕ) (hl : gt.len = out.len)
    (hf : gt.nFeat = out.nFeat) (hj : j < out.nFeat) :
    featureMetric label ⟨out, some gt⟩ j = .ok (metricSpec label out gt j) := by
  have hz : List.zipWith (fun x y : ℝ => x - y) ((List.range out.len).map fun i => out.val i j)
      ((List.range gt.len).map fun i => gt.val i j)
      = (List.range out.len).map fun i => out.val i j - gt.val i j := by
    rw [hl]
    apply List.ext_getElem <;> simp
  have hd : getFeatureData ⟨out, some gt⟩ j = .ok ((List.range out.len).map fun i => out.val i j,
      (List.range gt.len).map fun i => gt.val i j) := by
    simp [getFeatureData, column_ok _ _ hj, column_ok gt j (hf ▸ hj), orRaise, bind, Except.bind]
  have hs : subSeries ((List.range out.len).map fun i => out.val i j)
      ((List.range gt.len).map fun i => gt.val i j)
      = .ok ((List.range out.len).map fun i => out.val i j - gt.val i j) := by
    rw [← hz]
    simp [subSeries, raiseIf, hl, bind, Except.bind]
  unfold featureMetric metricSpec
  simp only [hd, bind, Except.bind]
  split
  · rw [hs]
    dsimp only
    rw [List.map_map, mean_range]
    rfl
  · split
    · rw [hs]
      dsimp only
      rw [List.map_map, mean_range]
      rfl
    · split
      · rw [List.map_map, mean_range, hl]
        rfl
      · rw [List.map_map, mean_range]
        rfl

theorem metrics_fold (r : SampleResults) (g : String → List ℝ) (labels : List String)
    (acc : PyDict (List ℝ))
    (hk : ∀ l ∈ labels, l ∈ ["mse", "rmse", "mav", "mav_gt"])
    (hg : ∀ l ∈ labels, (List.range r.featuresOut.nFeat).mapM (fun j => featureMetric l r j)
      = .ok (g l)) :
    ∃ res, labels.foldlM (fun out label => do
      raiseIf (label ∉ ["mse", "rmse", "mav", "mav_gt"]) .runtimeError
      let vals ← (List.range r.featuresOut.nFeat).mapM fun j => featureMetric label r j
      .ok (out.put label vals)) acc = .ok res ∧
      ∀ l, res.get? l = if l ∈ labels then some (g l) else acc.get? l := by
  induction labels generalizing acc with
  | nil => exact ⟨acc, rfl, by simp⟩
  | cons a labels ih =>
    obtain ⟨res, h1, h2⟩ := ih (acc.put a (g a)) (fun l hl => hk l (by simp [hl]))
      (fun l hl => hg l (by simp [hl]))
    refine ⟨res, ?_, fun l => ?_⟩
    · rw [List.foldlM_cons]
      have ha := hk a (by simp)
      have : raiseIf (a ∉ ["mse", "rmse", "mav", "mav_gt"]) .runtimeError = .ok () :=
        if_neg (not_not.2 ha)
      simp only [this, hg a (by simp), bind, Except.bind] at h1 ⊢
      exact h1
    · rw [h2, KDict.get?_put]
      by_cases hl : l ∈ labels
      · simp [hl]
      · by_cases hla : l = a
        · subst hla; simp [hl]
        · simp [hl, hla]

/-- **C66.** With predictions and ground truth of the same shape and at least one time step, every
list of known metrics is computed, for any number of features and steps: `mse` is the mean over time
of the squared difference of each feature, `rmse` its square root, `mav` the mean absolute prediction
and `mav_gt` the mean absolute ground truth. -/
theorem C66_metrics (out gt : SeqTensor) (_ : 0 < out.len) (hl : gt.len = out.len)
    (hf : gt.nFeat = out.nFeat) (labels : List String)
    (hk : ∀ l ∈ labels, l ∈ ["mse", "rmse", "mav", "mav_gt"]) :
    ∃ res, predictionMetrics ⟨out, some gt⟩ labels = .ok res ∧
      ∀ l, res.get? l = if l ∈ labels then some ((List.range out.nFeat).map fun j =>
        if l = "mse" then timeMean out.len fun i => (out.val i j - gt.val i j) ^ 2
        else if l = "rmse" then √(timeMean out.len fun i => (out.val i j - gt.val i j) ^ 2)
        else if l = "mav" then timeMean out.len fun i => |out.val i j|
        else timeMean out.len fun i => |gt.val i j|) else none := by
  obtain ⟨res, h1, h2⟩ := metrics_fold ⟨out, some gt⟩
    (fun l => (List.range out.nFeat).map fun j => metricSpec l out gt j) labels [] hk
    (fun l _ => mapM_of_forall fun j hj => featureMetric_ok l out gt j hl hf (by simpa using hj))
  refine ⟨res, h1, fun l => ?_⟩
  rw [h2]
  split
  · next hlm =>
    congr 1
    apply List.map_congr_left
    intro j _
    have := hk l hlm
    simp only [List.mem_cons, List.not_mem_nil, or_false] at this
    rcases this with rfl | rfl | rfl | rfl <;> simp [metricSpec]
  · rfl

/-- **C66.** All metrics are nonnegative, the square of `rmse` is `mse`, and `mse` and `rmse` of a
feature vanish exactly if the prediction of that feature is exact at every time step. -/
theorem C66_metrics_sign (out gt : SeqTensor) (h0 : 0 < out.len) (hl : gt.len = out.len)
    (hf : gt.nFeat = out.nFeat) (labels : List String)
    (hk : ∀ l ∈ labels, l ∈ ["mse", "rmse", "mav", "mav_gt"]) :
    ∃ res, predictionMetrics ⟨out, some gt⟩ labels = .ok res ∧
      (∀ l ∈ labels, ∃ v, res.get? l = some v ∧ v.length = out.nFeat ∧ ∀ x ∈ v, 0 ≤ x) ∧
      (∀ v w, res.get? "mse" = some v → res.get? "rmse" = some w → v = w.map fun x => x ^ 2) ∧
      (∀ l ∈ ["mse", "rmse"], ∀ v j x, res.get? l = some v → v[j]? = some x →
        (x = 0 ↔ ∀ i < out.len, out.val i j = gt.val i j)) := by
  obtain ⟨res, h1, h2⟩ := C66_metrics out gt h0 hl hf labels hk
  have hpos : (0 : ℝ) < out.len := by exact_mod_cast h0
  have tm_nonneg : ∀ g : ℕ → ℝ, (∀ i, 0 ≤ g i) → 0 ≤ timeMean out.len g := fun g hg =>
    div_nonneg (Finset.sum_nonneg fun i _ => hg i) hpos.le
  have tm_zero : ∀ j, timeMean out.len (fun i => (out.val i j - gt.val i j) ^ 2) = 0 ↔
      ∀ i < out.len, out.val i j = gt.val i j := by
    intro j
    unfold timeMean
    rw [div_eq_zero_iff, or_iff_left hpos.ne',
      Finset.sum_eq_zero_iff_of_nonneg fun i _ => sq_nonneg _]
    simp [sub_eq_zero]
  refine ⟨res, h1, fun l hlm => ⟨_, by rw [h2, if_pos hlm], by simp, ?_⟩, ?_, ?_⟩
  · intro x hx
    obtain ⟨j, -, rfl⟩ := List.mem_map.1 hx
    split_ifs
    · exact tm_nonneg _ fun i => sq_nonneg _
    · exact Real.sqrt_nonneg _
    · exact tm_nonneg _ fun i => abs_nonneg _
    · exact tm_nonneg _ fun i => abs_nonneg _
  · intro v w hv hw
    rw [h2] at hv hw
    split at hv <;> simp at hv
    split at hw <;> simp at hw
    subst hv; subst hw
    rw [List.map_map]
    apply List.map_congr_left
    intro j _
    simp only [Function.comp]
    rw [Real.sq_sqrt (tm_nonneg _ fun i => sq_nonneg _)]
  · intro l hlab v j x hv hx
    rw [h2] at hv
    split at hv <;> simp only [Option.some.injEq, reduceCtorEq] at hv
    subst hv
    rw [List.getElem?_map] at hx
    obtain ⟨j', hj', rfl⟩ := Option.map_eq_some_iff.1 hx
    have : j' = j := by
      rw [List.getElem?_range] at hj'
      · simpa using hj'.symm
      · by_contra hc
        rw [List.getElem?_eq_none (by simpa using hc)] at hj'
        cases hj'
    subst this
    simp only [List.mem_cons, List.not_mem_nil, or_false] at hlab
    rcases hlab with rfl | rfl
    · simpa using tm_zero j'
    · simp only [String.reduceEq, if_false, if_true]
      rw [Real.sqrt_eq_zero (tm_nonneg _ fun i => sq_nonneg _)]
      exact tm_zero j'

/-- **C66, violated.** The mean absolute value of the predictions needs no ground truth, but without
it the call raises, for every prediction with a feature. -/
theorem C66_mav_needs_targets_violated (out : SeqTensor) (hf : 0 < out.nFeat) :
    predictionMetrics ⟨out, none⟩ ["mav"] = .error .runtimeError := by
  obtain ⟨n, hn⟩ : ∃ n, out.nFeat = n + 1 := ⟨out.nFeat - 1, by omega⟩
  have h0 : featureMetric "mav" ⟨out, none⟩ 0 = .error .runtimeError := by
    simp [featureMetric, getFeatureData, column_ok out 0 hf, orRaise, bind, Except.bind]
  have : (List.range (n + 1)).mapM (fun j => featureMetric "mav" ⟨out, none⟩ j)
      = .error .runtimeError := by
    rw [List.range_succ_eq_map, List.mapM_cons, h0]
    rfl
  simp [predictionMetrics, raiseIf, hn, this, bind, Except.bind]

/-- **C66.** An unknown metric raises, wherever it stands in the list. -/
theorem C66_unknown_metric (r : SampleResults) (labels : List String) (l : String)
    (hl : l ∈ labels) (hu : l ∉ ["mse", "rmse", "mav", "mav_gt"]) :
    ∃ e, predictionMetrics r labels = .error e := by
  unfold predictionMetrics
  generalize ([] : PyDict (List ℝ)) = acc
  induction labels generalizing acc with
  | nil => simp at hl
  | cons a labels ih =>
    rw [List.foldlM_cons]
    by_cases ha : a ∈ ["mse", "rmse", "mav", "mav_gt"]
    · have hl' : l ∈ labels := by
        rcases List.mem_cons.1 hl with rfl | h
        · exact absurd ha hu
        · exact h
      have hr : raiseIf (a ∉ ["mse", "rmse", "mav", "mav_gt"]) .runtimeError = .ok () :=
        if_neg (not_not.2 ha)
      cases hm : (List.range r.featuresOut.nFeat).mapM fun j => featureMetric a r j with
      | error e => exact ⟨e, by simp only [hr, hm, bind, Except.bind]⟩
      | ok vals =>
        simp only [hr, hm, bind, Except.bind]
        simp only [bind, Except.bind] at ih
        exact ih hl' _
    · have hr : raiseIf (a ∉ ["mse", "rmse", "mav", "mav_gt"]) .runtimeError
          = .error .runtimeError := if_pos ha
      exact ⟨.runtimeError, by simp only [hr, bind, Except.bind]⟩

example : ∀ l ∈ ["rmse", "mav"], l ∈ ["mse", "rmse", "mav", "mav_gt"] := by decide

end

end Hooke
