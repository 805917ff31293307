import Verif.Spec.ConvergencePaths
import Verif.Props.LmuData

/-! # C168: time series plots of models with different training sets -/

noncomputable section

open Classical

namespace Hooke

open Spec

theorem convergenceLabel_inj {a b : ℕ} (h : convergenceLabel a = convergenceLabel b) : a = b := by
  unfold convergenceLabel at h
  have h := congrArg String.toList h
  rw [String.toList_append, String.toList_append] at h
  exact Nat.repr_inj.mp (String.toList_inj.mp (List.append_cancel_left h))

theorem convergenceLabel_ne (a : ℕ) : convergenceLabel a ≠ "Ground-Truth" := by
  intro h
  unfold convergenceLabel at h
  have h := congrArg String.toList h
  rw [String.toList_append] at h
  have h := congrArg List.head? h
  revert h
  simp

theorem dedup_one {n : ℕ} {l : List ℕ} (hne : l ≠ []) (h : ∀ x ∈ l, x = n) : l.dedup.length = 1 := by
  have h1 : l.dedup = [n] := by
    have hn : l.dedup.Nodup := List.nodup_dedup l
    have hm : ∀ x ∈ l.dedup, x = n := fun x hx => h x (List.mem_dedup.mp hx)
    have hne' : l.dedup ≠ [] := by
      intro e
      obtain ⟨x, hx⟩ := List.exists_mem_of_ne_nil _ hne
      have := List.mem_dedup.mpr hx
      rw [e] at this
      cases this
    revert hn hm hne'
    generalize l.dedup = d
    intro hn hm hne'
    match d, hn, hm, hne' with
    | [x], _, hm, _ => rw [hm x (by simp)]
    | x :: y :: r, hn, hm, _ =>
      exact absurd ((hm x (by simp)).trans (hm y (by simp)).symm) (by
        intro e
        rw [e] at hn
        simp at hn)
  rw [h1]
  rfl

theorem forM_ok {α : Type} {l : List α} {f : α → Py Unit} (h : ∀ x ∈ l, f x = .ok ()) :
    l.forM f = .ok () := by
  induction l with
  | nil => rfl
  | cons x l ih =>
    change (f x >>= fun _ => l.forM f) = _
    rw [h x (by simp)]
    exact ih fun y hy => h y (List.mem_cons_of_mem _ hy)

theorem labels_nodup {models : List ConvModel} (hd : (models.map ConvModel.trainSize).Nodup) :
    (models.map fun m => convergenceLabel m.trainSize).Nodup := by
  have := hd.map (f := convergenceLabel) fun a b h => convergenceLabel_inj h
  rwa [List.map_map] at this

theorem pathFigure_eq {m0 : ConvModel} {models : List ConvModel}
    (hd : (models.map ConvModel.trainSize).Nodup) (t : String) (c : String × ℕ) (s : ℕ) :
    pathFigure m0 models t c s = ShownPaths m0 models t c s := by
  unfold pathFigure ShownPaths fillDict
  rw [foldl_put_of_nodup]
  · rfl
  · rw [List.map_cons, List.map_map, List.nodup_cons]
    refine ⟨?_, labels_nodup hd⟩
    intro h
    obtain ⟨m, -, e⟩ := List.mem_map.mp h
    exact convergenceLabel_ne _ e

theorem pathType_ok {m0 : ConvModel} {models : List ConvModel}
    (hd : ((m0 :: models).map ConvModel.trainSize).Nodup)
    (hs : ∀ m ∈ m0 :: models, m.testSize = m0.testSize) {st : SampleIds}
    (hc : checkSamples m0.testSize st = .ok ()) (t : String × List String) :
    pathType (m0 :: models) st t = .ok (t.2.zipIdx.flatMap fun c => (sampleNumbers m0.testSize st).map fun s =>
      ShownPaths m0 (m0 :: models) t.1 c s, nextSamples m0.testSize t.2 st) := by
  unfold pathType
  rw [forM_ok fun m hm => by rw [hs m hm]; exact hc]
  have h1 : ((m0 :: models).map ConvModel.testSize).dedup.length = 1 :=
    dedup_one (n := m0.testSize) (by simp) fun x hx => by
      obtain ⟨m, hm, rfl⟩ := List.mem_map.mp hx
      exact hs m hm
  rw [raiseIf, if_neg (by rw [h1]; simp)]
  simp only [pathFigure_eq hd]
  rfl

/-- **C168 (one type).** For models with training sets of different sizes and testing sets of one size, the
figures of all the samples show, for every component and every sample in order, the reference with the
predictions of every model, which are labelled with the size of its training set. -/
theorem C168_all {m0 : ConvModel} {models : List ConvModel}
    (hd : ((m0 :: models).map ConvModel.trainSize).Nodup)
    (hs : ∀ m ∈ m0 :: models, m.testSize = m0.testSize) (t : String × List String) :
    convergencePaths (m0 :: models) .all [t] =
      .ok (t.2.zipIdx.flatMap fun c => (List.range m0.testSize).map fun s =>
        ShownPaths m0 (m0 :: models) t.1 c s) := by
  unfold convergencePaths
  rw [pathType_ok hd hs rfl]
  change Except.ok _ = _
  rw [List.append_nil]
  rfl

/-- **C168 (listed samples).** The same for a list of samples of the testing sets, and any number of
prediction types. -/
theorem C168_listed {m0 : ConvModel} {models : List ConvModel}
    (hd : ((m0 :: models).map ConvModel.trainSize).Nodup)
    (hs : ∀ m ∈ m0 :: models, m.testSize = m0.testSize) {ids : List ℕ} (hne : ids ≠ [])
    (hi : ∀ i ∈ ids, i < m0.testSize) (types : List (String × List String)) :
    convergencePaths (m0 :: models) (.listed ids) types =
      .ok (types.flatMap fun t => t.2.zipIdx.flatMap fun c => ids.map fun s =>
        ShownPaths m0 (m0 :: models) t.1 c s) := by
  have hc : checkSamples m0.testSize (.listed ids) = .ok () := by
    match ids, hne, hi with
    | x :: l, _, hi =>
      simp only [checkSamples, raiseIf]
      rw [if_neg]
      rintro ⟨y, hy, h⟩
      exact absurd (hi y hy) (by omega)
  induction types with
  | nil => rfl
  | cons t ts ih =>
    rw [convergencePaths, pathType_ok hd hs hc]
    change (convergencePaths (m0 :: models) (.listed ids) ts >>= fun rest => Except.ok (_ ++ rest)) = _
    rw [ih]
    rfl

/-- **C168 is violated for all the samples and several prediction types.** After the first prediction type
with a component, `'all'` has become a `range`, which the second prediction type refuses. -/
theorem C168_types_violated {m0 : ConvModel} {models : List ConvModel}
    (hd : ((m0 :: models).map ConvModel.trainSize).Nodup)
    (hs : ∀ m ∈ m0 :: models, m.testSize = m0.testSize) {t t' : String × List String} (ht : t.2 ≠ [])
    (ts : List (String × List String)) :
    convergencePaths (m0 :: models) .all (t :: t' :: ts) = .error .runtimeError := by
  rw [convergencePaths, pathType_ok hd hs rfl]
  have e : nextSamples m0.testSize t.2 .all = .range m0.testSize := by
    unfold nextSamples
    exact if_neg ht
  rw [e]
  rfl

/-- **C168 is violated for training sets of the same size.** Models whose training sets have the same size
have the same label: only the predictions of the last one of them are shown, in both kinds of plots. -/
theorem C168_same_size_violated {m0 : ConvModel} {models : List ConvModel} {i : ℕ} {m : ConvModel}
    (hi : models[i]? = some m) (hl : ∀ j > i, ∀ m', models[j]? = some m' → m'.trainSize ≠ m.trainSize)
    (t : String) (c : String × ℕ) (s : ℕ) :
    (pathFigure m0 models t c s).curves.get? ("N = " ++ toString m.trainSize) =
      some ((m.path t c.2 s).map fun q => (q.1, q.2.2)) ∧
    (pathFigure m0 models t c s).curves.keys.Nodup ∧
    (∀ k, k ∈ (pathFigure m0 models t c s).curves.keys ↔
      k = "Ground-Truth" ∨ ∃ m' ∈ models, k = "N = " ++ toString m'.trainSize) ∧
    ∀ fs, convergenceScatter models [(t, [c.1])] = .ok fs → ∃ d, fs = [(c.1, d)] ∧ d.keys.Nodup ∧
      d.get? ("N = " ++ toString m.trainSize) = some (m.pairs t 0) := by
  refine ⟨?_, (foldl_put_keys _).1, fun k => ?_, ?_⟩
  · refine (foldl_puts_get? _ _ _).mpr ⟨i + 1, ?_, ?_⟩
    · rw [List.getElem?_cons_succ, List.getElem?_map, hi]
      rfl
    · intro j hj kv h
      obtain ⟨j', rfl⟩ : ∃ j', j = j' + 1 := ⟨j - 1, by omega⟩
      rw [List.getElem?_cons_succ, List.getElem?_map] at h
      obtain ⟨m', hm', rfl⟩ := Option.map_eq_some_iff.mp h
      exact fun e => hl j' (by omega) m' hm' (convergenceLabel_inj e)
  · refine ((foldl_put_keys _).2 k).trans ?_
    rw [List.map_cons, List.mem_cons, List.map_map, List.mem_map]
    refine or_congr Iff.rfl ⟨?_, ?_⟩
    · rintro ⟨m', h, rfl⟩
      exact ⟨m', h, rfl⟩
    · rintro ⟨m', h, rfl⟩
      exact ⟨m', h, rfl⟩
  · intro fs h
    unfold convergenceScatter at h
    obtain ⟨-, -, h⟩ := bind_ok h
    cases h
    refine ⟨_, rfl, (foldl_put_keys _).1, ?_⟩
    refine (foldl_puts_get? _ _ _).mpr ⟨i, ?_, ?_⟩
    · rw [List.getElem?_map, hi]
      rfl
    · intro j hj kv h
      rw [List.getElem?_map] at h
      obtain ⟨m', hm', rfl⟩ := Option.map_eq_some_iff.mp h
      exact fun e => hl j hj m' hm' (convergenceLabel_inj e)

/-- **C168 (scatter plots).** The plots of predictions against references show, for any number of prediction
types and every component in order, the pairs of every model, which are labelled with the size of its
training set. -/
theorem C168_scatter {m0 : ConvModel} {models : List ConvModel}
    (hd : ((m0 :: models).map ConvModel.trainSize).Nodup)
    (hs : ∀ m ∈ m0 :: models, m.testSize = m0.testSize) (types : List (String × List String)) :
    convergenceScatter (m0 :: models) types = .ok (types.flatMap fun t => t.2.zipIdx.map fun c =>
      (c.1, (m0 :: models).map fun m => ("N = " ++ toString m.trainSize, m.pairs t.1 c.2))) := by
  unfold convergenceScatter fillDict
  have h1 : ((m0 :: models).map ConvModel.testSize).dedup.length = 1 :=
    dedup_one (n := m0.testSize) (by simp) fun x hx => by
      obtain ⟨m, hm, rfl⟩ := List.mem_map.mp hx
      exact hs m hm
  rw [raiseIf, if_neg (by rw [h1]; simp)]
  have e : ∀ (t : String × List String) (c : String × ℕ),
      ((m0 :: models).map fun m => (convergenceLabel m.trainSize, m.pairs t.1 c.2)).foldl
        (fun (d : KDict String (List (ℝ × ℝ))) kv => d.put kv.1 kv.2) [] =
      (m0 :: models).map fun m => (convergenceLabel m.trainSize, m.pairs t.1 c.2) := by
    intro t c
    refine foldl_put_of_nodup ?_
    rw [List.map_map]
    exact labels_nodup hd
  simp only [e]
  rfl

/-- **C168 (refusals).** Testing sets of different sizes, no models, and samples that are not in the testing
set are refused, and so is another kind of plot. -/
theorem C168_refusals {models : List ConvModel} (t : String × List String)
    (ts : List (String × List String)) :
    ((∃ m ∈ models, ∃ m' ∈ models, m.testSize ≠ m'.testSize) ∨ models = [] →
      convergencePaths models .all (t :: ts) = .error .runtimeError ∧
        convergenceScatter models (t :: ts) = .error .runtimeError) ∧
    (∀ m0 rest ids, models = m0 :: rest → (∃ i ∈ ids, m0.testSize ≤ i) →
      convergencePaths models (.listed ids) (t :: ts) = .error .runtimeError) ∧
    ∀ p, checkPlotType p = .ok () ↔ p = "time_series_scatter" ∨ p = "time_series_path" := by
  refine ⟨?_, ?_, ?_⟩
  · intro h
    have h1 : (models.map ConvModel.testSize).dedup.length ≠ 1 := by
      intro e
      obtain ⟨x, hx⟩ := List.length_eq_one_iff.mp e
      rcases h with ⟨m, hm, m', hm', hne⟩ | rfl
      · have h2 : ∀ m ∈ models, m.testSize = x := fun m hm => by
          have := List.mem_dedup.mpr (List.mem_map_of_mem (f := ConvModel.testSize) hm)
          rw [hx] at this
          exact List.mem_singleton.mp this
        exact hne ((h2 m hm).trans (h2 m' hm').symm)
      · simp at e
    constructor
    · rw [convergencePaths, pathType]
      have e : (models.forM fun m => checkSamples m.testSize .all) = .ok () := forM_ok fun m _ => rfl
      rw [e, raiseIf, if_pos h1]
      rfl
    · rw [convergenceScatter, raiseIf, if_pos ⟨by simp, h1⟩]
      rfl
  · rintro m0 rest ids rfl ⟨i, hi, h⟩
    rw [convergencePaths, pathType]
    match ids, hi with
    | x :: l, hi =>
      have e : checkSamples m0.testSize (.listed (x :: l)) = .error .runtimeError := by
        simp only [checkSamples, raiseIf]
        rw [if_pos ⟨i, hi, h⟩]
      have e2 : ((m0 :: rest).forM fun m => checkSamples m.testSize (.listed (x :: l))) =
          .error .runtimeError := by
        change (checkSamples m0.testSize (.listed (x :: l)) >>= fun _ => rest.forM _) = _
        rw [e]
        rfl
      rw [e2]
      rfl
  · intro p
    unfold checkPlotType raiseIf
    split_ifs with h
    · simp only [reduceCtorEq, false_iff, not_or]
      exact h
    · simp only [true_iff]
      by_contra h2
      exact h (not_or.mp h2)

/-- Two models with training sets of 10 and 20 paths, tested with the same 3 paths, and a third one with
another training set of 10 paths. -/
example : ∃ m0 m1 m2 : ConvModel, ([m0, m1].map ConvModel.trainSize).Nodup ∧
    (∀ m ∈ [m0, m1], m.testSize = m0.testSize) ∧ m2.trainSize = m0.trainSize ∧
    m2.path "stress_comps" 0 0 ≠ m0.path "stress_comps" 0 0 := by
  refine ⟨⟨10, 3, fun _ _ _ => [(0, 1, 2)], fun _ _ => []⟩, ⟨20, 3, fun _ _ _ => [(0, 1, 1)], fun _ _ => []⟩,
    ⟨10, 3, fun _ _ _ => [(0, 1, 3)], fun _ _ => []⟩, by simp, by simp, rfl, ?_⟩
  simp

end Hooke
