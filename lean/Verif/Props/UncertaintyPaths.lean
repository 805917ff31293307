import Verif.Spec.UncertaintyPaths
import Verif.Props.ConvergencePaths
import Verif.Props.NoiseConvergence

/-! # C171: time series plots of models with uncertainties -/

noncomputable section

open Classical

namespace Hooke

open Spec

/-- A `mapM` whose steps all succeed. -/
theorem mapM_exists171 {α β : Type} {R : α → β → Prop} {f : α → Py β} {l : List α}
    (h : ∀ x ∈ l, ∃ y, f x = .ok y ∧ R x y) : ∃ r, l.mapM f = .ok r ∧ List.Forall₂ R l r := by
  induction l with
  | nil => exact ⟨[], rfl, .nil⟩
  | cons x l ih =>
    obtain ⟨y, hy, hr⟩ := h x (by simp)
    obtain ⟨r, hr1, hr2⟩ := ih fun z hz => h z (List.mem_cons_of_mem _ hz)
    refine ⟨y :: r, ?_, .cons hr hr2⟩
    rw [List.mapM_cons, hy, hr1]
    rfl

theorem bandCurve_ok {path : List (ℝ × ℝ × List ℝ)} (h : ∀ q ∈ path, q.2.2 ≠ []) :
    ∃ pts, bandCurve "min-max" (path.map fun q => (q.1, q.2.2)) = .ok pts ∧ ShowsBand path pts := by
  obtain ⟨r, hr1, hr2⟩ := mapM_exists171 (l := path.map fun q => (q.1, q.2.2))
    (f := fun r : ℝ × List ℝ => do
      let e ← barErr "min-max" r.2
      return (⟨r.1, sampleMean r.2, e.map fun e => (sampleMean r.2 - e.1, sampleMean r.2 + e.2)⟩ : BandPoint))
    (R := fun r p => p.x = r.1 ∧ IsMean r.2 p.mean ∧
      ∃ lo hi, p.band = some (lo, hi) ∧ Spans r.2 lo hi ∧ lo ≤ p.mean ∧ p.mean ≤ hi) (by
    intro r hr
    obtain ⟨q, hq, rfl⟩ := List.mem_map.mp hr
    obtain ⟨e, he, hs⟩ := barErr_minmax (h q hq)
    refine ⟨⟨q.1, sampleMean q.2.2, some (sampleMean q.2.2 - e.1, sampleMean q.2.2 + e.2)⟩, ?_, rfl,
      sampleMean_isMean (h q hq), _, _, rfl, hs, (mean_between (h q hq) hs.1).1,
      (mean_between (h q hq) hs.1).2⟩
    dsimp only
    rw [he]
    rfl)
  refine ⟨r, hr1, ?_⟩
  rw [List.forall₂_map_left_iff] at hr2
  exact hr2

theorem referenceCurve_ok (path : List (ℝ × ℝ × List ℝ)) :
    referenceCurve (path.map fun q => (q.1, [q.2.1])) = .ok (path.map fun q => (q.1, q.2.1)) := by
  unfold referenceCurve
  induction path with
  | nil => rfl
  | cons q path ih =>
    rw [List.map_cons, List.mapM_cons, ih]
    rfl

theorem bandFigure_ok {m0 : UqModel} {models : List UqModel} (hd : (models.map UqModel.trainSize).Nodup)
    {t : String} {c : String × ℕ} {s : ℕ} (h : ∀ m ∈ models, ∀ q ∈ m.path t c.2 s, q.2.2 ≠ []) :
    ∃ f, bandFigure m0 models t c s = .ok f ∧ ShowsBands m0 models t c s f := by
  obtain ⟨r, hr1, hr2⟩ := mapM_exists171 (l := models.map fun m =>
      (convergenceLabel m.trainSize, (m.path t c.2 s).map fun q => (q.1, q.2.2)))
    (f := fun d : String × List (ℝ × List ℝ) => do
      let pts ← bandCurve "min-max" d.2
      return (d.1, pts))
    (R := fun d o => o.1 = d.1 ∧ bandCurve "min-max" d.2 = .ok o.2) (by
    intro d hd
    obtain ⟨m, hm, rfl⟩ := List.mem_map.mp hd
    obtain ⟨pts, h1, -⟩ := bandCurve_ok (h m hm)
    refine ⟨(convergenceLabel m.trainSize, pts), ?_, rfl, h1⟩
    dsimp only
    rw [h1]
    rfl)
  refine ⟨⟨c.1, s, ("Ground-Truth", (m0.path t c.2 s).map fun q => (q.1, q.2.1)), r⟩, ?_, rfl, rfl, rfl, ?_⟩
  · unfold bandFigure fillDict
    rw [foldl_put_of_nodup]
    · dsimp only
      rw [referenceCurve_ok, hr1]
      rfl
    · rw [List.map_cons, List.map_map, List.nodup_cons]
      constructor
      · intro h
        obtain ⟨m, -, e⟩ := List.mem_map.mp h
        exact convergenceLabel_ne _ e
      · have := hd.map (f := convergenceLabel) fun a b h => convergenceLabel_inj h
        rwa [List.map_map] at this
  · rw [List.forall₂_map_left_iff] at hr2
    refine forall₂_imp_mem (fun m hm o ho => ?_) hr2
    obtain ⟨pts, h1, h2⟩ := bandCurve_ok (h m hm)
    have h3 := h1.symm.trans ho.2
    cases h3
    exact ⟨ho.1, h2⟩

theorem bandType_ok {m0 : UqModel} {models : List UqModel}
    (hd : ((m0 :: models).map UqModel.trainSize).Nodup)
    (hs : ∀ m ∈ m0 :: models, m.testSize = m0.testSize) {st : SampleIds}
    (hc : checkSamples m0.testSize st = .ok ()) (t : String × List String)
    (h : ∀ m ∈ m0 :: models, ∀ j s, ∀ q ∈ m.path t.1 j s, q.2.2 ≠ []) :
    ∃ figs, bandType (m0 :: models) st t = .ok (figs, nextSamples m0.testSize t.2 st) ∧
      List.Forall₂ (fun q f => ShowsBands m0 (m0 :: models) t.1 q.1 q.2 f)
        (t.2.zipIdx.flatMap fun c => (sampleNumbers m0.testSize st).map fun s => (c, s)) figs := by
  obtain ⟨figs, h1, h2⟩ := mapM_exists171
    (l := t.2.zipIdx.flatMap fun c => (sampleNumbers m0.testSize st).map fun s => (c, s))
    (f := fun q => bandFigure m0 (m0 :: models) t.1 q.1 q.2)
    (R := fun q f => ShowsBands m0 (m0 :: models) t.1 q.1 q.2 f)
    (fun q _ => bandFigure_ok hd fun m hm r hr => h m hm _ _ r hr)
  refine ⟨figs, ?_, h2⟩
  unfold bandType
  rw [forM_ok fun m hm => by rw [hs m hm]; exact hc]
  have h3 : ((m0 :: models).map UqModel.testSize).dedup.length = 1 :=
    dedup_one (n := m0.testSize) (by simp) fun x hx => by
      obtain ⟨m, hm, rfl⟩ := List.mem_map.mp hx
      exact hs m hm
  rw [raiseIf, if_neg (by rw [h3]; simp)]
  change ((t.2.zipIdx.flatMap fun c => (sampleNumbers m0.testSize st).map fun s => (c, s)).mapM
    (fun q => bandFigure m0 (m0 :: models) t.1 q.1 q.2) >>= fun figs => _) = _
  rw [h1]
  rfl

theorem uqConvergence_path (models : List UqModel) (st : SampleIds) (types : List (String × List String)) :
    uqConvergence "time_series_path" models st types = bandTypes models st types := by
  unfold uqConvergence checkPlotType
  rw [raiseIf, if_neg (by simp), raiseIf, if_neg (by simp)]
  rfl

/-- **C171 (bands).** For models with training sets of different sizes, testing sets of one size and at least
one prediction, the figures of all the samples show, for every component and every sample in order, the
reference, and for every model the mean of its predictions with a band of exactly their range. -/
theorem C171_all {m0 : UqModel} {models : List UqModel}
    (hd : ((m0 :: models).map UqModel.trainSize).Nodup)
    (hs : ∀ m ∈ m0 :: models, m.testSize = m0.testSize) (t : String × List String)
    (h : ∀ m ∈ m0 :: models, ∀ j s, ∀ q ∈ m.path t.1 j s, q.2.2 ≠ []) :
    ∃ figs, uqConvergence "time_series_path" (m0 :: models) .all [t] = .ok figs ∧
      List.Forall₂ (fun q f => ShowsBands m0 (m0 :: models) t.1 q.1 q.2 f)
        (t.2.zipIdx.flatMap fun c => (List.range m0.testSize).map fun s => (c, s)) figs := by
  obtain ⟨figs, h1, h2⟩ := bandType_ok hd hs (st := .all) rfl t h
  refine ⟨figs, ?_, h2⟩
  rw [uqConvergence_path, bandTypes, h1]
  change Except.ok (figs ++ []) = _
  rw [List.append_nil]

/-- **C171 (listed samples).** The same for a list of samples of the testing sets and any number of prediction
types. -/
theorem C171_listed {m0 : UqModel} {models : List UqModel}
    (hd : ((m0 :: models).map UqModel.trainSize).Nodup)
    (hs : ∀ m ∈ m0 :: models, m.testSize = m0.testSize) {ids : List ℕ} (hne : ids ≠ [])
    (hi : ∀ i ∈ ids, i < m0.testSize) (types : List (String × List String))
    (h : ∀ t ∈ types, ∀ m ∈ m0 :: models, ∀ j s, ∀ q ∈ m.path t.1 j s, q.2.2 ≠ []) :
    ∃ figs, uqConvergence "time_series_path" (m0 :: models) (.listed ids) types = .ok figs.flatten ∧
      List.Forall₂ (fun (t : String × List String) fs =>
        List.Forall₂ (fun q f => ShowsBands m0 (m0 :: models) t.1 q.1 q.2 f)
          (t.2.zipIdx.flatMap fun c => ids.map fun s => (c, s)) fs) types figs := by
  have hc : checkSamples m0.testSize (.listed ids) = .ok () := by
    match ids, hne, hi with
    | x :: l, _, hi =>
      simp only [checkSamples, raiseIf]
      rw [if_neg]
      rintro ⟨y, hy, h⟩
      exact absurd (hi y hy) (by omega)
  rw [uqConvergence_path]
  induction types with
  | nil => exact ⟨[], rfl, .nil⟩
  | cons t ts ih =>
    obtain ⟨fs, h1, h2⟩ := bandType_ok hd hs hc t (h t (by simp))
    obtain ⟨rest, h3, h4⟩ := ih fun t ht => h t (List.mem_cons_of_mem _ ht)
    refine ⟨fs :: rest, ?_, .cons h2 h4⟩
    rw [bandTypes, h1]
    change (bandTypes (m0 :: models) (.listed ids) ts >>= fun rest => Except.ok (fs ++ rest)) = _
    rw [h3]
    rfl

/-- **C171 is violated for all the samples and several prediction types.** The second prediction type is
refused. -/
theorem C171_types_violated {m0 : UqModel} {models : List UqModel}
    (hd : ((m0 :: models).map UqModel.trainSize).Nodup)
    (hs : ∀ m ∈ m0 :: models, m.testSize = m0.testSize) {t t' : String × List String} (ht : t.2 ≠ [])
    (h : ∀ m ∈ m0 :: models, ∀ j s, ∀ q ∈ m.path t.1 j s, q.2.2 ≠ []) (ts : List (String × List String)) :
    uqConvergence "time_series_path" (m0 :: models) .all (t :: t' :: ts) = .error .runtimeError := by
  obtain ⟨figs, h1, -⟩ := bandType_ok hd hs (st := .all) rfl t h
  have e : nextSamples m0.testSize t.2 .all = .range m0.testSize := by
    unfold nextSamples
    exact if_neg ht
  rw [uqConvergence_path, bandTypes, h1, e]
  rfl

/-- **C171 is violated for training sets of the same size.** Of two models whose training sets have the same
size, only the second one is shown. -/
theorem C171_same_size_violated {m0 m m' : UqModel} (hm : m.trainSize = m'.trainSize) (t : String)
    (c : String × ℕ) (s : ℕ) (h : ∀ q ∈ m'.path t c.2 s, q.2.2 ≠ []) :
    ∃ f pts, bandFigure m0 [m, m'] t c s = .ok f ∧
      f.curves = [("N = " ++ toString m'.trainSize, pts)] ∧ ShowsBand (m'.path t c.2 s) pts := by
  obtain ⟨pts, h1, h2⟩ := bandCurve_ok h
  refine ⟨⟨c.1, s, ("Ground-Truth", (m0.path t c.2 s).map fun q => (q.1, q.2.1)),
    [(convergenceLabel m'.trainSize, pts)]⟩, pts, ?_, rfl, h2⟩
  unfold bandFigure fillDict
  have hg := convergenceLabel_ne m'.trainSize
  simp only [List.map_cons, List.map_nil, List.foldl_cons, List.foldl_nil, KDict.put, hm,
    if_neg (Ne.symm hg), if_pos]
  rw [referenceCurve_ok, List.mapM_cons, h1]
  rfl

/-- **C171 (refusals).** Scatter plots and other kinds of plots are refused, and so are testing sets of
different sizes. -/
theorem C171_refusals {models : List UqModel} (st : SampleIds) (t : String × List String)
    (ts : List (String × List String)) :
    (∀ p, p ≠ "time_series_path" → uqConvergence p models st (t :: ts) = .error .runtimeError) ∧
    ((∃ m ∈ models, ∃ m' ∈ models, m.testSize ≠ m'.testSize) ∨ models = [] →
      uqConvergence "time_series_path" models .all (t :: ts) = .error .runtimeError) := by
  constructor
  · intro p hp
    unfold uqConvergence checkPlotType
    by_cases h : p = "time_series_scatter"
    · rw [raiseIf, if_neg (by simp [h]), raiseIf, if_pos ⟨h, by simp⟩]
      rfl
    · rw [raiseIf, if_pos ⟨h, hp⟩]
      rfl
  · intro h
    have h1 : (models.map UqModel.testSize).dedup.length ≠ 1 := by
      intro e
      obtain ⟨x, hx⟩ := List.length_eq_one_iff.mp e
      rcases h with ⟨m, hm, m', hm', hne⟩ | rfl
      · have h2 : ∀ m ∈ models, m.testSize = x := fun m hm => by
          have := List.mem_dedup.mpr (List.mem_map_of_mem (f := UqModel.testSize) hm)
          rw [hx] at this
          exact List.mem_singleton.mp this
        exact hne ((h2 m hm).trans (h2 m' hm').symm)
      · simp at e
    rw [uqConvergence_path, bandTypes, bandType]
    have e : (models.forM fun m => checkSamples m.testSize .all) = .ok () := forM_ok fun m _ => rfl
    rw [e, raiseIf, if_pos h1]
    rfl

/-- Two models that have been trained twice, with training sets of 10 and 20 paths, and one sample. -/
example : ∃ m0 m1 : UqModel, ([m0, m1].map UqModel.trainSize).Nodup ∧
    (∀ m ∈ [m0, m1], m.testSize = m0.testSize) ∧
    (∀ m ∈ [m0, m1], ∀ j s, ∀ q ∈ m.path "stress_comps" j s, q.2.2 ≠ []) ∧
    m0.path "stress_comps" 0 0 ≠ m1.path "stress_comps" 0 0 := by
  refine ⟨⟨10, 1, fun _ _ _ => [(0, 1, [1, 2])]⟩, ⟨20, 1, fun _ _ _ => [(0, 1, [1, 3])]⟩, by simp, by simp,
    ?_, ?_⟩
  · intro m hm j s q hq
    simp only [List.mem_cons, List.not_mem_nil, or_false] at hm
    rcases hm with rfl | rfl <;> simp only [List.mem_singleton] at hq <;> subst hq <;> simp
  · simp

end Hooke
