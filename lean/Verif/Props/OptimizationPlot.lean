import Verif.Spec.OptimizationPlot
import Verif.Lemmas.MapM
import Verif.Lemmas.StrainPath
import Verif.Props.SpecimenHistory

/-! # C170: plots of optimization histories -/

noncomputable section

open Classical

namespace Hooke

open Spec

theorem jobMetric_ok {name text : List Char} {before after : JobLines} {v : ℝ} (h : name <:+: text)
    (hb : ∀ l ∈ before, ¬ name <:+: l.1) :
    jobMetric name (before ++ (text, some v) :: after) = .ok v := by
  unfold jobMetric
  have e : (before ++ (text, some v) :: after).find? (fun l => decide (name <:+: l.1)) =
      some (text, some v) := by
    rw [List.find?_append, List.find?_eq_none.mpr fun l hl => by simpa using hb l hl, Option.none_or,
      List.find?_cons_of_pos (by simpa using h)]
  rw [e]
  rfl

theorem jobMetrics_ok {name : List Char} {files : List JobLines} {vs : List ℝ}
    (h : List.Forall₂ (fun lines v => jobMetric name lines = .ok v) files vs) (k : ℕ) :
    jobMetrics name k ((List.range' k files.length).zip (files.map some)) = .ok vs := by
  induction h generalizing k with
  | nil => rfl
  | cons h1 _ ih =>
    rw [List.length_cons, List.range'_succ, List.map_cons, List.zip_cons_cons, jobMetrics, raiseIf,
      if_neg (by simp)]
    change (jobMetric name _ >>= fun v => jobMetrics name (k + 1) _ >>= fun vs => pure (v :: vs)) = _
    rw [h1, ih]
    rfl

theorem processMetrics_ok {name : List Char} {dirs : List (ℕ × Option JobLines)} {vs : List ℝ}
    (h : HasMetrics name dirs vs) (hv : vs ≠ []) : processMetrics name dirs = .ok vs := by
  obtain ⟨files, hp, hf⟩ := h
  have hlen : files.length = vs.length := hf.length_eq
  have hne : dirs ≠ [] := by
    rintro rfl
    have := hp.length_eq
    simp at this
    exact hv (List.length_eq_zero_iff.mp (by rw [← hlen, ← this]))
  unfold processMetrics
  rw [raiseIf, if_neg hne]
  change jobMetrics name 0 _ = _
  rw [insertionSort_perm (l := (List.range files.length).zip (files.map some)) ?_ hp, List.range_eq_range']
  · refine jobMetrics_ok (hf.imp ?_) 0
    rintro lines v ⟨before, text, after, rfl, h1, h2⟩
    exact jobMetric_ok h1 h2
  · rw [List.map_fst_zip (by simp)]
    exact List.pairwise_lt_range

theorem bestFrom_spec (vs : List ℝ) (b : ℝ) : (bestFrom b vs).length = vs.length ∧
    ∀ (k : ℕ) (y : ℝ), (bestFrom b vs)[k]? = some y →
      (y = b ∨ y ∈ vs.take (k + 1)) ∧ y ≤ b ∧ ∀ x ∈ vs.take (k + 1), y ≤ x := by
  induction vs generalizing b with
  | nil => exact ⟨rfl, fun k y h => by simp [bestFrom] at h⟩
  | cons x vs ih =>
    obtain ⟨h1, h2⟩ := ih (if x < b then x else b)
    refine ⟨by rw [bestFrom, List.length_cons, h1, List.length_cons], fun k y h => ?_⟩
    have hle : (if x < b then x else b) ≤ b ∧ (if x < b then x else b) ≤ x := by
      split_ifs with h
      · exact ⟨h.le, le_rfl⟩
      · exact ⟨le_rfl, not_lt.mp h⟩
    have hor : (if x < b then x else b) = b ∨ (if x < b then x else b) = x := by
      split_ifs
      · exact Or.inr rfl
      · exact Or.inl rfl
    rw [bestFrom] at h
    cases k with
    | zero =>
      rw [List.getElem?_cons_zero] at h
      obtain rfl := Option.some.inj h
      refine ⟨?_, hle.1, ?_⟩
      · rcases hor with h | h
        · exact Or.inl h
        · exact Or.inr (by rw [h]; simp)
      · intro z hz
        simp only [Nat.zero_add, List.take_succ_cons, List.take_zero, List.mem_singleton] at hz
        rw [hz]
        exact hle.2
    | succ k =>
      rw [List.getElem?_cons_succ] at h
      obtain ⟨g1, g2, g3⟩ := h2 k y h
      refine ⟨?_, g2.trans hle.1, ?_⟩
      · rcases g1 with g1 | g1
        · rcases hor with h | h
          · exact Or.inl (g1.trans h)
          · exact Or.inr (by rw [g1, h]; simp)
        · exact Or.inr (by rw [List.take_succ_cons]; exact List.mem_cons_of_mem _ g1)
      · intro z hz
        rw [List.take_succ_cons, List.mem_cons] at hz
        rcases hz with rfl | hz
        · exact g2.trans hle.2
        · exact g3 z hz

theorem bestFrom_best {v : ℝ} {vs : List ℝ} : BestSoFar (v :: vs) (bestFrom v (v :: vs)) := by
  obtain ⟨h1, h2⟩ := bestFrom_spec (v :: vs) v
  refine ⟨h1, fun k b h => ?_⟩
  obtain ⟨g1, -, g3⟩ := h2 k b h
  refine ⟨?_, g3⟩
  rcases g1 with rfl | g1
  · rw [List.take_succ_cons]
    exact List.mem_cons_self
  · exact g1

/-- The values that are shown. -/
theorem assign_same {vs : List ℝ} : assignMetrics vs.length vs = .ok vs := by
  match vs with
  | [] => simp [assignMetrics, raiseIf]
  | [v] => rfl
  | v :: w :: r => simp [assignMetrics, raiseIf]

theorem optimizationPlot_same {name : List Char} {procs : List (String × List (ℕ × Option JobLines))}
    {hist : List (List ℝ)} {v : ℝ} {vs : List ℝ} (isLog : Bool)
    (h : List.Forall₂ (fun (p : String × List (ℕ × Option JobLines)) us => us ≠ [] ∧ HasMetrics name p.2 us)
      procs hist) (hl : hist.getLast? = some (v :: vs)) (hn : ∀ us ∈ hist, us.length = (v :: vs).length) :
    optimizationPlot isLog name procs = .ok ⟨procs.map fun p => (p.1, (List.range (v :: vs).length).zip
        (if isLog then (v :: vs).map Real.log else v :: vs)),
      bestFrom (if isLog then Real.log v else v) (if isLog then (v :: vs).map Real.log else v :: vs)⟩ := by
  have e1 : procs.mapM (fun p => processMetrics name p.2) = .ok hist := by
    clear hl hn
    induction h with
    | nil => rfl
    | cons h1 _ ih =>
      rw [List.mapM_cons, processMetrics_ok h1.2 h1.1, ih]
      rfl
  obtain ⟨w, ws, hw, hww⟩ : ∃ w ws, (if isLog then (v :: vs).map Real.log else v :: vs) = w :: ws ∧
      w = (if isLog then Real.log v else v) := by
    cases isLog
    · exact ⟨v, vs, rfl, rfl⟩
    · exact ⟨Real.log v, vs.map Real.log, rfl, rfl⟩
  have hwl : (w :: ws).length = (v :: vs).length := by
    rw [← hw]
    split_ifs <;> simp
  have e2 : hist.mapM (fun us => assignMetrics us.length (w :: ws)) =
      .ok (hist.map fun _ => w :: ws) := by
    refine mapM_of_forall fun us hus => ?_
    rw [hn us hus, ← hwl]
    exact assign_same
  have e3 : (hist.map fun _ => w :: ws).head? = some (w :: ws) := by
    cases hist with
    | nil => cases hl
    | cons _ _ => rfl
  have e4 : ¬ ∃ c ∈ hist.map fun _ => w :: ws, (w :: ws).length < c.length := by
    rintro ⟨c, hc, hlt⟩
    obtain ⟨-, -, rfl⟩ := List.mem_map.mp hc
    exact absurd hlt (lt_irrefl _)
  unfold optimizationPlot
  rw [e1]
  change (orRaise hist.getLast? .indexError >>= fun last => _) = _
  rw [hl]
  change (hist.mapM (fun us => assignMetrics us.length
    (if isLog then (v :: vs).map Real.log else v :: vs)) >>= fun cols => _) = _
  rw [hw, e2]
  change (orRaise (hist.map fun _ => w :: ws).head? .indexError >>= fun first => _) = _
  rw [e3]
  change (raiseIf (∃ c ∈ hist.map fun _ => w :: ws, (w :: ws).length < c.length) .typeError >>= fun _ => _) = _
  rw [raiseIf, if_neg e4, ← hww]
  change Except.ok _ = Except.ok _
  congr 2
  rw [← hwl]
  clear hl hn e1 e2 e3 e4
  induction h with
  | nil => rfl
  | cons _ _ ih =>
    simp only [List.map_cons, List.zip_cons_cons]
    rw [ih]

/-- **C170 (one process).** The plot of an optimization process, whose jobs are found in any order, shows the
metric of every job at its number, or its logarithm, and the line of the best metrics so far. -/
theorem C170_single {name : List Char} {label : String} {dirs : List (ℕ × Option JobLines)} {vs : List ℝ}
    (h : HasMetrics name dirs vs) (hv : vs ≠ []) :
    (∃ best, optimizationPlot false name [(label, dirs)] =
      .ok ⟨[(label, (List.range vs.length).zip vs)], best⟩ ∧ BestSoFar vs best) ∧
    ∃ best, optimizationPlot true name [(label, dirs)] =
      .ok ⟨[(label, (List.range vs.length).zip (vs.map Real.log))], best⟩ ∧
      BestSoFar (vs.map Real.log) best := by
  obtain ⟨v, ws, rfl⟩ := List.exists_cons_of_ne_nil hv
  constructor
  · exact ⟨_, optimizationPlot_same false (.cons ⟨hv, h⟩ .nil) rfl (by simp), bestFrom_best⟩
  · exact ⟨_, optimizationPlot_same true (.cons ⟨hv, h⟩ .nil) rfl (by simp), bestFrom_best⟩

/-- **C170 is violated for several processes.** Processes with the same number of jobs are all shown with the
metrics of the last one, and the line of the best metrics is that of the last one. -/
theorem C170_several_violated {name : List Char} {procs : List (String × List (ℕ × Option JobLines))}
    {hist : List (List ℝ)} {vs : List ℝ} (hv : vs ≠ [])
    (h : List.Forall₂ (fun (p : String × List (ℕ × Option JobLines)) us => us ≠ [] ∧ HasMetrics name p.2 us)
      procs hist) (hl : hist.getLast? = some vs) (hn : ∀ us ∈ hist, us.length = vs.length) :
    ∃ best, optimizationPlot false name procs =
      .ok ⟨procs.map fun p => (p.1, (List.range vs.length).zip vs), best⟩ ∧ BestSoFar vs best := by
  obtain ⟨v, ws, rfl⟩ := List.exists_cons_of_ne_nil hv
  exact ⟨_, optimizationPlot_same false h hl hn, bestFrom_best⟩

/-- **C170 is violated for processes with different numbers of jobs.** Two such processes raise a
`ValueError`, unless the second one has a single job. -/
theorem C170_lengths_violated {name : List Char} {l l' : String} {d d' : List (ℕ × Option JobLines)}
    {us vs : List ℝ} (hu : us ≠ []) (hv : vs ≠ []) (h : HasMetrics name d us) (h' : HasMetrics name d' vs)
    (hn : us.length ≠ vs.length) (h1 : vs.length ≠ 1) :
    optimizationPlot false name [(l, d), (l', d')] = .error .valueError := by
  unfold optimizationPlot
  have e1 : [(l, d), (l', d')].mapM (fun p => processMetrics name p.2) = .ok [us, vs] := by
    rw [List.mapM_cons, List.mapM_cons, processMetrics_ok h hu, processMetrics_ok h' hv]
    rfl
  rw [e1]
  change ([us, vs].mapM (fun w => assignMetrics w.length vs) >>= fun cols => _) = _
  have e2 : assignMetrics us.length vs = .error .valueError := by
    match vs, hv, h1, hn with
    | v :: w :: r, _, _, hn =>
      simp only [assignMetrics, raiseIf]
      rw [if_pos (Ne.symm hn)]
      rfl
  rw [List.mapM_cons, e2]
  rfl

/-- **C170 is violated for metrics whose name is part of another line.** The metric is read from the first
line that contains its name: of a summary with a validation loss before the loss, the validation loss is
shown as the loss. -/
theorem C170_name_violated (x y : ℝ) :
    jobMetric "loss".toList [("validation_loss: 2".toList, some x), ("loss: 1".toList, some y)] = .ok x := by
  refine jobMetric_ok (before := []) ?_ (by simp)
  exact ⟨"validation_".toList, ": 2".toList, by decide⟩

theorem jobMetrics_ids {name : List Char} {k : ℕ} {l : List (ℕ × Option JobLines)} {vs : List ℝ}
    (h : jobMetrics name k l = .ok vs) : l.map Prod.fst = List.range' k l.length ∧ vs.length = l.length := by
  induction l generalizing k vs with
  | nil =>
    cases h
    exact ⟨rfl, rfl⟩
  | cons q l ih =>
    obtain ⟨id, file⟩ := q
    rw [jobMetrics] at h
    by_cases hid : id = k
    · obtain ⟨-, -, h⟩ := bind_ok h
      obtain ⟨lines, -, h⟩ := bind_ok h
      obtain ⟨v, -, h⟩ := bind_ok h
      obtain ⟨ws, hws, h⟩ := bind_ok h
      cases h
      obtain ⟨h1, h2⟩ := ih hws
      exact ⟨by rw [List.map_cons, h1, hid, List.length_cons, List.range'_succ], by simp [h2]⟩
    · rw [raiseIf, if_pos hid] at h
      cases h

/-- **C170 (jobs).** Only processes whose jobs have the numbers `0, 1, ...` without a gap are accepted, and a
metric is found for every job. -/
theorem C170_jobs {name : List Char} {dirs : List (ℕ × Option JobLines)} {vs : List ℝ}
    (h : processMetrics name dirs = .ok vs) :
    (dirs.map Prod.fst).Perm (List.range dirs.length) ∧ vs.length = dirs.length := by
  unfold processMetrics at h
  obtain ⟨-, -, h⟩ := bind_ok h
  obtain ⟨h1, h2⟩ := jobMetrics_ids h
  have hp := List.perm_insertionSort (fun a b : ℕ × Option JobLines => a.1 ≤ b.1) dirs
  rw [hp.length_eq] at h1 h2
  refine ⟨?_, h2⟩
  rw [List.range_eq_range', ← h1]
  exact (hp.map _).symm

/-- **C170 (refusals).** A process without jobs, a missing job, a job without a summary and a summary without
the metric are refused. -/
theorem C170_refusals (name : List Char) :
    processMetrics name [] = .error .runtimeError ∧
    (∀ (dirs : List (ℕ × Option JobLines)), dirs ≠ [] → (∀ q ∈ dirs, q.1 ≠ 0) →
      processMetrics name dirs = .error .runtimeError) ∧
    (∀ k file rest, file = none ∨ (∃ lines : JobLines, file = some lines ∧ ∀ l ∈ lines, ¬ name <:+: l.1) →
      ∀ id, jobMetrics name k ((id, file) :: rest) = .error .runtimeError) := by
  refine ⟨?_, ?_, ?_⟩
  · unfold processMetrics
    rw [raiseIf, if_pos rfl]
    rfl
  · intro dirs hne h0
    unfold processMetrics
    rw [raiseIf, if_neg hne]
    change jobMetrics name 0 (dirs.insertionSort fun a b => a.1 ≤ b.1) = _
    obtain ⟨q, r, hq⟩ := List.exists_cons_of_ne_nil (l := dirs.insertionSort fun a b => a.1 ≤ b.1) (by
      intro e
      have := (List.perm_insertionSort (fun a b : ℕ × Option JobLines => a.1 ≤ b.1) dirs).length_eq
      rw [e] at this
      exact hne (List.length_eq_zero_iff.mp this.symm))
    have hm : q ∈ dirs :=
      (List.perm_insertionSort (fun a b : ℕ × Option JobLines => a.1 ≤ b.1) dirs).mem_iff.mp (by
        rw [hq]
        exact List.mem_cons_self)
    rw [hq, jobMetrics, raiseIf, if_pos (h0 q hm)]
    rfl
  · intro k file rest h id
    rw [jobMetrics]
    by_cases hid : id = k
    · rw [raiseIf, if_neg (not_not.mpr hid)]
      rcases h with rfl | ⟨lines, rfl, h⟩
      · rfl
      · change (jobMetric name lines >>= fun v => _) = _
        have e : lines.find? (fun l => decide (name <:+: l.1)) = none :=
          List.find?_eq_none.mpr fun l hl => by simpa using h l hl
        rw [jobMetric, e]
        rfl
    · rw [raiseIf, if_pos hid]
      rfl

/-- A process of two jobs that are listed in reverse, with the metrics 3 and 2. -/
example : HasMetrics "loss".toList
    [(1, some [("loss: 2".toList, some 2)]), (0, some [("n: 5".toList, some 5), ("loss: 3".toList, some 3)])]
    [3, 2] := by
  refine ⟨[[("n: 5".toList, some 5), ("loss: 3".toList, some 3)], [("loss: 2".toList, some 2)]],
    List.Perm.swap _ _ _, .cons ?_ (.cons ?_ .nil)⟩
  · refine ⟨[("n: 5".toList, some 5)], "loss: 3".toList, [], rfl, ⟨[], ": 3".toList, by decide⟩, ?_⟩
    intro l hl
    rw [List.mem_singleton] at hl
    subst hl
    decide
  · exact ⟨[], "loss: 2".toList, [], rfl, ⟨[], ": 2".toList, by decide⟩, by simp⟩

end Hooke
