import Verif.Spec.UncertaintyRuns
import Verif.Props.PredictionData
import Verif.Props.LearnableParameters
import Verif.Lemmas.PyDict
import Verif.Lemmas.Py
import Verif.Lemmas.MapM
import Verif.Lemmas.StrainPath

/-!
# C136: an uncertainty quantification keeps each realization by itself
-/

namespace Hooke

open Spec

variable {M P : Type}

theorem realizationDir_inj {a b : ℕ} (h : realizationDir a = realizationDir b) : a = b :=
  strNat_inj (List.append_cancel_left h)

theorem uqLoop_append (train : ℕ → M → Py Unit × M) (predict : M → Py P) (testing : Text) (tr : Bool)
    (a b : List ℕ) (s s' : UqState M P) (h : uqLoop train predict testing tr a s = (.ok (), s')) :
    uqLoop train predict testing tr (a ++ b) s = uqLoop train predict testing tr b s' := by
  induction a generalizing s with
  | nil =>
    simp only [uqLoop, Prod.mk.injEq, true_and] at h
    subst h
    rfl
  | cons i a ih =>
    simp only [uqLoop, List.cons_append] at h ⊢
    rcases hs : uqStep train predict testing tr i s with ⟨o, t⟩
    rw [hs] at h
    cases o with
    | error e => simp at h
    | ok u => exact ih t h

theorem uqStep_trained (train : ℕ → M → Py Unit × M) (predict : M → Py P) (testing : Text) (i : ℕ)
    (s : UqState M P) (m : M) (p : P) (ht : train i s.work = (.ok (), m)) (hp : predict m = .ok p)
    (hk : realizationDir i ∉ s.uq.keys) :
    uqStep train predict testing true i s =
      (.ok (), ⟨s.uq ++ [(realizationDir i, ⟨some m, some [(testing, p)]⟩)], m, some p⟩) := by
  have hput : ∀ (d : KDict Text (UqSample M P)) (k : Text) (v w : UqSample M P), k ∉ d.keys →
      KDict.put (d ++ [(k, v)]) k w = d ++ [(k, w)] := by
    intro d k v w hk
    induction d with
    | nil => simp [KDict.put]
    | cons q d ih =>
      obtain ⟨k', v'⟩ := q
      have h1 : k' ≠ k := by
        intro h
        exact hk (by simp [KDict.keys, h])
      have h2 : k ∉ KDict.keys d := by
        intro h
        exact hk (by simp only [KDict.keys, List.map_cons, List.mem_cons]; exact .inr h)
      simp [KDict.put, h1, ih h2]
  have e1 : s.uq.put (realizationDir i) ⟨none, none⟩ = s.uq ++ [(realizationDir i, ⟨none, none⟩)] :=
    put_of_notMem _ _ _ hk
  simp only [uqStep, uqTrain, if_true, ht, e1, hput _ _ _ _ hk]
  have e2 : KDict.get? (s.uq ++ [(realizationDir i, (⟨some m, none⟩ : UqSample M P))]) (realizationDir i) =
      some ⟨some m, none⟩ := by
    rw [← put_of_notMem _ _ _ hk, KDict.get?_put_self]
  simp only [uqPredict, e2, hp, hput _ _ _ _ hk]
  rfl

/-- **C136.** With training, when all trainings and predictions succeed, whatever was in the directory of the
uncertainty quantification is replaced by exactly the realizations `0`, …, `n - 1`: each one is the content of
the model directory right after its own training, with the prediction of that same model. -/
theorem C136_trained (train : ℕ → M → Py Unit × M) (predict : M → Py P) (testing : Text) (n : ℕ)
    (s : UqState M P) (dirs : ℕ → M) (out : ℕ → P) (h0 : dirs 0 = s.work)
    (h : UqRuns train predict n dirs out) :
    ∃ s', performUq train predict testing true n s = (.ok (), s') ∧
      s'.uq = (List.range n).map (fun i : ℕ =>
        (realizationDir i, ⟨some (dirs (i + 1)), some [(testing, out i)]⟩)) ∧
      s'.work = dirs n := by
  simp only [performUq, if_true]
  induction n with
  | zero => exact ⟨_, rfl, rfl, h0.symm⟩
  | succ n ih =>
    obtain ⟨s1, h1, h2, h3⟩ := ih ⟨fun i hi => h.trained i (by omega), fun i hi => h.predicted i (by omega)⟩
    have hk : realizationDir n ∉ s1.uq.keys := by
      rw [h2]
      simp only [KDict.keys, List.map_map, List.mem_map, List.mem_range, Function.comp_apply, not_exists,
        not_and]
      intro i hi he
      have := realizationDir_inj he
      omega
    have ht := h.trained n (by omega)
    rw [← h3] at ht
    have hst := uqStep_trained train predict testing n s1 _ _ ht (h.predicted n (by omega)) hk
    refine ⟨⟨s1.uq ++ [(realizationDir n, ⟨some (dirs (n + 1)), some [(testing, out n)]⟩)], dirs (n + 1),
      some (out n)⟩, ?_, ?_, rfl⟩
    · rw [List.range_succ, uqLoop_append _ _ _ _ _ _ _ _ h1]
      simp only [uqLoop, hst]
    · simp only [List.range_succ, List.map_append, List.map_cons, List.map_nil, h2]

/-- **C136.** When a training does not depend on what is in the model directory, each realization holds
the result of its own training. -/
theorem C136_own (train : ℕ → M → Py Unit × M) (predict : M → Py P) (testing : Text) (n : ℕ)
    (s : UqState M P) (fresh : ℕ → M) (out : ℕ → P) (ht : ∀ i < n, ∀ m, train i m = (.ok (), fresh i))
    (hp : ∀ i < n, predict (fresh i) = .ok (out i)) :
    ∃ s', performUq train predict testing true n s = (.ok (), s') ∧
      s'.uq = (List.range n).map (fun i : ℕ =>
        (realizationDir i, ⟨some (fresh i), some [(testing, out i)]⟩)) := by
  obtain ⟨s', h1, h2, -⟩ := C136_trained train predict testing n s
    (fun i : ℕ => if i = 0 then s.work else fresh (i - 1)) out rfl
    ⟨fun i hi => by simpa using ht i hi _, fun i hi => by simpa using hp i hi⟩
  exact ⟨s', h1, by simpa using h2⟩

theorem uqStep_predict (train : ℕ → M → Py Unit × M) (predict : M → Py P) (testing : Text) (i : ℕ)
    (s s' : UqState M P) (h : uqStep train predict testing false i s = (.ok (), s')) :
    s'.work = s.work ∧ ∀ name, s'.uq.get? name =
      match s.uq.get? name with
      | some ⟨some m, preds⟩ => if name = realizationDir i then
          (match predict m with
            | .ok p => some (withPrediction ⟨some m, preds⟩ testing p)
            | .error _ => none)
        else some ⟨some m, preds⟩
      | r => r := by
  simp only [uqStep, Bool.false_eq_true, if_false, uqPredict] at h
  rcases hg : s.uq.get? (realizationDir i) with _ | ⟨_ | m, preds⟩
  · rw [hg] at h
    simp only [Prod.mk.injEq, true_and] at h
    subst h
    refine ⟨rfl, fun name => ?_⟩
    by_cases hn : name = realizationDir i
    · subst hn; rw [hg]
    · rcases hg' : s.uq.get? name with _ | ⟨_ | m', preds'⟩ <;> simp [hn]
  · rw [hg] at h
    simp only [Prod.mk.injEq, true_and] at h
    subst h
    refine ⟨rfl, fun name => ?_⟩
    by_cases hn : name = realizationDir i
    · subst hn; rw [hg]
    · rcases hg' : s.uq.get? name with _ | ⟨_ | m', preds'⟩ <;> simp [hn]
  · rw [hg] at h
    rcases hp : predict m with e | p
    · simp [hp] at h
    · simp only [hp, Prod.mk.injEq, true_and] at h
      subst h
      refine ⟨rfl, fun name => ?_⟩
      simp only [KDict.get?_put]
      by_cases hn : name = realizationDir i
      · subst hn; simp [hg, hp, withPrediction]
      · rcases hg' : s.uq.get? name with _ | ⟨_ | m', preds'⟩ <;> simp [hn]

/-- **C136.** Without training, a successful run leaves the models and the model directory as they are.
Each realization below `n` that has a model gets the prediction of that model, in the place of an earlier one
of the same type and beside those of other types; everything else is unchanged. -/
theorem C136_predicted (train : ℕ → M → Py Unit × M) (predict : M → Py P) (testing : Text) (n : ℕ)
    (s s' : UqState M P) (h : performUq train predict testing false n s = (.ok (), s')) :
    s'.work = s.work ∧
      (∀ i < n, ∀ m preds, s.uq.get? (realizationDir i) = some ⟨some m, preds⟩ →
        ∃ p, predict m = .ok p ∧
          s'.uq.get? (realizationDir i) = some (withPrediction ⟨some m, preds⟩ testing p)) ∧
      ∀ name, (∀ i < n, name ≠ realizationDir i) ∨ (∀ r, s.uq.get? name = some r → r.model = none) →
        s'.uq.get? name = s.uq.get? name := by
  simp only [performUq, Bool.false_eq_true, if_false] at h
  induction n generalizing s' with
  | zero =>
    simp only [List.range_zero, uqLoop, Prod.mk.injEq, true_and] at h
    subst h
    exact ⟨rfl, fun i hi => absurd hi (by omega), fun _ _ => rfl⟩
  | succ n ih =>
    have hex : ∃ s1, uqLoop train predict testing false (List.range n) s = (.ok (), s1) := by
      by_contra hne
      have key : ∀ (a b : List ℕ) (t : UqState M P),
          (∀ t1, uqLoop train predict testing false a t ≠ (.ok (), t1)) →
          ∀ t2, uqLoop train predict testing false (a ++ b) t ≠ (.ok (), t2) := by
        intro a b
        induction a with
        | nil => intro t ht; exact absurd rfl (ht t)
        | cons i a iha =>
          intro t ht t2
          simp only [uqLoop, List.cons_append] at ht ⊢
          rcases hs : uqStep train predict testing false i t with ⟨o, u⟩
          rw [hs] at ht
          cases o with
          | error e => simp
          | ok _ => exact iha u ht t2
      refine key (List.range n) [n] s (fun t1 ht1 => hne ⟨t1, ht1⟩) s' ?_
      rw [← List.range_succ]
      exact h
    obtain ⟨s1, h1⟩ := hex
    obtain ⟨hw, hm, ho⟩ := ih s1 h1
    rw [List.range_succ, uqLoop_append _ _ _ _ _ _ _ _ h1] at h
    simp only [uqLoop] at h
    have hstep : uqStep train predict testing false n s1 = (.ok (), s') := by
      rcases hs : uqStep train predict testing false n s1 with ⟨o, u⟩
      rw [hs] at h
      cases o with
      | error e => simp at h
      | ok _ => simpa using h
    obtain ⟨hw', hg⟩ := uqStep_predict _ _ _ _ _ _ hstep
    refine ⟨hw'.trans hw, ?_, ?_⟩
    · intro i hi m preds hi'
      by_cases hin : i = n
      · subst hin
        have he : s1.uq.get? (realizationDir i) = some ⟨some m, preds⟩ := by
          rw [ho _ (.inl fun j hj he => by have := realizationDir_inj he; omega), hi']
        have hgi := hg (realizationDir i)
        rw [he] at hgi
        rcases hp : predict m with e | p
        · exfalso
          simp only [uqStep, Bool.false_eq_true, if_false, uqPredict, he, hp, Prod.mk.injEq] at hstep
          simp at hstep
        · exact ⟨p, rfl, by simpa [hp] using hgi⟩
      · obtain ⟨p, hp, he⟩ := hm i (by omega) m preds hi'
        refine ⟨p, hp, ?_⟩
        have hgi := hg (realizationDir i)
        rw [he] at hgi
        have hne : realizationDir i ≠ realizationDir n := fun he => hin (realizationDir_inj he)
        simpa [withPrediction, hne] using hgi
    · intro name hname
      have he : s1.uq.get? name = s.uq.get? name := by
        refine ho name ?_
        rcases hname with h' | h'
        · exact .inl fun i hi => h' i (by omega)
        · exact .inr h'
      have hgn := hg name
      rw [he] at hgn
      rw [hgn]
      rcases hr : s.uq.get? name with _ | ⟨_ | m', preds'⟩
      · rfl
      · rfl
      · rcases hname with h' | h'
        · simp [h' n (by omega)]
        · exact absurd (h' _ hr) (by simp)

/-- **C136.** The first error, of a training or a prediction, ends the run and is reported; the realizations
before it have been completed. -/
theorem C136_stops (train : ℕ → M → Py Unit × M) (predict : M → Py P) (testing : Text) (n k : ℕ)
    (hk : k < n) (s : UqState M P) (dirs : ℕ → M) (out : ℕ → P) (h0 : dirs 0 = s.work)
    (h : UqRuns train predict k dirs out) (e : PyErr)
    (hf : (train k (dirs k)).1 = .error e ∨
      train k (dirs k) = (.ok (), dirs (k + 1)) ∧ predict (dirs (k + 1)) = .error e) :
    ∃ s', performUq train predict testing true n s = (.error e, s') ∧
      ∀ i < k, s'.uq.get? (realizationDir i) = some ⟨some (dirs (i + 1)), some [(testing, out i)]⟩ := by
  obtain ⟨s1, h1, h2, h3⟩ := C136_trained train predict testing k s dirs out h0 h
  simp only [performUq, if_true] at h1 ⊢
  have hsplit : List.range n = List.range k ++ (k :: (List.range' (k + 1) (n - k - 1))) := by
    have e1 : n = k + (n - k - 1 + 1) := by omega
    rw [← List.range'_succ, List.range_eq_range', List.range_eq_range']
    conv_lhs => rw [e1]
    rw [← List.range'_append (s := 0) (m := k) (n := n - k - 1 + 1) (step := 1)]
    simp
  rw [hsplit, uqLoop_append _ _ _ _ _ _ _ _ h1]
  have hget : ∀ i < k, s1.uq.get? (realizationDir i) =
      some ⟨some (dirs (i + 1)), some [(testing, out i)]⟩ := by
    intro i hi
    refine get?_of_mem _ ?_ _ _ ?_
    · rw [h2]
      simp only [KDict.keys, List.map_map]
      exact List.Nodup.map_on (fun a _ b _ hab => realizationDir_inj hab) List.nodup_range
    · rw [h2]
      exact List.mem_map.mpr ⟨i, List.mem_range.mpr hi, rfl⟩
  have hne : ∀ i < k, realizationDir i ≠ realizationDir k := fun i hi he => by
    have := realizationDir_inj he
    omega
  rw [← h3] at hf
  simp only [uqLoop]
  rcases hf with hf | ⟨hf, hp⟩
  · rcases ht : train k s1.work with ⟨o, m⟩
    rw [ht] at hf
    simp only at hf
    subst hf
    have hst : uqStep train predict testing true k s1 =
        (.error e, ⟨s1.uq.put (realizationDir k) ⟨none, none⟩, m, s1.scratch⟩) := by
      simp only [uqStep, if_true, uqTrain, ht]
    rw [hst]
    refine ⟨_, rfl, fun i hi => ?_⟩
    rw [KDict.get?_put_ne _ _ (hne i hi)]
    exact hget i hi
  · have hst : uqStep train predict testing true k s1 = (.error e,
        ⟨((s1.uq.put (realizationDir k) ⟨none, none⟩).put (realizationDir k) ⟨some (dirs (k + 1)), none⟩).put
          (realizationDir k) ⟨some (dirs (k + 1)), some []⟩, dirs (k + 1), none⟩) := by
      simp only [uqStep, if_true, uqTrain, hf, uqPredict, KDict.get?_put_self, hp]
      rfl
    rw [hst]
    refine ⟨_, rfl, fun i hi => ?_⟩
    simp only [KDict.get?_put_ne _ _ (hne i hi)]
    exact hget i hi

/-! ## Time series -/

theorem mapM_ok_mem {α β : Type} {f : α → Py β} {l : List α} {r : List β} (h : l.mapM f = .ok r) {x : α}
    (hx : x ∈ l) : ∃ y, f x = .ok y := by
  have h2 := mapM_forall₂ h
  clear h
  induction h2 with
  | nil => cases hx
  | cons h1 _ ih =>
    rcases List.mem_cons.mp hx with rfl | hx
    · exact ⟨_, h1⟩
    · exact ih hx

/-- **C136.** When all realizations have the path with times close to those of the first one, the plot
shows the true values and times of the first one and, in column `i`, the predictions of realization `i`. -/
theorem C136_series (n : ℕ) (data : List (KDict ℕ (List SeriesRow))) (id : ℕ)
    (rows : ℕ → List SeriesRow) (hn : 0 < n)
    (hd : ∀ i < n, ∃ d, data[i]? = some d ∧ d.get? id = some (rows i))
    (hc : ∀ i < n, List.Forall₂ (fun r q : SeriesRow => closeTo r.time q.time) (rows i) (rows 0)) :
    uqSeries n data id = .ok ⟨(rows 0).map fun r => (r.time, r.truth), (rows 0).map SeriesRow.time,
      (List.range n).map fun i : ℕ => (rows i).map SeriesRow.pred⟩ := by
  obtain ⟨d0, hd0, hr0⟩ := hd 0 hn
  have hh : data.head? = some d0 := by rw [List.head?_eq_getElem?, hd0]
  have hm : (List.range n).mapM (fun i : ℕ => (do
      let d ← orRaise data[i]? .indexError
      let rs ← orRaise (d.get? id) .keyError
      realizationColumn ((rows 0).map SeriesRow.time) rs : Py (List ℝ))) =
      .ok ((List.range n).map fun i : ℕ => (rows i).map SeriesRow.pred) := by
    refine mapM_of_forall (g := fun i : ℕ => (rows i).map SeriesRow.pred) fun i hi => ?_
    have hi := List.mem_range.mp hi
    obtain ⟨d, hdi, hri⟩ := hd i hi
    have hlen : (rows i).length = ((rows 0).map SeriesRow.time).length := by
      rw [List.length_map]; exact (hc i hi).length_eq
    have hclose : ∀ p ∈ ((rows i).map SeriesRow.time).zip ((rows 0).map SeriesRow.time),
        closeTo p.1 p.2 := by
      have : ∀ (a b : List SeriesRow), List.Forall₂ (fun r q : SeriesRow => closeTo r.time q.time) a b →
          ∀ p ∈ (a.map SeriesRow.time).zip (b.map SeriesRow.time), closeTo p.1 p.2 := by
        intro a b hab
        induction hab with
        | nil => simp
        | cons hxy _ ih =>
          simp only [List.map_cons, List.zip_cons_cons, List.mem_cons]
          rintro p (rfl | hp)
          · exact hxy
          · exact ih p hp
      exact this _ _ (hc i hi)
    refine bind_ok_iff.mpr ⟨d, orRaise_ok.mpr hdi, bind_ok_iff.mpr ⟨rows i, orRaise_ok.mpr hri, ?_⟩⟩
    unfold realizationColumn
    rw [if_pos hlen, if_pos hclose]
  unfold uqSeries
  exact bind_ok_iff.mpr ⟨d0, orRaise_ok.mpr hh, bind_ok_iff.mpr ⟨rows 0, orRaise_ok.mpr hr0,
    bind_ok_iff.mpr ⟨_, hm, rfl⟩⟩⟩

/-- **C136.** More directories of realizations than predictions asked for are refused (`IndexError`): no
column is left at zero. -/
theorem C136_fewer (n : ℕ) (data : List (KDict ℕ (List SeriesRow))) (id : ℕ) (h : data.length < n)
    (s : UqSeries) : uqSeries n data id ≠ .ok s := by
  intro h'
  unfold uqSeries at h'
  obtain ⟨d, -, h'⟩ := bind_ok h'
  obtain ⟨rs, -, h'⟩ := bind_ok h'
  obtain ⟨cs, hcs, -⟩ := bind_ok h'
  obtain ⟨c, hc⟩ := mapM_ok_mem hcs (x := data.length) (List.mem_range.mpr h)
  obtain ⟨d, hd, -⟩ := bind_ok hc
  rw [orRaise_ok] at hd
  simp at hd

/-- **C136.** A time that is not close to that of the first realization is refused. -/
theorem C136_times (n : ℕ) (data : List (KDict ℕ (List SeriesRow))) (id i : ℕ) (hi : i < n)
    (first d : KDict ℕ (List SeriesRow)) (rows rs : List SeriesRow) (h0 : data[0]? = some first)
    (hr : first.get? id = some rows) (hd : data[i]? = some d) (hrs : d.get? id = some rs)
    (hlen : rs.length = rows.length)
    (hc : ∃ p ∈ rs.zip rows, ¬closeTo p.1.time p.2.time) (s : UqSeries) :
    uqSeries n data id ≠ .ok s := by
  intro h'
  unfold uqSeries at h'
  obtain ⟨d', hd', h'⟩ := bind_ok h'
  obtain ⟨rows', hr', h'⟩ := bind_ok h'
  obtain ⟨cs, hcs, -⟩ := bind_ok h'
  rw [orRaise_ok] at hd' hr'
  rw [List.head?_eq_getElem?, h0] at hd'
  cases hd'
  rw [hr] at hr'
  cases hr'
  obtain ⟨c, hcol⟩ := mapM_ok_mem hcs (x := i) (List.mem_range.mpr hi)
  obtain ⟨d', hd', hcol⟩ := bind_ok hcol
  obtain ⟨rs', hrs', hcol⟩ := bind_ok hcol
  rw [orRaise_ok] at hd' hrs'
  rw [hd] at hd'
  cases hd'
  rw [hrs] at hrs'
  cases hrs'
  obtain ⟨p, hp, hnc⟩ := hc
  unfold realizationColumn at hcol
  rw [if_pos (by simpa using hlen), if_neg] at hcol
  · simp at hcol
  · intro hall
    refine hnc (hall (p.1.time, p.2.time) ?_)
    rw [List.zip_map]
    exact List.mem_map.mpr ⟨p, hp, rfl⟩

/-- **C136.** Testing data sets of different sizes are refused. -/
theorem C136_sizes (n : ℕ) (sizes : List ℕ) (data : List (List (KDict ℕ (List SeriesRow))))
    (type : String) (nComp : ℕ) (ids : Option (List ℕ)) (h : ∃ a ∈ sizes, ∃ b ∈ sizes, a ≠ b) :
    plotSeriesUq n sizes data type nComp ids = .error .runtimeError := by
  obtain ⟨a, ha, b, hb, hab⟩ := h
  unfold plotSeriesUq
  rcases sizes with _ | ⟨c, cs⟩
  · simp at ha
  · have : ∃ m ∈ c :: cs, m ≠ c := by
      by_cases hac : a = c
      · exact ⟨b, hb, fun hbc => hab (hac.trans hbc.symm)⟩
      · exact ⟨a, ha, hac⟩
    simp only [List.head?_cons, orRaise]
    show (do raiseIf (∃ m ∈ c :: cs, m ≠ c) .runtimeError; _ : Py _) = _
    simp only [raiseIf, if_pos this]
    rfl

/-- **C136.** The plots are made for every component and every path asked for, all the paths of the testing
data set by default, each one with the series of that component and path, and with the label of the type. -/
theorem C136_plotted (n size : ℕ) (sizes : List ℕ) (data : List (List (KDict ℕ (List SeriesRow))))
    (nComp : ℕ) (ids : Option (List ℕ)) (series : ℕ → ℕ → UqSeries) (hs : sizes ≠ [])
    (hall : ∀ m ∈ sizes, m = size)
    (h : ∀ j < nComp, ∀ id ∈ ids.getD (List.range size),
      uqSeries n (data.map fun d => d.getD j []) id = .ok (series j id)) :
    plotSeriesUq n sizes data "stress_comps" nComp ids = .ok ((List.range nComp).map fun j : ℕ =>
        (ids.getD (List.range size)).map fun id : ℕ => ("Stress (MPa)".toList, series j id)) ∧
      plotSeriesUq n sizes data "acc_p_strain" nComp ids = .ok ((List.range nComp).map fun j : ℕ =>
        (ids.getD (List.range size)).map fun id : ℕ =>
          ("Accumulated plastic strain".toList, series j id)) := by
  obtain ⟨a, l, rfl⟩ := List.exists_cons_of_ne_nil hs
  obtain rfl : a = size := hall a (by simp)
  have key : ∀ (type : String) (label : Text), uqLabel type none = .ok label →
      plotSeriesUq n (a :: l) data type nComp ids = .ok ((List.range nComp).map fun j : ℕ =>
        (ids.getD (List.range a)).map fun id : ℕ => (label, series j id)) := by
    intro type label hl
    unfold plotSeriesUq
    refine bind_ok_iff.mpr ⟨a, rfl, bind_ok_iff.mpr ⟨(), (raiseIf_ok (u := ())).mpr ?_, ?_⟩⟩
    · rintro ⟨m, hm, hne⟩
      exact hne (hall m hm)
    · refine mapM_of_forall (g := fun j : ℕ => (ids.getD (List.range a)).map fun id : ℕ =>
        (label, series j id)) fun j hj => ?_
      refine mapM_of_forall (g := fun id : ℕ => (label, series j id)) fun id hid => ?_
      exact bind_ok_iff.mpr ⟨_, h j (List.mem_range.mp hj) id hid, bind_ok_iff.mpr ⟨label, hl, rfl⟩⟩
  exact ⟨key _ _ (by simp [uqLabel]), key _ _ (by simp [uqLabel])⟩

/-! ## Violations -/

/-- **C136 is violated for realizations without a model.** Without training, realizations that are not there
are passed over in silence: the run reports success although nothing was predicted. -/
theorem C136_missing_violated (train : ℕ → M → Py Unit × M) (predict : M → Py P) (testing : Text) (n : ℕ)
    (s : UqState M P) (h : ∀ i < n, ∀ r, s.uq.get? (realizationDir i) = some r → r.model = none) :
    performUq train predict testing false n s = (.ok (), s) := by
  simp only [performUq, Bool.false_eq_true, if_false]
  have key : ∀ l : List ℕ, (∀ i ∈ l, i < n) →
      uqLoop train predict testing false l s = (.ok (), s) := by
    intro l
    induction l with
    | nil => intro _; rfl
    | cons i l ih =>
      intro hl
      have hstep : uqStep train predict testing false i s = (.ok (), s) := by
        simp only [uqStep, Bool.false_eq_true, if_false, uqPredict]
        rcases hg : s.uq.get? (realizationDir i) with _ | ⟨_ | m, preds⟩
        · rfl
        · rfl
        · exact absurd (h i (hl i (by simp)) _ hg) (by simp)
      simp only [uqLoop, hstep]
      exact ih fun j hj => hl j (by simp [hj])
  exact key _ fun i hi => List.mem_range.mp hi

/-- **C136 is violated for files of an earlier realization.** The realizations are trained in one
directory that is not emptied in between: a file that the training of the second one does not write is copied
to it from the first one. -/
theorem C136_carried_violated :
    ∃ (train : ℕ → KDict Text ℕ → Py Unit × KDict Text ℕ) (f : Text),
      (∀ i m g, (train i m).1 = .ok () ∧
        ((train i []).2.get? g = none → (train i m).2.get? g = m.get? g) ∧
        ∀ v, (train i []).2.get? g = some v → (train i m).2.get? g = some v) ∧
      (train 1 []).2.get? f = none ∧
      ∀ (predict : KDict Text ℕ → Py ℕ) (out : ℕ) (testing : Text) (scratch : Option ℕ),
        (∀ m, predict m = .ok out) →
        ∃ s' r m, performUq train predict testing true 2 ⟨[], [], scratch⟩ = (.ok (), s') ∧
          s'.uq.get? (realizationDir 1) = some r ∧ r.model = some m ∧ m.get? f = some 0 := by
  refine ⟨fun i m => (.ok (), KDict.put m (strNat i) i), strNat 0, ?_, ?_, ?_⟩
  · intro i m g
    refine ⟨rfl, fun hg => ?_, fun v hv => ?_⟩
    · simp only [KDict.get?_put] at hg ⊢
      split_ifs at hg ⊢ with hgi
      rfl
    · simp only [KDict.get?_put] at hv ⊢
      split_ifs at hv ⊢ with hgi
      · exact hv
      · simp [KDict.get?] at hv
  · rw [KDict.get?_put_ne _ _ (fun h => by have := strNat_inj h; omega)]
    rfl
  · intro predict out testing scratch hp
    obtain ⟨s', h1, h2, -⟩ := C136_trained
      (fun i m => (.ok (), KDict.put m (strNat i) i)) predict testing 2
      (⟨[], [], scratch⟩ : UqState (KDict Text ℕ) ℕ)
      (fun k : ℕ => (List.range k).foldl (fun m i => KDict.put m (strNat i) i) []) (fun _ => out) rfl
      ⟨fun i _ => by simp only [List.range_succ, List.foldl_append, List.foldl_cons, List.foldl_nil],
        fun i _ => hp _⟩
    refine ⟨s', ⟨some ((List.range 2).foldl (fun m i => KDict.put m (strNat i) i) []),
      some [(testing, out)]⟩, (List.range 2).foldl (fun m i => KDict.put m (strNat i) i) [], h1, ?_, rfl, ?_⟩
    · refine get?_of_mem _ ?_ _ _ ?_
      · rw [h2]
        simp only [KDict.keys, List.map_map]
        exact List.Nodup.map_on (fun a _ b _ hab => realizationDir_inj hab) List.nodup_range
      · rw [h2]
        exact List.mem_map.mpr ⟨1, by simp, rfl⟩
    · decide +kernel

/-- **C136 is violated for an interrupted quantification.** A run with training deletes the realizations of an
earlier run before it trains: if the first training fails, they are gone, and only an empty directory is left. -/
theorem C136_lost_violated (train : ℕ → M → Py Unit × M) (predict : M → Py P) (testing : Text) (n : ℕ)
    (hn : 0 < n) (s : UqState M P) (e : PyErr) (m : M) (h : train 0 s.work = (.error e, m)) :
    (performUq train predict testing true n s).1 = .error e ∧
      (performUq train predict testing true n s).2.uq = [(realizationDir 0, ⟨none, none⟩)] := by
  obtain ⟨k, rfl⟩ : ∃ k, n = k + 1 := ⟨n - 1, by omega⟩
  simp only [performUq, if_true, List.range_succ_eq_map, uqLoop, uqStep, uqTrain, h, true_and]
  rfl

/-- **C136 is violated for other types of prediction.** The time series can only be plotted for the stress and
for the accumulated plastic strain: for another type the label has no value and the plot ends with an error. -/
theorem C136_label_violated (n : ℕ) (sizes : List ℕ) (data : List (List (KDict ℕ (List SeriesRow))))
    (type : String) (nComp : ℕ) (ids : List ℕ) (h1 : type ≠ "stress_comps") (h2 : type ≠ "acc_p_strain")
    (hc : 0 < nComp) (hi : ids ≠ []) (r : List (List (Text × UqSeries))) :
    plotSeriesUq n sizes data type nComp (some ids) ≠ .ok r := by
  intro h
  unfold plotSeriesUq at h
  obtain ⟨size, -, h⟩ := bind_ok h
  obtain ⟨_, -, h⟩ := bind_ok h
  obtain ⟨y, hy⟩ := mapM_ok_mem h (x := 0) (List.mem_range.mpr hc)
  obtain ⟨id, ids', rfl⟩ : ∃ a l, ids = a :: l := List.exists_cons_of_ne_nil hi
  obtain ⟨z, hz⟩ := mapM_ok_mem hy (x := id) (by simp)
  obtain ⟨_, -, hz⟩ := bind_ok hz
  obtain ⟨l, hl, -⟩ := bind_ok hz
  simp [uqLabel, h1, h2, orRaise] at hl

/-- **C136 is violated for the cross-validation.** It never works: whatever the folds and the samples, it ends
with an error before the first fold. -/
theorem C136_crossval_violated (isDir : Bool) (nFold : ℤ) (nSamples : ℕ) :
    ∃ e, crossValidate isDir nFold nSamples = .error e ∧
      (isDir = true → 2 ≤ nFold → nFold ≤ nSamples → e = .unboundLocal) := by
  rcases h : crossValidate isDir nFold nSamples with e | u
  · refine ⟨e, rfl, fun h1 h2 h3 => ?_⟩
    have c1 : ¬(nFold ≤ 1) := by omega
    have c2 : ¬((nSamples : ℤ) < nFold) := by omega
    simp only [crossValidate, h1, raiseIf, c1, c2, orRaise] at h
    simp only [Bool.true_eq_false, if_false] at h
    exact (Except.error.inj h).symm
  · unfold crossValidate at h
    obtain ⟨_, -, h⟩ := bind_ok h
    obtain ⟨_, -, h⟩ := bind_ok h
    obtain ⟨_, -, h⟩ := bind_ok h
    simp [orRaise] at h

/-! ## The hypotheses are met -/

/-- C136: three trainings whose model counts the earlier ones, over an older quantification with a realization
that is replaced and one, `7`, that is removed. -/
example : performUq (fun i m => (.ok (), 10 * m + i)) (fun m => .ok (m + 100)) "test".toList true 3
      (⟨[(realizationDir 7, ⟨some 5, none⟩), (realizationDir 1, ⟨some 6, none⟩)], 1, none⟩ : UqState ℕ ℕ) =
    (.ok (), ⟨[(realizationDir 0, ⟨some 10, some [("test".toList, 110)]⟩),
      (realizationDir 1, ⟨some 101, some [("test".toList, 201)]⟩),
      (realizationDir 2, ⟨some 1012, some [("test".toList, 1112)]⟩)], 1012, some 1112⟩) := rfl

/-- C136: such trainings are runs in the sense of the specification. -/
example : UqRuns (fun i m => (.ok (), 10 * m + i)) (fun m => .ok (m + 100)) 3
    (fun i : ℕ => [1, 10, 101, 1012].getD i 0) (fun i : ℕ => [110, 201, 1112].getD i 0) := by
  refine ⟨fun i hi => ?_, fun i hi => ?_⟩ <;> interval_cases i <;> rfl

/-- C136: predictions of another type, with realization `1` missing and realization `2` not asked for. -/
example : performUq (fun _ (m : ℕ) => (.error .runtimeError, m)) (fun m => .ok (m + 1)) "out".toList false 2
      (⟨[(realizationDir 0, ⟨some 10, some [("in".toList, 3)]⟩), (realizationDir 2, ⟨some 12, none⟩)], 1, none⟩ :
        UqState ℕ ℕ) =
    (.ok (), ⟨[(realizationDir 0, ⟨some 10, some [("in".toList, 3), ("out".toList, 11)]⟩),
      (realizationDir 2, ⟨some 12, none⟩)], 1, some 11⟩) := rfl

/-- C136: the second training fails. -/
example : ∃ s', performUq (fun i m => (if i = 1 then .error .runtimeError else .ok (), m + 1))
      (fun m => .ok m) "test".toList true 3 (⟨[], 0, none⟩ : UqState ℕ ℕ) = (.error .runtimeError, s') ∧
    ∀ i < 1, s'.uq.get? (realizationDir i) = some ⟨some (i + 1), some [("test".toList, i + 1)]⟩ :=
  C136_stops _ _ _ 3 1 (by decide) _ (fun i => i) (fun i => i + 1) rfl
    ⟨fun i hi => by interval_cases i; rfl, fun i hi => rfl⟩ .runtimeError (.inl rfl)

/-- C136: two realizations of a path with two times. -/
example : uqSeries 2 [[(0, [⟨0, 5, 6⟩, ⟨1, 7, 8⟩])], [(0, [⟨0, 5, 6⟩, ⟨1, 7, 9⟩])]] 0 =
      .ok ⟨[(0, 5), (1, 7)], [0, 1], [[6, 8], [6, 9]]⟩ := by
  refine C136_series 2 _ 0 (fun i => if i = 0 then [⟨0, 5, 6⟩, ⟨1, 7, 8⟩] else [⟨0, 5, 6⟩, ⟨1, 7, 9⟩])
    (by decide) (fun i hi => ?_) (fun i hi => ?_)
  · interval_cases i
    · exact ⟨_, rfl, rfl⟩
    · exact ⟨_, rfl, rfl⟩
  · interval_cases i <;> simp [closeTo] <;> positivity

/-- C136: a different time is not close. -/
example (s : UqSeries) : uqSeries 2 [[(0, [⟨1, 5, 6⟩])], [(0, [⟨2, 5, 6⟩])]] 0 ≠ .ok s := by
  refine C136_times 2 _ 0 1 (by decide) _ _ [⟨1, 5, 6⟩] [⟨2, 5, 6⟩] rfl rfl rfl rfl rfl
    ⟨_, List.mem_cons_self, ?_⟩ s
  norm_num [closeTo]

end Hooke
