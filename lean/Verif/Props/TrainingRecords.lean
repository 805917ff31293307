import Verif.Spec.TrainingRecords
import Verif.Lemmas.Py
import Verif.Lemmas.PyDict
import Mathlib.Tactic.FieldSimp
import Mathlib.Tactic.LinearCombination
import Mathlib.Tactic.Linarith
import Mathlib.Tactic.Ring
import Mathlib.Tactic.NormNum

/-!
# C122: records of a training
-/

noncomputable section

open Classical

namespace Hooke

open Spec

variable {ω : Type}

/-! ### Files -/

theorem write_get (d : RecDir ω) (f : FName) (r : PyDict (RecVal ω)) :
    (applyOps d (writeOps f r)).get? f = some (.full r) := by
  simp [applyOps, writeOps, FsOp.apply]

theorem write_get_ne (d : RecDir ω) (f g : FName) (r : PyDict (RecVal ω)) (h : g ≠ f) :
    (applyOps d (writeOps f r)).get? g = d.get? g := by
  simp only [applyOps, writeOps, FsOp.apply, List.foldl_cons, List.foldl_nil]
  rw [KDict.get?_put_ne _ _ h, KDict.get?_put_ne _ _ h]

theorem load_write (d : RecDir ω) (f : FName) (r : PyDict (RecVal ω)) :
    loadRecord (applyOps d (writeOps f r)) f = .ok r := by
  unfold loadRecord
  rw [write_get]

theorem detach_id (e : HistEntry) : detachEntry e = e := by
  cases e <;> rfl

theorem map_detach (l : List HistEntry) : l.map detachEntry = l := by
  induction l with
  | nil => rfl
  | cons a l ih => rw [List.map_cons, ih, detach_id]

/-- **C122, loss history.** Whatever the directory contains, after the loss history has been saved it is
read back as it was: loss nature, loss type, training history and validation history, or its absence;
the learning rate history is read back with the type of its scheduler, and its absence is an error.
Other files are unchanged. -/
theorem C122_loss (d : RecDir ω) (nMax : ℤ) (nature type : String) (train : List HistEntry)
    (lrType : Option String) (lr valid : Option (List HistEntry)) :
    let d' := applyOps d (saveLossOps nMax nature type train lrType lr valid)
    readLoss d' lossRecordFile = .ok (nature, type, train, valid) ∧
    (∀ l, lr = some l → readLr d' lossRecordFile = .ok (optVal .str lrType, l)) ∧
    (lr = none → readLr d' lossRecordFile = .error .runtimeError) ∧
    ∀ g, g ≠ lossRecordFile → d'.get? g = d.get? g := by
  intro d'
  have hl : loadRecord d' lossRecordFile = .ok (lossRecord nMax nature type train lrType lr valid) :=
    load_write ..
  refine ⟨?_, ?_, ?_, fun g hg => write_get_ne _ _ _ _ hg⟩
  · unfold readLoss
    rw [hl]
    cases valid <;> simp [lossRecord, KDict.put, KDict.get?, KDict.has, bind, Except.bind, raiseIf,
      orRaise, optVal, RecVal.text, map_detach]
  · rintro l rfl
    unfold readLr
    rw [hl]
    simp [lossRecord, KDict.put, KDict.get?, bind, Except.bind, orRaise, optVal]
  · rintro rfl
    unfold readLr
    rw [hl]
    simp [lossRecord, KDict.put, KDict.get?, bind, Except.bind, orRaise, optVal]

/-- **C122, parameters.** The parameters history and the best parameters are read back with their bounds
as they were saved, each from its own file; a missing file is reported with `RuntimeError`. -/
theorem C122_parameters (d : RecDir ω) (history bounds best bounds' : ω) :
    let d' := applyOps (applyOps d (saveParamsOps history bounds)) (saveBestOps best bounds')
    readParams d' paramsRecordFile = .ok (.obj history, .obj bounds) ∧
    readBest d' bestParamsFile = .ok (.obj best, .obj bounds') ∧
    (∀ f, d.get? f = none → readParams d f = .error .runtimeError ∧
      readBest d f = .error .runtimeError) := by
  intro d'
  refine ⟨?_, ?_, ?_⟩
  · have hl : loadRecord d' paramsRecordFile = .ok [("model_parameters_history", .obj history),
        ("model_parameters_bounds", .obj bounds)] := by
      unfold loadRecord
      have : d'.get? paramsRecordFile
          = (applyOps d (saveParamsOps history bounds)).get? paramsRecordFile :=
        write_get_ne _ _ _ _ (by decide)
      rw [this, saveParamsOps, write_get]
      rfl
    unfold readParams
    rw [hl]
    simp [KDict.get?, bind, Except.bind, orRaise]
  · have hl : loadRecord d' bestParamsFile = .ok [("best_model_parameters", .obj best),
        ("model_parameters_bounds", .obj bounds')] := load_write ..
    unfold readBest
    rw [hl]
    simp [KDict.get?, bind, Except.bind, orRaise]
  · intro f hf
    unfold readParams readBest loadRecord
    rw [hf]
    exact ⟨rfl, rfl⟩

/-- **C122, refusals.** A loss history is read only from a record with the nature and the type of the loss and
a list of training losses: a missing file and a record without one of them are reported with
`RuntimeError`. -/
theorem C122_refusals (d : RecDir ω) (f : FName) :
    (d.get? f = none → readLoss d f = .error .runtimeError ∧ readLr d f = .error .runtimeError) ∧
    ∀ r, d.get? f = some (.full r) →
      (r.get? "loss_nature" = none ∨ r.get? "loss_type" = none ∨
        (∀ l, r.get? "training_loss_history" ≠ some (.list l))) →
      readLoss d f = .error .runtimeError := by
  refine ⟨fun h => ?_, fun r hr hmiss => ?_⟩
  · unfold readLoss readLr loadRecord
    rw [h]
    exact ⟨rfl, rfl⟩
  · have hl : loadRecord d f = .ok r := by
      unfold loadRecord
      rw [hr]
    unfold readLoss
    rw [hl]
    have hhas : ∀ k, r.has k = false ↔ r.get? k = none := by
      intro k
      unfold KDict.has
      cases r.get? k <;> simp
    simp only [bind, Except.bind, raiseIf, hhas]
    by_cases h1 : r.get? "loss_nature" = none
    · rw [if_pos h1]
    · rw [if_neg h1]
      simp only
      by_cases h2 : r.get? "loss_type" = none
      · rw [if_pos h2]
      · rw [if_neg h2]
        simp only
        have h3 := (hmiss.resolve_left h1).resolve_left h2
        obtain ⟨a, ha⟩ := Option.ne_none_iff_exists'.mp h1
        obtain ⟨b, hb⟩ := Option.ne_none_iff_exists'.mp h2
        cases h4 : r.get? "training_loss_history" with
        | none => rfl
        | some v =>
          rw [ha, hb]
          cases v with
          | list l => exact absurd h4 (h3 l)
          | _ => rfl

example : readLoss (ω := Unit) [(lossRecordFile, .full [("loss_nature", .str "force"),
    ("training_loss_history", .list [])])] lossRecordFile = .error .runtimeError :=
  (C122_refusals _ _).2 _ rfl (.inr (.inl (by rfl)))

/-- **C122 is violated for an interruption while saving.** When the process ends between the two file
operations of a save, neither the new record nor the record that was there can be read. -/
theorem C122_crash_violated (d : RecDir ω) (nMax : ℤ) (nature type : String) (train : List HistEntry)
    (lrType : Option String) (lr valid : Option (List HistEntry)) :
    (saveLossOps (ω := ω) nMax nature type train lrType lr valid).length = 2 ∧
    readLoss (applyOps d ((saveLossOps nMax nature type train lrType lr valid).take 1)) lossRecordFile
      = .error .osError := by
  refine ⟨rfl, ?_⟩
  unfold readLoss loadRecord
  simp [saveLossOps, writeOps, applyOps, FsOp.apply, bind, Except.bind]

/-- Records of a wrong kind are not recognised: reading the parameters history from the file of the best
parameters raises `KeyError`. -/
theorem C122_kinds (d : RecDir ω) (best bounds : ω) :
    readParams (applyOps d (saveBestOps best bounds)) bestParamsFile = .error .keyError := by
  have hl : loadRecord (applyOps d (saveBestOps best bounds)) bestParamsFile
      = .ok [("best_model_parameters", .obj best), ("model_parameters_bounds", .obj bounds)] :=
    load_write ..
  unfold readParams
  rw [hl]
  simp [KDict.get?, bind, Except.bind, orRaise]

/-! ### Learning rates -/

/-- **C122, schedulers.** A scheduler is built exactly for the three known names with the required
arguments: a step size, a decay factor, or factors in range; a missing argument and an unknown name are
reported with `RuntimeError`. -/
theorem C122_scheduler (type : String) (a : SchedArgs) :
    (∀ s, getScheduler type a = .ok s →
      (type = "steplr" ∧ ∃ n, a.stepSize = some n ∧ s = .step n (a.gamma.getD 0.1)) ∨
      (type = "explr" ∧ ∃ g, a.gamma = some g ∧ s = .exp g) ∨
      (type = "linlr" ∧ s = .linear (a.startFactor.getD (1 / 3)) (a.endFactor.getD 1)
        (a.totalIters.getD 5) ∧ ValidSched s)) ∧
    (type = "steplr" → a.stepSize = none → getScheduler type a = .error .runtimeError) ∧
    (type = "explr" → a.gamma = none → getScheduler type a = .error .runtimeError) ∧
    (type ∉ ["steplr", "explr", "linlr"] → getScheduler type a = .error .runtimeError) := by
  refine ⟨?_, ?_, ?_, ?_⟩
  · intro s h
    unfold getScheduler at h
    by_cases h1 : type = "steplr"
    · rw [if_pos h1] at h
      obtain ⟨n, h2, h⟩ := bind_ok h
      obtain ⟨_, _, h⟩ := bind_ok h
      cases h
      exact .inl ⟨h1, n, orRaise_ok.mp h2, rfl⟩
    · rw [if_neg h1] at h
      by_cases h2 : type = "explr"
      · rw [if_pos h2] at h
        obtain ⟨g, h3, h⟩ := bind_ok h
        obtain ⟨_, _, h⟩ := bind_ok h
        cases h
        exact .inr (.inl ⟨h2, g, orRaise_ok.mp h3, rfl⟩)
      · rw [if_neg h2] at h
        by_cases h3 : type = "linlr"
        · rw [if_pos h3] at h
          obtain ⟨_, _, h⟩ := bind_ok h
          obtain ⟨_, h4, h⟩ := bind_ok h
          obtain ⟨_, h5, h⟩ := bind_ok h
          rw [raiseIf_ok] at h4 h5
          cases h
          push Not at h4 h5
          exact .inr (.inr ⟨h3, rfl, h4.2, h4.1, h5.2, h5.1⟩)
        · rw [if_neg h3] at h
          cases h
  · rintro rfl h
    unfold getScheduler
    rw [if_pos rfl, h]
    rfl
  · rintro rfl h
    unfold getScheduler
    rw [if_neg (by decide), if_pos rfl, h]
    rfl
  · intro h
    simp only [List.mem_cons, List.not_mem_nil, or_false, not_or] at h
    unfold getScheduler
    rw [if_neg h.1, if_neg h.2.1, if_neg h.2.2]

theorem first_rate (s : LrSched) (lr : ℝ) : s.first lr = rateOf s lr 0 := by
  cases s <;> simp [LrSched.first, rateOf]

theorem next_rate (s : LrSched) (hs : ValidSched s) (lr : ℝ) (e : ℕ) :
    s.next (e + 1) (rateOf s lr e) = .ok (rateOf s lr (e + 1)) := by
  cases s with
  | step size g =>
      have h0 : 0 < size := hs
      simp only [LrSched.next, rateOf, Nat.ne_of_gt h0, if_false, Except.ok.injEq]
      by_cases h : (e + 1) % size = 0
      · rw [if_pos h]
        have : (e + 1) / size = e / size + 1 := Nat.succ_div_of_dvd (Nat.dvd_of_mod_eq_zero h)
        rw [this, pow_succ]
        ring
      · rw [if_neg h]
        have : (e + 1) / size = e / size :=
          Nat.succ_div_of_not_dvd (fun hd => h (Nat.mod_eq_zero_of_dvd hd))
        rw [this]
  | exp g =>
      simp only [LrSched.next, rateOf, Except.ok.injEq]
      ring
  | linear a b n =>
      obtain ⟨ha, ha1, hb, hb1⟩ := hs
      simp only [LrSched.next, rateOf, Except.ok.injEq]
      by_cases h : n < e + 1
      · rw [if_pos h, min_eq_right (by omega), min_eq_right (by omega)]
      · rw [if_neg h, min_eq_left (by omega : e ≤ n), min_eq_left (by omega : e + 1 ≤ n)]
        have hn : (0 : ℝ) < n := by
          have : 0 < n := by omega
          exact_mod_cast this
        have hen : (e : ℝ) + 1 ≤ n := by
          have : e + 1 ≤ n := by omega
          exact_mod_cast this
        have hd : 0 < (n : ℝ) * a + (e : ℝ) * (b - a) := by
          have h1 : 0 < ((n : ℝ) - e) * a := mul_pos (by linarith) ha
          have h2 : 0 ≤ (e : ℝ) * b := mul_nonneg (Nat.cast_nonneg e) hb
          nlinarith
        have hcast : ((e + 1 : ℕ) : ℝ) - 1 = e := by push_cast; ring
        rw [hcast]
        have hd' := hd.ne'
        push_cast
        generalize hD : (n : ℝ) * a + (e : ℝ) * (b - a) = D at hd'
        field_simp
        rw [← hD]
        ring

/-- The learning rates after some epochs. -/
theorem lrRun_sched (s : LrSched) (hs : ValidSched s) (lr : ℝ) (n : ℕ) :
    lrRun (some s) lr n = .ok ⟨rateOf s lr n, (List.range n).map (rateOf s lr),
      (List.range n).map fun e => .rates [rateOf s lr (e + 1)]⟩ := by
  unfold lrRun
  induction n with
  | zero => rw [← first_rate]; rfl
  | succ n ih =>
      rw [foldlM_range_succ, ih]
      simp only [bind, Except.bind, lrEpoch]
      rw [next_rate s hs]
      simp only [List.range_succ, List.map_append, List.map_cons, List.map_nil]

theorem lrRun_none (lr : ℝ) (n : ℕ) :
    lrRun none lr n = .ok ⟨lr, List.replicate n lr, List.replicate n (.num (.fin lr))⟩ := by
  unfold lrRun
  induction n with
  | zero => rfl
  | succ n ih =>
      rw [foldlM_range_succ, ih]
      simp only [bind, Except.bind, lrEpoch, List.replicate_succ']

/-- **C122, learning rates.** The steps of an epoch use the documented learning rate of the scheduler for
this epoch, and the initial one without a scheduler.  Without a scheduler this rate is recorded for each
epoch; with a scheduler the rate of the following epoch is recorded. -/
theorem C122_rates (s : LrSched) (hs : ValidSched s) (lr : ℝ) (n : ℕ) :
    (∃ S, lrRun (some s) lr n = .ok S ∧ S.used.length = n ∧ S.recorded.length = n ∧
      ∀ e < n, S.used[e]? = some (rateOf s lr e) ∧
        S.recorded[e]? = some (.rates [rateOf s lr (e + 1)])) ∧
    ∃ S, lrRun none lr n = .ok S ∧ S.used.length = n ∧ S.recorded.length = n ∧
      ∀ e < n, S.used[e]? = some lr ∧ S.recorded[e]? = some (.num (.fin lr)) := by
  refine ⟨⟨_, lrRun_sched s hs lr n, by simp, by simp, ?_⟩, ⟨_, lrRun_none lr n, by simp, by simp, ?_⟩⟩
  · intro e he
    simp [List.getElem?_map, List.getElem?_range he]
  · intro e he
    simp [he]

/-- **C122 is violated for the learning rates of a scheduler.** With an exponential decay by a factor
other than 0 and 1, the record of no epoch is the learning rate that the epoch used. -/
theorem C122_rates_violated (g lr : ℝ) (n : ℕ) (h0 : g ≠ 0) (h1 : g ≠ 1) (hlr : lr ≠ 0) :
    ∃ S, lrRun (some (.exp g)) lr n = .ok S ∧
      ∀ e < n, ∃ u : ℝ, S.used[e]? = some u ∧ S.recorded[e]? ≠ some (.rates [u]) := by
  obtain ⟨⟨S, hS, -, -, h⟩, -⟩ := C122_rates (.exp g) trivial lr n
  refine ⟨S, hS, fun e he => ⟨_, (h e he).1, ?_⟩⟩
  rw [(h e he).2]
  intro hc
  simp only [Option.some.injEq, HistEntry.rates.injEq, List.cons.injEq, and_true] at hc
  simp only [rateOf] at hc
  have hp : lr * g ^ e ≠ 0 := mul_ne_zero hlr (pow_ne_zero e h0)
  have : lr * g ^ e * (g - 1) = 0 := by
    rw [pow_succ] at hc
    linear_combination hc
  rcases mul_eq_zero.mp this with h' | h'
  · exact hp h'
  · exact h1 (by linarith)

/-- A step size of zero is accepted and fails in the first epoch. -/
theorem C122_zero_step (g lr : ℝ) (n : ℕ) :
    getScheduler "steplr" { stepSize := some 0, gamma := some g } = .ok (.step 0 g) ∧
    lrRun (some (.step 0 g)) lr (n + 1) = .error .zeroDivision := by
  constructor
  · unfold getScheduler
    rw [if_pos rfl]
    simp [orRaise, raiseIf, bind, Except.bind]
  · unfold lrRun
    rw [show n + 1 = 1 + n by omega, List.range_add, List.foldlM_append]
    simp only [List.range_one, List.foldlM_cons, lrEpoch, LrSched.next, if_true]
    rfl

/-! ### Figures -/

theorem foldl_max_bound (l : List ℕ) : ∀ m, ∀ x ∈ l, x ≤ l.foldl max m := by
  induction l with
  | nil => intro m x hx; cases hx
  | cons a l ih =>
      intro m x hx
      rcases List.mem_cons.mp hx with rfl | hx
      · have : ∀ (l : List ℕ) (m : ℕ), m ≤ l.foldl max m := by
          intro l
          induction l with
          | nil => intro m; exact le_refl m
          | cons b l ih => intro m; exact le_trans (le_max_left m b) (ih _)
        exact le_trans (le_max_right m x) (this l _)
      · exact ih _ x hx

theorem zip_getElem {α : Type} (l : List α) (e : ℕ) :
    ((List.range l.length).zip l)[e]? = l[e]?.map fun v => (e, v) := by
  by_cases h : e < l.length
  · rw [List.getElem?_eq_getElem (by simpa using h), List.getElem?_eq_getElem h]
    simp
  · rw [List.getElem?_eq_none (by simpa using h), List.getElem?_eq_none (by simpa using h)]
    rfl

theorem zip_getElem' {α β : Type} (l : List α) (m : List β) (hl : m.length = l.length) (e : ℕ) :
    ((List.range l.length).zip m)[e]? = m[e]?.map fun v => (e, v) := by
  rw [← hl]
  exact zip_getElem m e

theorem lossPlotData_eq (hs : List (String × List HistEntry)) (h : hs ≠ []) :
    lossPlotData hs = .ok ((List.range ((hs.map fun h => h.2.length).foldl max 0)).map fun r =>
      hs.map fun h => h.2[r]?.map fun v => (r, v)) := by
  unfold lossPlotData
  rw [(raiseIf_ok (u := ())).mpr h]
  rfl

/-- **C122, figures.** After the histories of a training have been saved, with a learning rate for each
training loss, the data of the figures show each training loss, each validation loss and each recorded
learning rate exactly once and at the epoch of its place in the history. -/
theorem C122_figures (d : RecDir ω) (nMax : ℤ) (nature type : String) (train lr : List HistEntry)
    (lrType : Option String) (valid : Option (List HistEntry)) (hlen : lr.length = train.length) :
    ∃ rows losses rates, standardPlots (applyOps d
        (saveLossOps nMax nature type train lrType (some lr) valid)) = .ok (rows, losses, rates) ∧
      (∀ e, train.length ≤ e → (∀ v, valid = some v → v.length ≤ e) → rows[e]? = none) ∧
      (∀ (e : ℕ) (row : List (Option (ℕ × HistEntry))), rows[e]? = some row →
        row = match valid with
          | some v => [pointAt train e, pointAt v e]
          | none => [pointAt train e]) ∧
      (∀ e < train.length, rows[e]? ≠ none) ∧
      (∀ v, valid = some v → ∀ e < v.length, rows[e]? ≠ none) ∧
      (∀ e, losses[e]? = pointAt train e) ∧ ∀ e, rates[e]? = pointAt lr e := by
  obtain ⟨hl, hr, -, -⟩ := C122_loss d nMax nature type train lrType (some lr) valid
  have hr := hr lr rfl
  have hp : ∀ (h : List HistEntry) (e : ℕ), (h[e]?.map fun v => (e, v)) = pointAt h e := by
    intro h e
    unfold pointAt
    cases h[e]? <;> rfl
  set hs : List (String × List HistEntry) := match valid with
    | some v => [("Training", train), ("Validation", v)]
    | none => [("Training", train)] with hhs
  refine ⟨(List.range ((hs.map fun h => h.2.length).foldl max 0)).map fun r =>
      hs.map fun h => h.2[r]?.map fun v => (r, v),
    (List.range train.length).zip train, (List.range train.length).zip lr, ?_, ?_, ?_, ?_, ?_, ?_, ?_⟩
  · unfold standardPlots
    rw [hl]
    simp only [bind, Except.bind]
    rw [hr]
    simp only []
    have hlr : lrPlotData train lr
        = .ok ((List.range train.length).zip train, (List.range train.length).zip lr) := by
      unfold lrPlotData
      rw [(raiseIf_ok (u := ())).mpr (not_not.mpr hlen)]
      rfl
    rw [lossPlotData_eq _ (by cases valid <;> simp), hlr, hhs]
    cases valid <;> rfl
  · intro e h1 h2
    rw [List.getElem?_eq_none]
    rw [List.length_map, List.length_range, hhs]
    cases valid with
    | none => simpa using h1
    | some v =>
        have := h2 v rfl
        simp only [List.map_cons, List.map_nil, List.foldl_cons, List.foldl_nil]
        omega
  · intro e row h
    rw [List.getElem?_map] at h
    obtain ⟨r, h3, rfl⟩ := Option.map_eq_some_iff.mp h
    have hr' : r = e := by
      rw [List.getElem?_eq_some_iff] at h3
      obtain ⟨_, h3⟩ := h3
      rw [List.getElem_range] at h3
      exact h3.symm
    subst hr'
    rw [hhs]
    cases valid <;> simp [hp]
  · intro e he
    have : e < (hs.map fun h => h.2.length).foldl max 0 :=
      lt_of_lt_of_le he (foldl_max_bound _ 0 _ (by
        rw [hhs]
        cases valid <;> simp))
    rw [List.getElem?_map, List.getElem?_range this]
    simp
  · rintro v rfl e he
    have : e < (hs.map fun h => h.2.length).foldl max 0 :=
      lt_of_lt_of_le he (foldl_max_bound _ 0 _ (by rw [hhs]; simp))
    rw [List.getElem?_map, List.getElem?_range this]
    simp
  · intro e
    rw [zip_getElem, hp]
  · intro e
    rw [zip_getElem' _ _ hlen, hp]

/-- **C122, inconsistent histories.** Learning rates of another number of epochs are reported with
`RuntimeError`. -/
theorem C122_inconsistent (d : RecDir ω) (nMax : ℤ) (nature type : String) (train lr : List HistEntry)
    (lrType : Option String) (valid : Option (List HistEntry)) (hlen : lr.length ≠ train.length) :
    standardPlots (applyOps d (saveLossOps nMax nature type train lrType (some lr) valid))
      = .error .runtimeError := by
  obtain ⟨hl, hr, -, -⟩ := C122_loss d nMax nature type train lrType (some lr) valid
  have hr := hr lr rfl
  unfold standardPlots
  rw [hl]
  cases valid <;>
  · simp only [bind, Except.bind]
    rw [hr]
    simp [lossPlotData, lrPlotData, raiseIf, hlen, bind, Except.bind]

/-- A training of three epochs with validations, a scheduler and its figures. -/
example : ∃ S rows losses rates,
    lrRun (some (.step 2 0.5)) 0.1 3 = .ok S ∧
    standardPlots (ω := Unit) (applyOps [] (saveLossOps 2 "features_out" "mse"
      [.num (.fin 3), .num (.fin 2), .num (.fin 1)] (some "steplr") (some S.recorded)
      (some [.num (.fin 4)]))) = .ok (rows, losses, rates) ∧
    rows[0]? = some [some (0, .num (.fin 3)), some (0, .num (.fin 4))] ∧
    rows[1]? = some [some (1, .num (.fin 2)), none] ∧ rates[0]? = some (0, .rates [0.1]) := by
  obtain ⟨⟨S, hS, -, hn, hr⟩, -⟩ := C122_rates (.step 2 0.5) (show 0 < 2 by norm_num) 0.1 3
  obtain ⟨rows, losses, rates, h, -, h2, h3, -, -, h5⟩ := C122_figures (ω := Unit) [] 2 "features_out"
    "mse" [.num (.fin 3), .num (.fin 2), .num (.fin 1)] S.recorded (some "steplr")
    (some [.num (.fin 4)]) hn
  refine ⟨S, rows, losses, rates, hS, h, ?_, ?_, ?_⟩
  · obtain ⟨row, hrow⟩ := Option.ne_none_iff_exists'.mp (h3 0 (by simp))
    rw [hrow, h2 0 row hrow]
    rfl
  · obtain ⟨row, hrow⟩ := Option.ne_none_iff_exists'.mp (h3 1 (by simp))
    rw [hrow, h2 1 row hrow]
    rfl
  · rw [h5 0, pointAt, (hr 0 (by norm_num)).2]
    norm_num [rateOf]

end Hooke
