import Verif.Model.FitScalers
import Verif.Props.Scalers

/-! # C40: batch-incremental fitting equals fitting on all data at once -/

namespace Hooke

noncomputable section

variable {n : ℕ}

/-- The feature `ft` of the sample is a two-dimensional tensor with the given rows. -/
def HasRows (ft : String) (s : FitSample) (rows : List (Fin n → ℝ)) : Prop :=
  s ft = some (.tensor2d n rows)

/-- The two-dimensional tensor with the given rows. -/
def tensorOf (rows : List (Fin n → ℝ)) : FT ℝ n := .d2 rows.length fun i => rows.get i

/-! ### Mean and variance -/

theorem sum_sq_dev (xs : List ℝ) (m : ℝ) :
    (xs.map fun x => (x - m) ^ 2).sum =
      (xs.map fun x => x ^ 2).sum - 2 * m * xs.sum + xs.length * m ^ 2 := by
  induction xs with
  | nil => simp
  | cons x xs ih => simp only [List.map_cons, List.sum_cons, List.length_cons, ih]; push_cast; ring

theorem sum_dev (xs : List ℝ) (m : ℝ) :
    (xs.map fun x => x - m).sum = xs.sum - xs.length * m := by
  induction xs with
  | nil => simp
  | cons x xs ih => simp only [List.map_cons, List.sum_cons, List.length_cons, ih]; push_cast; ring

/-- The state summarises the values `xs` of a feature. -/
def Summarises (mean var : ℝ) (xs : List ℝ) : Prop :=
  mean * xs.length = xs.sum ∧
    var * xs.length = (xs.map fun x => x ^ 2).sum - xs.sum * mean

theorem summarises_step {mean var : ℝ} {xs ys : List ℝ} (h : Summarises mean var xs)
    (hy : ys ≠ []) :
    Summarises (incrementalMeanVar xs.length mean var ys.length ys).1
      (incrementalMeanVar xs.length mean var ys.length ys).2 (xs ++ ys) := by
  obtain ⟨h1, h2⟩ := h
  have hb : (ys.length : ℝ) ≠ 0 := by simpa using hy
  have hb0 : 0 < (ys.length : ℝ) := by
    have := List.length_pos_of_ne_nil hy; exact_mod_cast this
  have hab : (xs.length : ℝ) + ys.length ≠ 0 := by positivity
  have hlen : ((xs ++ ys).length : ℝ) = xs.length + ys.length := by simp
  unfold Summarises incrementalMeanVar
  simp only [List.sum_append, List.map_append]
  rw [hlen]
  have hcorr : (ys.map fun x => x - ys.sum / ys.length).sum = 0 := by
    rw [sum_dev]; field_simp; ring
  rw [hcorr, sum_sq_dev]
  refine ⟨by rw [h1]; field_simp, ?_⟩
  by_cases hx : xs.length = 0
  · have : xs = [] := List.length_eq_zero_iff.mp hx
    subst this
    simp
    field_simp
    ring
  · have ha : (xs.length : ℝ) ≠ 0 := by exact_mod_cast hx
    rw [if_neg hx, h1, h2]
    have hm : mean = xs.sum / xs.length := by field_simp; linarith
    rw [hm]
    generalize (xs.length : ℝ) = a at *
    generalize (ys.length : ℝ) = b at *
    generalize xs.sum = A at *
    generalize ys.sum = B at *
    field_simp
    ring

theorem loadedRows_ok {ft : String} {s : FitSample} {rows : List (Fin n → ℝ)}
    (h : HasRows ft s rows) : loadedRows n ft s = .ok rows := by
  simp only [HasRows] at h
  simp [loadedRows, h]

theorem mean_std_loop {ft : String} {ds : List FitSample} {blocks : List (List (Fin n → ℝ))}
    (h : List.Forall₂ (HasRows ft) ds blocks) (hne : ∀ b ∈ blocks, b ≠ [])
    {s : SkStandard n} {rows : List (Fin n → ℝ)} (hc : s.count = rows.length)
    (hs : ∀ j, Summarises (s.mean j) (s.var j) (rows.map fun r => r j)) :
    ∃ s' : SkStandard n, ds.foldlM (meanStdStep ft) s = .ok s' ∧
      s'.count = (rows ++ blocks.flatten).length ∧
      ∀ j, Summarises (s'.mean j) (s'.var j) ((rows ++ blocks.flatten).map fun r => r j) := by
  induction h generalizing s rows with
  | nil => exact ⟨s, rfl, by simpa using hc, by simpa using hs⟩
  | @cons d b ds blocks hd _ ih =>
    have hb : b ≠ [] := hne b (by simp)
    have hb' : ¬ b.length = 0 := by simpa using hb
    have hstep : meanStdStep ft s d = .ok
        { count := s.count + b.length
          mean := fun j => (incrementalMeanVar s.count (s.mean j) (s.var j) b.length
            (b.map fun r => r j)).1
          var := fun j => (incrementalMeanVar s.count (s.mean j) (s.var j) b.length
            (b.map fun r => r j)).2 } := by
      simp only [meanStdStep, loadedRows_ok hd, SkStandard.partialFit, raiseIf, hb', if_false, bind,
        Except.bind, pure, Except.pure]
    obtain ⟨s', h1, h2, h3⟩ := ih (fun b' hb' => hne b' (by simp [hb']))
      (s := { count := s.count + b.length
              mean := fun j => (incrementalMeanVar s.count (s.mean j) (s.var j) b.length
                (b.map fun r => r j)).1
              var := fun j => (incrementalMeanVar s.count (s.mean j) (s.var j) b.length
                (b.map fun r => r j)).2 }) (rows := rows ++ b) (by simp [hc]) (by
        intro j
        have := summarises_step (hs j) (ys := b.map fun r => r j) (by simpa using hb)
        simpa [hc, List.map_append] using this)
    refine ⟨s', ?_, by simpa [List.append_assoc] using h2, by simpa [List.append_assoc] using h3⟩
    rw [List.foldlM_cons, hstep]
    exact h1

theorem tensorOf_col (rows : List (Fin n → ℝ)) (j : Fin n) :
    (tensorOf rows).col j = rows.map fun r => r j := by
  simp only [FT.col, tensorOf, List.ofFn_get]

theorem flatten_ne_nil {blocks : List (List (Fin n → ℝ))} (h0 : blocks ≠ [])
    (hne : ∀ b ∈ blocks, b ≠ []) : blocks.flatten ≠ [] := by
  cases blocks with
  | nil => exact absurd rfl h0
  | cons b bs =>
    intro h
    rw [List.flatten_cons, List.append_eq_nil_iff] at h
    exact hne b (by simp) h.1

theorem forall2_ne_nil {α β : Type} {R : α → β → Prop} {l : List α} {m : List β}
    (h : List.Forall₂ R l m) (h0 : l ≠ []) : m ≠ [] := by
  cases h with
  | nil => exact absurd rfl h0
  | cons _ _ => simp

/-- C40a: fitting a standard scaler sample by sample (any number of samples, each with any positive
number of rows) gives exactly the scaler fitted to the concatenation of all samples at once. -/
theorem C40_mean_std {ft : String} {ds : List FitSample} {blocks : List (List (Fin n → ℝ))}
    (h : List.Forall₂ (HasRows ft) ds blocks) (hne : ∀ b ∈ blocks, b ≠ []) (h0 : ds ≠ [])
    (hn : 0 < n) (r : ℝ × ℝ) (s0 : StandardScaler n) :
    ∃ s, fitDataScaler ds ft n "mean-std" r = .ok (.standard s) ∧
      s0.fit (tensorOf blocks.flatten).arg false = .ok s := by
  obtain ⟨s', h1, h2, h3⟩ := mean_std_loop h hne (s := ⟨0, fun _ => 0, fun _ => 0⟩) (rows := [])
    rfl (by intro j; simp [Summarises])
  simp only [List.nil_append] at h2 h3
  have hds : ¬ ds.length = 0 := by simpa using h0
  have hfl := flatten_ne_nil (forall2_ne_nil h h0) hne
  have hlen : ((blocks.flatten).length : ℝ) ≠ 0 := by
    exact_mod_cast (List.length_pos_of_ne_nil hfl).ne'
  have hcnt : false.toNat < (tensorOf blocks.flatten).count :=
    List.length_pos_of_ne_nil hfl
  refine ⟨⟨some fun j => .fin (s'.mean j), some fun j => .fin (√(s'.var j))⟩, ?_, ?_⟩
  · simp [fitDataScaler, meanStdBatchFit, h1, raiseIf, hds, hn.ne', bind, Except.bind, pure,
      Except.pure, -List.length_eq_zero_iff]
  · obtain ⟨s'', hf, hm, hs⟩ := std_fit s0 hcnt
    rw [hf]
    have hmean : ∀ j, (tensorOf blocks.flatten).mean j = s'.mean j := by
      intro j
      have h4 := (h3 j).1
      rw [List.length_map] at h4
      rw [FT.mean, ← sum_col, tensorOf_col, List.map_id]
      change _ / ((blocks.flatten).length : ℝ) = _
      rw [← h4]; field_simp
    have hvar : ∀ j, (tensorOf blocks.flatten).total j
        (fun x => (x - (tensorOf blocks.flatten).mean j) ^ 2) /
        (((tensorOf blocks.flatten).count - false.toNat : ℕ) : ℝ) = s'.var j := by
      intro j
      obtain ⟨h4, h5⟩ := h3 j
      rw [List.length_map] at h4 h5
      rw [hmean, ← sum_col, tensorOf_col, sum_sq_dev, List.length_map]
      change _ / ((blocks.flatten).length : ℝ) = _
      rw [div_eq_iff hlen, h5]
      have : ((blocks.flatten).length : ℝ) * s'.mean j ^ 2 =
          (blocks.flatten.map fun r => r j).sum * s'.mean j := by rw [← h4]; ring
      rw [this]; ring
    simp only [hmean] at hvar hs
    cases s'' with
    | mk a b =>
      simp only at hm hs
      rw [hm, hs]
      simp only [hmean, hvar]

/-! ### Minimum and maximum -/

theorem foldl_min_append (a : ℝ) (l : List ℝ) (b : ℝ) (m : List ℝ) :
    (l ++ b :: m).foldl min a = min (l.foldl min a) (m.foldl min b) := by
  rw [List.foldl_append, List.foldl_cons]
  generalize l.foldl min a = c
  induction m generalizing b with
  | nil => rfl
  | cons x m ih => simp only [List.foldl_cons]; rw [min_assoc, ih]

theorem foldl_max_append (a : ℝ) (l : List ℝ) (b : ℝ) (m : List ℝ) :
    (l ++ b :: m).foldl max a = max (l.foldl max a) (m.foldl max b) := by
  rw [List.foldl_append, List.foldl_cons]
  generalize l.foldl max a = c
  induction m generalizing b with
  | nil => rfl
  | cons x m ih => simp only [List.foldl_cons]; rw [max_assoc, ih]

theorem listMin_append {l m : List ℝ} (hl : l ≠ []) (hm : m ≠ []) :
    listMin (l ++ m) = min (listMin l) (listMin m) := by
  cases l with
  | nil => exact absurd rfl hl
  | cons a l =>
    cases m with
    | nil => exact absurd rfl hm
    | cons b m => exact foldl_min_append a l b m

theorem listMax_append {l m : List ℝ} (hl : l ≠ []) (hm : m ≠ []) :
    listMax (l ++ m) = max (listMax l) (listMax m) := by
  cases l with
  | nil => exact absurd rfl hl
  | cons a l =>
    cases m with
    | nil => exact absurd rfl hm
    | cons b m => exact foldl_max_append a l b m

theorem batchRange_append {rows b : List (Fin n → ℝ)} (hr : rows ≠ []) (hb : b ≠ []) :
    batchRange (rows ++ b) = (fun j => min ((batchRange rows).1 j) ((batchRange b).1 j),
      fun j => max ((batchRange rows).2 j) ((batchRange b).2 j)) := by
  simp only [batchRange, List.map_append]
  have h1 : ∀ j : Fin n, (rows.map fun r => r j) ≠ [] := fun j => by simpa using hr
  have h2 : ∀ j : Fin n, (b.map fun r => r j) ≠ [] := fun j => by simpa using hb
  simp only [listMin_append (h1 _) (h2 _), listMax_append (h1 _) (h2 _)]

theorem min_max_loop {ft : String} {ds : List FitSample} {blocks : List (List (Fin n → ℝ))}
    (h : List.Forall₂ (HasRows ft) ds blocks) (hne : ∀ b ∈ blocks, b ≠ [])
    {s : SkMinMax n} {rows : List (Fin n → ℝ)}
    (hs : s = if rows = [] then none else some (batchRange rows)) :
    ds.foldlM (minMaxStep ft) s = .ok
      (if rows ++ blocks.flatten = [] then none else some (batchRange (rows ++ blocks.flatten))) := by
  induction h generalizing s rows with
  | nil => rw [hs]; simp; rfl
  | @cons d b ds blocks hd _ ih =>
    have hb : b ≠ [] := hne b (by simp)
    have hb' : ¬ b.length = 0 := by simpa using hb
    have hstep : minMaxStep ft s d = .ok (if rows ++ b = [] then none else
        some (batchRange (rows ++ b))) := by
      by_cases hr : rows = []
      · subst hr
        rw [if_pos rfl] at hs
        subst hs
        simp [minMaxStep, loadedRows_ok hd, SkMinMax.partialFit, raiseIf, hb, bind, Except.bind,
          pure, Except.pure]
      · rw [if_neg hr] at hs
        subst hs
        rw [if_neg (by simp [hr]), batchRange_append hr hb]
        simp only [minMaxStep, loadedRows_ok hd, SkMinMax.partialFit, raiseIf, hb', if_false, bind,
          Except.bind, pure, Except.pure]
    rw [List.foldlM_cons, hstep]
    have := ih (fun b' hb' => hne b' (by simp [hb'])) (rows := rows ++ b) rfl
    simp only [List.flatten_cons]
    rw [← List.append_assoc]
    exact this

theorem colMin_listMin {l : List ℝ} (h : l ≠ []) :
    (colMin (l.map Fl.fin)).getD .nan = Fl.fin (listMin l) := by
  cases l with
  | nil => exact absurd rfl h
  | cons a l => simp [colMin, listMin, foldl_min_fin]

theorem colMax_listMax {l : List ℝ} (h : l ≠ []) :
    (colMax (l.map Fl.fin)).getD .nan = Fl.fin (listMax l) := by
  cases l with
  | nil => exact absurd rfl h
  | cons a l => simp [colMax, listMax, foldl_max_fin]

/-- C40b: fitting a min-max scaler sample by sample gives exactly the scaler fitted to the
concatenation of all samples at once. -/
theorem C40_min_max {ft : String} {ds : List FitSample} {blocks : List (List (Fin n → ℝ))}
    (h : List.Forall₂ (HasRows ft) ds blocks) (hne : ∀ b ∈ blocks, b ≠ []) (h0 : ds ≠ [])
    (hn : 0 < n) (r : ℝ × ℝ) (s0 : MinMaxScaler n) (hs0 : s0.normMin = r.1 ∧ s0.normMax = r.2) :
    ∃ s, fitDataScaler ds ft n "min-max" r = .ok (.minMax s) ∧
      s0.fit (tensorOf blocks.flatten).arg = .ok s := by
  have hl := min_max_loop h hne (s := none) (rows := []) rfl
  have hfl := flatten_ne_nil (forall2_ne_nil h h0) hne
  rw [List.nil_append, if_neg hfl] at hl
  refine ⟨⟨some fun j => .fin ((batchRange blocks.flatten).1 j),
    some fun j => .fin ((batchRange blocks.flatten).2 j), r.1, r.2⟩, ?_, ?_⟩
  · simp [fitDataScaler, minMaxBatchFit, hl, raiseIf, hn.ne', orRaise, bind, Except.bind, pure,
      Except.pure]
  · have hne' : fitRows (tensorOf blocks.flatten).fl ≠ [] := by
      rw [Ne, fitRows_nil]; exact (List.length_pos_of_ne_nil hfl).ne'
    have h1 : ∀ j : Fin n, (blocks.flatten.map fun r => r j) ≠ [] := fun j => by
      simpa only [ne_eq, List.map_eq_nil_iff] using hfl
    simp only [MinMaxScaler.fit, FT.arg, checkTensor_feat, raiseIf, hne', if_false, bind,
      Except.bind, pure, Except.pure, column_fl, tensorOf_col, colMin_listMin (h1 _),
      colMax_listMax (h1 _), hs0.1, hs0.2]
    rfl

/-! ### Independence of batching and order -/

theorem listMin_perm {l m : List ℝ} (h : l.Perm m) (hl : l ≠ []) : listMin l = listMin m := by
  have hm : m ≠ [] := fun h' => hl (by rw [h'] at h; exact List.Perm.eq_nil h)
  cases l with
  | nil => exact absurd rfl hl
  | cons a l =>
    cases m with
    | nil => exact absurd rfl hm
    | cons b m =>
      apply le_antisymm
      · exact foldl_min_le a l _ (h.symm.subset (foldl_min_mem b m))
      · exact foldl_min_le b m _ (h.subset (foldl_min_mem a l))

theorem listMax_perm {l m : List ℝ} (h : l.Perm m) (hl : l ≠ []) : listMax l = listMax m := by
  have hm : m ≠ [] := fun h' => hl (by rw [h'] at h; exact List.Perm.eq_nil h)
  cases l with
  | nil => exact absurd rfl hl
  | cons a l =>
    cases m with
    | nil => exact absurd rfl hm
    | cons b m =>
      apply le_antisymm
      · exact le_foldl_max b m _ (h.subset (foldl_max_mem a l))
      · exact le_foldl_max a l _ (h.symm.subset (foldl_max_mem b m))

theorem total_perm {l m : List (Fin n → ℝ)} (h : l.Perm m) (j : Fin n) (f : ℝ → ℝ) :
    (tensorOf l).total j f = (tensorOf m).total j f := by
  rw [← sum_col, ← sum_col, tensorOf_col, tensorOf_col]
  exact ((h.map _).map _).sum_eq

/-- C40c: the fitted scaler only depends on the rows, not on how they are distributed over samples
nor on the order in which samples are presented. -/
theorem C40_order {ft : String} {ds ds' : List FitSample} {blocks blocks' : List (List (Fin n → ℝ))}
    (h : List.Forall₂ (HasRows ft) ds blocks) (hne : ∀ b ∈ blocks, b ≠ []) (h0 : ds ≠ [])
    (h' : List.Forall₂ (HasRows ft) ds' blocks') (hne' : ∀ b ∈ blocks', b ≠ [])
    (hp : blocks.flatten.Perm blocks'.flatten) (hn : 0 < n) (r : ℝ × ℝ) (ty : String) :
    fitDataScaler ds ft n ty r = fitDataScaler ds' ft n ty r := by
  have hfl := flatten_ne_nil (forall2_ne_nil h h0) hne
  have hfl' : blocks'.flatten ≠ [] := fun h'' => hfl (by rw [h''] at hp; exact List.Perm.eq_nil hp)
  have h0' : ds' ≠ [] := by
    rintro rfl
    cases h'
    exact hfl' rfl
  by_cases h1 : ty = "mean-std"
  · subst h1
    obtain ⟨s, e1, e2⟩ := C40_mean_std h hne h0 hn r ⟨none, none⟩
    obtain ⟨s', e1', e2'⟩ := C40_mean_std h' hne' h0' hn r ⟨none, none⟩
    rw [e1, e1']
    obtain ⟨t, f1, f2, f3⟩ := std_fit ⟨none, none⟩ (t := tensorOf blocks.flatten) (bessel := false)
      (List.length_pos_of_ne_nil hfl)
    obtain ⟨t', f1', f2', f3'⟩ := std_fit ⟨none, none⟩ (t := tensorOf blocks'.flatten)
      (bessel := false) (List.length_pos_of_ne_nil hfl')
    rw [f1] at e2
    rw [f1'] at e2'
    obtain rfl := Except.ok.inj e2
    obtain rfl := Except.ok.inj e2'
    have hc : (tensorOf blocks.flatten).count = (tensorOf blocks'.flatten).count := hp.length_eq
    have hm : (tensorOf blocks.flatten).mean = (tensorOf blocks'.flatten).mean := by
      funext j; rw [FT.mean, FT.mean, total_perm hp, hc]
    have : t = t' := by
      cases t; cases t'
      simp only at f2 f3 f2' f3'
      rw [f2, f3, f2', f3', hm, hc]
      simp only [total_perm hp]
    rw [this]
  · by_cases h2 : ty = "min-max"
    · subst h2
      obtain ⟨s, e1, e2⟩ := C40_min_max h hne h0 hn r ⟨none, none, r.1, r.2⟩ ⟨rfl, rfl⟩
      obtain ⟨s', e1', e2'⟩ := C40_min_max h' hne' h0' hn r ⟨none, none, r.1, r.2⟩ ⟨rfl, rfl⟩
      rw [e1, e1']
      have hl := min_max_loop h hne (s := none) (rows := []) rfl
      have hl' := min_max_loop h' hne' (s := none) (rows := []) rfl
      rw [List.nil_append, if_neg hfl] at hl
      rw [List.nil_append, if_neg hfl'] at hl'
      have hb : batchRange blocks.flatten = batchRange blocks'.flatten := by
        simp only [batchRange]
        congr 1
        · funext j; exact listMin_perm (hp.map _) (by simpa only [ne_eq, List.map_eq_nil_iff] using hfl)
        · funext j; exact listMax_perm (hp.map _) (by simpa only [ne_eq, List.map_eq_nil_iff] using hfl)
      rw [← e1, ← e1']
      simp [fitDataScaler, minMaxBatchFit, hl, hl', hb]
    · simp [fitDataScaler, raiseIf, h1, h2, bind, Except.bind]

theorem foldlM_error {α β : Type} {f : β → α → Py β} {l : List α} {x : α} (hx : x ∈ l)
    (h : ∀ b, ∃ e, f b x = .error e) (b : β) : ∃ e, l.foldlM f b = .error e := by
  induction l generalizing b with
  | nil => simp at hx
  | cons y l ih =>
    rw [List.foldlM_cons]
    cases hy : f b y with
    | error e => exact ⟨e, rfl⟩
    | ok b' =>
      rcases List.mem_cons.mp hx with rfl | hx
      · obtain ⟨e, he⟩ := h b
        rw [he] at hy
        cases hy
      · exact ih hx b'

/-- C40d: unknown scaling types and zero features are rejected, and so is a feature which is missing
from, or is not a two-dimensional tensor in, any of the samples; RuntimeError if it is the first. -/
theorem C40_errors {ft : String} {ds : List FitSample} {ty : String} {r : ℝ × ℝ} :
    (ty ≠ "mean-std" → ty ≠ "min-max" → fitDataScaler ds ft n ty r = .error .runtimeError) ∧
    fitDataScaler ds ft 0 ty r = .error .runtimeError ∧
    ((ty = "mean-std" ∨ ty = "min-max") → ∀ s ds', ds = s :: ds' →
      s ft = none ∨ s ft = some .other → fitDataScaler ds ft n ty r = .error .runtimeError) ∧
    ((∃ s ∈ ds, s ft = none ∨ s ft = some .other) → ∃ e, fitDataScaler ds ft n ty r = .error e) := by
  have hrows : ∀ s : FitSample, s ft = none ∨ s ft = some .other →
      loadedRows n ft s = .error .runtimeError := by
    rintro s (hs | hs) <;> simp [loadedRows, hs]
  refine ⟨fun h1 h2 => by simp [fitDataScaler, raiseIf, h1, h2, bind, Except.bind], ?_, ?_, ?_⟩
  · by_cases h : ty = "mean-std" ∨ ty = "min-max" <;>
      simp [fitDataScaler, raiseIf, h, bind, Except.bind]
  · rintro h s ds' rfl hs
    by_cases hn : n = 0
    · subst hn
      simp [fitDataScaler, raiseIf, h, bind, Except.bind]
    · rcases h with rfl | rfl
      · simp [fitDataScaler, raiseIf, hn, meanStdBatchFit, List.foldlM_cons, meanStdStep,
          hrows s hs, bind, Except.bind, pure, Except.pure]
      · simp [fitDataScaler, raiseIf, hn, minMaxBatchFit, List.foldlM_cons, minMaxStep,
          hrows s hs, bind, Except.bind, pure, Except.pure]
  · rintro ⟨s, hs, hs'⟩
    by_cases h : ty = "mean-std" ∨ ty = "min-max"
    · by_cases hn : n = 0
      · subst hn
        exact ⟨.runtimeError, by simp [fitDataScaler, raiseIf, h, bind, Except.bind]⟩
      · rcases h with rfl | rfl
        · obtain ⟨e, he⟩ := foldlM_error (f := meanStdStep (n := n) ft) hs (fun b =>
            ⟨.runtimeError, by simp [meanStdStep, hrows s hs', bind, Except.bind]⟩)
            (⟨0, fun _ => 0, fun _ => 0⟩ : SkStandard n)
          exact ⟨e, by simp [fitDataScaler, raiseIf, hn, meanStdBatchFit, he, bind, Except.bind,
            pure, Except.pure]⟩
        · obtain ⟨e, he⟩ := foldlM_error (f := minMaxStep (n := n) ft) hs (fun b =>
            ⟨.runtimeError, by simp [minMaxStep, hrows s hs', bind, Except.bind]⟩) none
          exact ⟨e, by simp [fitDataScaler, raiseIf, hn, minMaxBatchFit, he, bind, Except.bind,
            pure, Except.pure]⟩
    · exact ⟨.runtimeError, by simp [fitDataScaler, raiseIf, h, bind, Except.bind]⟩

/-- two samples with two and one rows -/
example : ∃ (ds : List FitSample) (blocks : List (List (Fin 1 → ℝ))),
    List.Forall₂ (HasRows "strain") ds blocks ∧ (∀ b ∈ blocks, b ≠ []) ∧ ds ≠ [] ∧
      blocks.flatten.length = 3 :=
  ⟨[fun _ => some (.tensor2d 1 [![1], ![2]]), fun _ => some (.tensor2d 1 [![4]])],
    [[![1], ![2]], [![4]]], .cons rfl (.cons rfl .nil), by simp, by simp, by simp⟩

end

end Hooke
