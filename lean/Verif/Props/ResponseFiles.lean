import Verif.Spec.ResponseFiles
import Verif.Props.ResponseDataset
import Verif.Props.SpecimenHistory
import Verif.Props.TimeSeriesBatch

/-!
# C128: response data sets of stored paths
-/

noncomputable section

namespace Hooke

open Spec

/-- The sample of a table of 13 columns. -/
def csvSample (nDim : ℕ) (f : Frame) : CsvResponse where
  comps := if nDim = 2 then sym2d else sym3d
  times := (List.range f.rows.length).map fun t => f.at t 0
  strain := pickCols f (if nDim = 2 then [1, 2, 4] else List.range' 1 6)
  stress := pickCols f (if nDim = 2 then [7, 8, 10] else List.range' 7 6)

theorem csvResponse_eq {nDim : ℕ} {f : Frame} (h : f.cols = 13) :
    csvResponse nDim f = .ok (csvSample nDim f) := by
  unfold csvResponse
  rw [(raiseIf_ok (u := ())).mpr (by simp [h])]
  rfl

theorem csvResponse_wrong {nDim : ℕ} {f : Frame} (h : f.cols ≠ 13) :
    csvResponse nDim f = .error .runtimeError := by
  unfold csvResponse raiseIf
  rw [if_pos h]
  rfl

theorem range_at (f : Frame) (j : ℕ) :
    ((List.range f.rows.length).map fun t => f.at t j) = f.rows.map fun row => row.getD j 0 := by
  apply List.ext_getElem (by simp)
  intro t h1 h2
  simp only [List.length_map, List.length_range] at h1
  simp [Frame.at, h1]

theorem pickCols_column {f : Frame} {cols : List ℕ} {k j : ℕ} (h : cols[k]? = some j) :
    ((pickCols f cols).map fun row : List ℝ => row.getD k 0) = f.rows.map fun row => row.getD j 0 := by
  rw [← range_at, pickCols, List.map_map]
  refine List.map_congr_left fun t _ => ?_
  simp [h]

theorem sample_of (nDim : ℕ) (f : Frame) : SampleOf nDim f (csvSample nDim f) := by
  by_cases h : nDim = 2
  · subst h
    refine ⟨by simp [csvSample, problemComps, sym2d], range_at f 0, by simp [csvSample, pickCols],
      by simp [csvSample, pickCols, sym2d], ?_, ?_⟩
    · intro k c hk
      match k, hk with
      | 0, hk => cases hk; exact pickCols_column rfl
      | 1, hk => cases hk; exact pickCols_column rfl
      | 2, hk => cases hk; exact pickCols_column rfl
      | k + 3, hk => cases hk
    · intro k c hk
      match k, hk with
      | 0, hk => cases hk; exact pickCols_column rfl
      | 1, hk => cases hk; exact pickCols_column rfl
      | 2, hk => cases hk; exact pickCols_column rfl
      | k + 3, hk => cases hk
  · have e : problemComps nDim = [("11", [1, 1]), ("22", [2, 2]), ("33", [3, 3]), ("12", [1, 2]),
      ("23", [2, 3]), ("13", [1, 3])] := if_neg h
    have e1 : (csvSample nDim f).strain = pickCols f (List.range' 1 6) := by simp [csvSample, h]
    have e2 : (csvSample nDim f).stress = pickCols f (List.range' 7 6) := by simp [csvSample, h]
    have e3 : (csvSample nDim f).comps = sym3d := by simp [csvSample, h]
    refine ⟨by rw [e, e3]; rfl, range_at f 0, by simp [e1, e2, pickCols],
      by simp [e1, e2, e3, pickCols, sym3d], ?_, ?_⟩
    · intro k c hk
      rw [e] at hk
      rw [e1]
      match k, hk with
      | 0, hk => cases hk; exact pickCols_column rfl
      | 1, hk => cases hk; exact pickCols_column rfl
      | 2, hk => cases hk; exact pickCols_column rfl
      | 3, hk => cases hk; exact pickCols_column rfl
      | 4, hk => cases hk; exact pickCols_column rfl
      | 5, hk => cases hk; exact pickCols_column rfl
      | k + 6, hk => cases hk
    · intro k c hk
      rw [e] at hk
      rw [e2]
      match k, hk with
      | 0, hk => cases hk; exact pickCols_column rfl
      | 1, hk => cases hk; exact pickCols_column rfl
      | 2, hk => cases hk; exact pickCols_column rfl
      | 3, hk => cases hk; exact pickCols_column rfl
      | 4, hk => cases hk; exact pickCols_column rfl
      | 5, hk => cases hk; exact pickCols_column rfl
      | k + 6, hk => cases hk

theorem rows_ext {a b : List (List ℝ)} {m : ℕ} (hl : a.length = b.length)
    (ha : ∀ row ∈ a, row.length = m) (hb : ∀ row ∈ b, row.length = m)
    (h : ∀ k < m, (a.map fun row : List ℝ => row.getD k 0) = b.map fun row : List ℝ => row.getD k 0) :
    a = b := by
  apply List.ext_getElem hl
  intro t h1 h2
  have e1 := ha _ (List.getElem_mem h1)
  have e2 := hb _ (List.getElem_mem h2)
  apply List.ext_getElem (by rw [e1, e2])
  intro k h3 h4
  have h5 := congrArg (fun l : List ℝ => l[t]?) (h k (by omega))
  simp only [List.getElem?_map, List.getElem?_eq_getElem h1, List.getElem?_eq_getElem h2,
    Option.map_some, Option.some.injEq] at h5
  simpa [List.getD_eq_getElem?_getD, List.getElem?_eq_getElem h3, List.getElem?_eq_getElem h4] using h5

theorem sample_unique {nDim : ℕ} {f : Frame} {r s : CsvResponse} (hr : SampleOf nDim f r)
    (hs : SampleOf nDim f s) : r = s := by
  have hc : r.comps = s.comps := hr.comps.trans hs.comps.symm
  have hget : ∀ k < r.comps.length, ∃ c, (problemComps nDim)[k]? = some c := by
    intro k hk
    rw [hr.comps, List.length_map] at hk
    exact ⟨_, List.getElem?_eq_getElem hk⟩
  have h1 : r.strain = s.strain := by
    refine rows_ext (m := r.comps.length) (hr.steps.1.trans hs.steps.1.symm) hr.sizes.1
      (by rw [hc]; exact hs.sizes.1) fun k hk => ?_
    obtain ⟨c, h⟩ := hget k hk
    rw [hr.strain k c h, hs.strain k c h]
  have h2 : r.stress = s.stress := by
    refine rows_ext (m := r.comps.length) (hr.steps.2.trans hs.steps.2.symm) hr.sizes.2
      (by rw [hc]; exact hs.sizes.2) fun k hk => ?_
    obtain ⟨c, h⟩ := hget k hk
    rw [hr.stress k c h, hs.stress k c h]
  have h3 : r.times = s.times := hr.times.trans hs.times.symm
  cases r; cases s; simp_all

theorem sample_iff {nDim : ℕ} {f : Frame} {r : CsvResponse} :
    SampleOf nDim f r ↔ csvSample nDim f = r :=
  ⟨fun h => sample_unique (sample_of nDim f) h, fun h => h ▸ sample_of nDim f⟩

theorem negligible_iff {nDim : ℕ} {f : Frame} :
    isNegligible (csvSample nDim f) = false ↔ Loaded nDim f := by
  have hs := sample_of nDim f
  unfold isNegligible Loaded
  rw [Bool.eq_false_iff]
  simp only [ne_eq, List.all_eq_true, decide_eq_true_eq, not_forall, not_le, sub_zero, abs_zero, mul_zero,
    add_zero]
  constructor
  · rintro ⟨row, h1, x, h2, h3⟩
    obtain ⟨k, hk, rfl⟩ := List.mem_iff_getElem.mp h2
    have h4 := hs.sizes.2 row h1
    rw [hs.comps, List.length_map] at h4
    have h5 : (problemComps nDim)[k]? = some ((problemComps nDim)[k]'(by omega)) :=
      List.getElem?_eq_getElem _
    refine ⟨_, List.mem_of_getElem? h5, row[k], ?_, h3⟩
    rw [← hs.stress k _ h5]
    refine List.mem_map.mpr ⟨row, h1, ?_⟩
    simp [hk]
  · rintro ⟨c, h1, x, h2, h3⟩
    obtain ⟨k, hk, rfl⟩ := List.mem_iff_getElem.mp h1
    rw [← hs.stress k _ (List.getElem?_eq_getElem hk)] at h2
    obtain ⟨row, h4, rfl⟩ := List.mem_map.mp h2
    have h5 := hs.sizes.2 row h4
    rw [hs.comps, List.length_map] at h5
    have hk' : k < row.length := by omega
    refine ⟨row, h4, row[k], List.getElem_mem _, ?_⟩
    simpa [hk'] using h3

theorem sortCsv_perm {files given : List (Text × Frame)} (h : Numbered files) (hp : given.Perm files) :
    sortCsv given = .ok files := by
  unfold sortCsv
  have h1 : given.mapM (fun f => (orRaise (lastNumber f.1) .attributeError).map fun n : ℕ => (n, f))
      = Except.ok (ε := PyErr) (given.map fun f => ((lastNumber f.1).getD 0, f)) := by
    refine mapM_of_forall fun f hf => ?_
    obtain ⟨k, hk⟩ := h.number f (hp.mem_iff.mp hf)
    rw [hk]
    rfl
  rw [h1]
  simp only [bind, Except.bind, pure, Except.pure]
  rw [sortByKey_perm (l := files.map fun f => ((lastNumber f.1).getD 0, f)) ?_ (hp.map _)]
  · simp [Function.comp_def]
  · rw [List.map_map, List.pairwise_map]
    have h2 := h.increasing
    refine h2.imp_of_mem fun {a b} ha hb hab => ?_
    obtain ⟨j, hj⟩ := h.number a ha
    obtain ⟨k, hk⟩ := h.number b hb
    simpa [hj, hk] using hab j k hj hk

open Classical in
/-- C128a: from csv files, given in any order, the generator returns exactly if some file has a stress
larger than the tolerance, and the samples are the tables of these files in the order of the numbers of
the files, with every component from the column that names it. -/
theorem C128_csv {files given : List (Text × Frame)} (h : Numbered files) (hp : given.Perm files)
    (h13 : ∀ f ∈ files, f.2.cols = 13) (nDim : ℕ) (hasDir : Bool) (l : List CsvResponse) :
    responsesFromCsv true nDim true hasDir given = .ok l ↔
      l ≠ [] ∧ List.Forall₂ (fun (f : Text × Frame) r => SampleOf nDim f.2 r)
        (files.filter fun f => decide (Loaded nDim f.2)) l := by
  have e2 : files.mapM (fun f => csvResponse nDim f.2)
      = Except.ok (ε := PyErr) (files.map fun f => csvSample nDim f.2) :=
    mapM_of_forall fun f hf => csvResponse_eq (h13 f hf)
  have e3 : (files.map fun f => csvSample nDim f.2).filter (fun r => !isNegligible r)
      = (files.filter fun f => decide (Loaded nDim f.2)).map fun f => csvSample nDim f.2 := by
    rw [List.filter_map]
    congr 1
    refine List.filter_congr fun f _ => ?_
    have := negligible_iff (nDim := nDim) (f := f.2)
    by_cases hl : Loaded nDim f.2
    · simp [hl, this.mpr hl]
    · have hb : isNegligible (csvSample nDim f.2) = true := by
        cases hb : isNegligible (csvSample nDim f.2) with
        | true => rfl
        | false => exact absurd (this.mp hb) hl
      simp [hl, hb]
  have e4 : ∀ l : List CsvResponse, List.Forall₂ (fun (f : Text × Frame) r => SampleOf nDim f.2 r)
      (files.filter fun f => decide (Loaded nDim f.2)) l ↔
      ((files.filter fun f => decide (Loaded nDim f.2)).map fun f => csvSample nDim f.2) = l := by
    intro l
    simp only [sample_iff]
    rw [← List.forall₂_map_left_iff (f := fun f : Text × Frame => csvSample nDim f.2) (R := Eq),
      List.forall₂_eq_eq_eq]
  rw [e4]
  simp only [responsesFromCsv, bind_ok_iff, raiseIf_ok, sortCsv_perm h hp, Except.ok.injEq,
    exists_eq_left', e2, e3, pure, Except.pure]
  constructor
  · rintro ⟨-, -, -, -, -, -, -, -, -, h1, h2⟩
    exact ⟨by rw [← h2]; exact h1, h2⟩
  · rintro ⟨h1, h2⟩
    refine ⟨(), by simp, (), by simp, (), by simp, (), ?_, (), by rw [h2]; exact h1, h2⟩
    rintro rfl
    have := hp.symm.eq_nil
    subst this
    exact h1 (by simpa using h2.symm)

/-- C128b: a file with another number of columns is refused, whatever the other files hold. -/
theorem C128_columns {files given : List (Text × Frame)} (h : Numbered files) (hp : given.Perm files)
    (hbad : ∃ f ∈ files, f.2.cols ≠ 13) (nDim : ℕ) (hasDir : Bool) :
    responsesFromCsv true nDim true hasDir given = .error .runtimeError := by
  have e2 : files.mapM (fun f => csvResponse nDim f.2) = Except.error PyErr.runtimeError := by
    clear h hp
    induction files with
    | nil => obtain ⟨f, hf, -⟩ := hbad; cases hf
    | cons a l ih =>
      rw [List.mapM_cons]
      by_cases ha : a.2.cols = 13
      · have : ∃ f ∈ l, f.2.cols ≠ 13 := by
          obtain ⟨f, hf, h⟩ := hbad
          rcases List.mem_cons.mp hf with rfl | hf
          · exact absurd ha h
          · exact ⟨f, hf, h⟩
        rw [csvResponse_eq ha, ih this]
        rfl
      · rw [csvResponse_wrong ha]
        rfl
  unfold responsesFromCsv
  rw [sortCsv_perm h hp]
  simp only [raiseIf, bind, Except.bind, e2]
  rfl

/-! ### Responses of the strains of a stored data set -/

section
variable {n : ℕ} {σ : Type}

theorem forall₂_congr_mem {α β : Type} {R S : α → β → Prop} {l : List α} {r : List β}
    (h : ∀ a ∈ l, ∀ b, R a b ↔ S a b) : List.Forall₂ R l r ↔ List.Forall₂ S l r := by
  induction l generalizing r with
  | nil => simp
  | cons a l ih =>
    cases r with
    | nil => simp
    | cons b r =>
      rw [List.forall₂_cons, List.forall₂_cons, h a List.mem_cons_self,
        ih fun x hx => h x (List.mem_cons_of_mem _ hx)]

theorem responseOfSample_ok {co : List Comp} {features : List (String × ℕ)} {M : RcModel n σ}
    (h : GoodSetting co features M) {s : StrainSample} (hne : s.strain ≠ [])
    (ht : s.times.length = s.strain.length) (hr : ∀ r ∈ s.strain, co.length ≤ r.length)
    {r : ResponsePath × List ℝ} :
    responseOfSample n co M features s = .ok r ↔
      (∃ st, Succeeds co M s.strain st ∧ r.1 = responseOf co features M s.strain st) ∧ r.2 = s.times := by
  rw [← C102_path h hne hr]
  simp only [responseOfSample, bind_ok_iff, raiseIf_ok, pure, Except.pure, Except.ok.injEq, ht]
  obtain ⟨r1, r2⟩ := r
  simp only [Prod.mk.injEq]
  constructor
  · rintro ⟨⟨a, b⟩, h1, -, h2, rfl, rfl⟩
    cases b with
    | true => simp at h2
    | false => exact ⟨h1, rfl⟩
  · rintro ⟨h1, rfl⟩
    exact ⟨_, h1, (), by simp, rfl, rfl⟩

/-- C128c: from the strains of a stored data set, the generator returns exactly if the model is known,
there are samples and no state update of any sample fails, and then every sample keeps its strains and
times and holds the exact response of the model to its strains. -/
theorem C128_strains {co : List Comp} {features : List (String × ℕ)} {M : RcModel n σ}
    (h : GoodSetting co features M) {samples : List StrainSample}
    (hs : ∀ s ∈ samples, s.strain ≠ [] ∧ s.times.length = s.strain.length ∧
      ∀ r ∈ s.strain, co.length ≤ r.length) (name : String) (l : List (ResponsePath × List ℝ)) :
    responsesFromStrains n co name M features (some samples) = .ok l ↔
      name ∈ ["elastic", "von_mises", "drucker_prager", "lou_zhang_yoon"] ∧ samples ≠ [] ∧
      List.Forall₂ (fun s r => (∃ st, Succeeds co M s.strain st ∧
        r.1 = responseOf co features M s.strain st) ∧ r.2 = s.times) samples l := by
  have key : samples.mapM (responseOfSample n co M features) = .ok l ↔
      List.Forall₂ (fun s r => (∃ st, Succeeds co M s.strain st ∧
        r.1 = responseOf co features M s.strain st) ∧ r.2 = s.times) samples l := by
    have h1 : samples.mapM (responseOfSample n co M features) = .ok l ↔
        List.Forall₂ (fun s r => responseOfSample n co M features s = .ok r) samples l :=
      ⟨mapM_forall₂, mapM_ok_of_forall₂⟩
    rw [h1]
    refine forall₂_congr_mem fun s hm r => ?_
    obtain ⟨h2, h3, h4⟩ := hs s hm
    exact responseOfSample_ok h h2 h3 h4
  simp only [responsesFromStrains, bind_ok_iff, raiseIf_ok, orRaise_ok, Option.some.injEq, exists_eq_left',
    pure, Except.pure, Except.ok.injEq, not_not]
  constructor
  · rintro ⟨-, h1, rs, h2, -, h3, rfl⟩
    exact ⟨h1, h3, key.mp h2⟩
  · rintro ⟨h1, h2, h3⟩
    exact ⟨(), h1, l, key.mpr h3, (), h2, rfl⟩

/-- C128d: the responses to the strains of a generated data set, with the same model and state features,
are the responses of this data set. -/
theorem C128_recompute {co : List Comp} {features : List (String × ℕ)} {M : RcModel n σ}
    (h : GoodSetting co features M) {draws : ℕ → List (List ℝ)} (hne : ∀ j, draws j ≠ [])
    (hd : ∀ j, ∀ r ∈ draws j, co.length ≤ r.length) {nPath : ℕ} {l : List ResponsePath}
    (hg : generateResponseDataset n co M features draws nPath = .ok l)
    (times : ResponsePath → List ℝ) (ht : ∀ r ∈ l, (times r).length = r.strain.length) {name : String}
    (hn : name ∈ ["elastic", "von_mises", "drucker_prager", "lou_zhang_yoon"]) :
    responsesFromStrains n co name M features (some (l.map fun r => ⟨r.strain, times r⟩))
      = .ok (l.map fun r => (r, times r)) := by
  obtain ⟨h1, h2, used, -, h4⟩ := (C102_samples h hne hd).mp hg
  have h5 : ∀ r ∈ l, ∃ j st, Succeeds co M (draws j) st ∧ r = responseOf co features M (draws j) st := by
    intro r hr
    obtain ⟨i, hi, rfl⟩ := List.mem_iff_getElem.mp hr
    obtain ⟨-, -, ⟨st, h6, h7⟩, -⟩ := h4 i hi
    exact ⟨_, st, h6, h7⟩
  rw [C128_strains h]
  · refine ⟨hn, ?_, ?_⟩
    · intro e
      rw [List.map_eq_nil_iff] at e
      subst e
      exact h1 h2.symm
    · rw [List.forall₂_map_left_iff, List.forall₂_map_right_iff, List.forall₂_same]
      intro r hr
      obtain ⟨j, st, h6, h7⟩ := h5 r hr
      have e : r.strain = draws j := by rw [h7]; rfl
      refine ⟨⟨st, ?_, ?_⟩, rfl⟩
      · rw [e]; exact h6
      · rw [e]; exact h7
  · intro s hs
    obtain ⟨r, hr, rfl⟩ := List.mem_map.mp hs
    obtain ⟨j, st, h6, h7⟩ := h5 r hr
    have e : r.strain = draws j := by rw [h7]; rfl
    refine ⟨by rw [e]; exact hne j, ht r hr, by rw [e]; exact hd j⟩

end

/-! ### Non-vacuity and faults -/

/-- A table of two times with zero strains and the stresses `x` in the component 11. -/
def uniTable (x : ℝ) : Frame where
  cols := 13
  rows := [List.replicate 13 0, 1 :: List.replicate 6 0 ++ x :: List.replicate 5 0]

theorem uni_loaded {x : ℝ} {nDim : ℕ} : Loaded nDim (uniTable x) ↔ 1 / 10 ^ 8 < |x| := by
  have hz : ¬ (1 : ℝ) / 10 ^ 8 < 0 := by norm_num
  unfold Loaded problemComps csvColumn uniTable
  have e : ∀ s : String, s ∈ ["S11", "S22", "S33", "S12", "S23", "S13"] →
      ((List.replicate 13 (0 : ℝ)).getD (csvHeader.idxOf s) 0) = 0 ∧
      ((1 :: List.replicate 6 0 ++ x :: List.replicate 5 (0 : ℝ)).getD (csvHeader.idxOf s) 0)
        = if s = "S11" then x else 0 := by
    intro s hs
    simp only [List.mem_cons, List.not_mem_nil, or_false] at hs
    rcases hs with rfl | rfl | rfl | rfl | rfl | rfl
    · exact ⟨rfl, rfl⟩
    · exact ⟨rfl, rfl⟩
    · exact ⟨rfl, rfl⟩
    · exact ⟨rfl, rfl⟩
    · exact ⟨rfl, rfl⟩
    · exact ⟨rfl, rfl⟩
  constructor
  · rintro ⟨c, hc, y, hy, hlt⟩
    have hs : "S" ++ c.1 ∈ ["S11", "S22", "S33", "S12", "S23", "S13"] := by
      split at hc <;> simp only [List.mem_cons, List.not_mem_nil, or_false] at hc
      · rcases hc with rfl | rfl | rfl <;> decide
      · rcases hc with rfl | rfl | rfl | rfl | rfl | rfl <;> decide
    simp only [List.map_cons, List.map_nil, List.mem_cons, List.not_mem_nil, or_false] at hy
    rw [(e _ hs).1, (e _ hs).2] at hy
    rcases hy with rfl | rfl
    · exact absurd hlt (by rw [abs_zero]; exact hz)
    · split_ifs at hlt
      · exact hlt
      · exact absurd hlt (by rw [abs_zero]; exact hz)
  · intro h
    refine ⟨("11", [1, 1]), by split <;> simp, x, ?_, h⟩
    have := (e "S11" (by decide)).2
    rw [if_pos rfl] at this
    exact List.mem_map.mpr ⟨_, List.mem_cons_of_mem _ List.mem_cons_self, this⟩

theorem uni_numbered (x y : ℝ) :
    Numbered [("p_2.csv".toList, uniTable x), ("p_10.csv".toList, uniTable y)] := by
  have h2 : lastNumber "p_2.csv".toList = some 2 := by decide +kernel
  have h10 : lastNumber "p_10.csv".toList = some 10 := by decide +kernel
  constructor
  · intro f hf
    simp only [List.mem_cons, List.not_mem_nil, or_false] at hf
    rcases hf with rfl | rfl
    exacts [⟨2, h2⟩, ⟨10, h10⟩]
  · refine List.pairwise_pair.mpr fun j k hj hk => ?_
    rw [h2] at hj
    rw [h10] at hk
    cases hj
    cases hk
    norm_num

/-- Two files given in the order of their names: the file with number 2 comes first. -/
example : responsesFromCsv true 3 true false
      [("p_10.csv".toList, uniTable 7), ("p_2.csv".toList, uniTable 5)]
    = .ok [csvSample 3 (uniTable 5), csvSample 3 (uniTable 7)] := by
  classical
  rw [C128_csv (uni_numbered 5 7) (List.Perm.swap _ _ _)]
  · have l5 : Loaded 3 (uniTable 5) := uni_loaded.mpr (by norm_num)
    have l7 : Loaded 3 (uniTable 7) := uni_loaded.mpr (by norm_num)
    refine ⟨by simp, ?_⟩
    rw [List.filter_eq_self.mpr]
    · exact .cons (sample_of _ _) (.cons (sample_of _ _) .nil)
    · intro f hf
      simp only [List.mem_cons, List.not_mem_nil, or_false] at hf
      rcases hf with rfl | rfl
      exacts [decide_eq_true l5, decide_eq_true l7]
  · intro f hf
    simp only [List.mem_cons, List.not_mem_nil, or_false] at hf
    rcases hf with rfl | rfl <;> rfl

/-- **C128 is violated for small stresses.**  The tolerance does not depend on the units: a path whose
stresses are not zero but at most `1e-8` is left out without an error. -/
theorem C128_units_violated : ∃ (x y : ℝ), 0 < x ∧ 0 < y ∧
    responsesFromCsv true 3 true false [("p_2.csv".toList, uniTable x), ("p_10.csv".toList, uniTable y)]
      = .ok [csvSample 3 (uniTable y)] := by
  classical
  refine ⟨1 / 10 ^ 9, 7, by norm_num, by norm_num, ?_⟩
  rw [C128_csv (uni_numbered _ _) (List.Perm.refl _)]
  · have l5 : ¬ Loaded 3 (uniTable (1 / 10 ^ 9)) := by
      rw [uni_loaded, abs_of_pos (by norm_num)]; norm_num
    have l7 : Loaded 3 (uniTable 7) := uni_loaded.mpr (by norm_num)
    refine ⟨by simp, ?_⟩
    rw [List.filter_cons_of_neg (by rw [decide_eq_true_eq]; exact l5), List.filter_cons_of_pos
      (by rw [decide_eq_true_eq]; exact l7), List.filter_nil]
    exact .cons (sample_of _ _) .nil
  · intro f hf
    simp only [List.mem_cons, List.not_mem_nil, or_false] at hf
    rcases hf with rfl | rfl <;> rfl

/-- **C128 is violated for paths without stress.**  If all paths are left out, the generator raises a
`ZeroDivisionError`. -/
theorem C128_unloaded_violated : responsesFromCsv true 3 true false
    [("p_2.csv".toList, uniTable 0), ("p_10.csv".toList, uniTable 0)] = .error .zeroDivision := by
  have l0 : isNegligible (csvSample 3 (uniTable 0)) = true := by
    cases hb : isNegligible (csvSample 3 (uniTable 0)) with
    | true => rfl
    | false =>
      have := uni_loaded.mp (negligible_iff.mp hb)
      rw [abs_zero] at this
      norm_num at this
  unfold responsesFromCsv
  rw [sortCsv_perm (uni_numbered 0 0) (List.Perm.refl _)]
  have e : csvResponse 3 (uniTable 0) = .ok (csvSample 3 (uniTable 0)) := csvResponse_eq rfl
  simp only [raiseIf, bind, Except.bind, List.mapM_cons, List.mapM_nil, pure, Except.pure, e,
    List.filter_cons, l0, List.filter_nil]
  rfl

/-- **C128 is violated for data sets on disk.**  Whatever the files, the generator raises a `NameError`
for the name of the data set, which is not an argument. -/
theorem C128_stored_violated (infinitesimal : Bool) (nDim : ℕ) (files : List (Text × Frame)) :
    responsesFromCsv infinitesimal nDim false true files = .error .unboundLocal := rfl

/-- A data set of strains with one sample, and the response of the model. -/
example : ∃ l, responsesFromStrains 1 sliderNet.co "von_mises" sliderNet.model sliderNet.features
    (some [⟨[[0], [1]], [0, 1]⟩]) = .ok l := by
  have hs : Succeeds sliderNet.co sliderNet.model [[0], [1]] fun t => if t = 0 then (0, 0) else (1, |1|) :=
    ⟨slider_trajectory 1, fun t h1 _ => by simp [sliderNet, h1.ne']⟩
  refine ⟨[(responseOf sliderNet.co sliderNet.features sliderNet.model [[0], [1]]
    fun t => if t = 0 then (0, 0) else (1, |1|), [0, 1])], ?_⟩
  rw [C128_strains slider_good]
  · refine ⟨by simp, by simp, .cons ⟨⟨_, hs, rfl⟩, rfl⟩ .nil⟩
  · intro s hs
    simp only [List.mem_cons, List.not_mem_nil, or_false] at hs
    subst hs
    exact ⟨by simp, rfl, slider_rows 1⟩

end Hooke
