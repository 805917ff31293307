import Verif.Spec.LawComparison
import Verif.Lemmas.Py
import Verif.Props.UncertaintyPaths

/-! # C177: comparisons of hardening laws -/

noncomputable section

namespace Hooke

open Spec

theorem selectCols_append {row : List ℝ} (h : row.length % 3 = 0) (a b c : ℝ) :
    selectCols (row ++ [a, b, c]) = selectCols row ++ [a, b] := by
  unfold selectCols
  have h1 : (row ++ [a, b, c]).length = row.length + 1 + 1 + 1 := by simp
  rw [h1, List.range_succ, List.range_succ, List.range_succ]
  simp only [List.filter_append, List.filterMap_append]
  have e1 : ((List.range row.length).filter fun k => k % 3 != 2).filterMap (fun k => (row ++ [a, b, c])[k]?) =
      ((List.range row.length).filter fun k => k % 3 != 2).filterMap fun k => row[k]? := by
    apply List.filterMap_congr
    intro k hk
    have : k < row.length := List.mem_range.mp (List.mem_of_mem_filter hk)
    rw [List.getElem?_append_left this]
  rw [e1]
  have m0 : ((row.length % 3) != 2) = true := by rw [h]; rfl
  have m1 : (((row.length + 1) % 3) != 2) = true := by
    rw [show (row.length + 1) % 3 = 1 by omega]; rfl
  have m2 : (((row.length + 1 + 1) % 3) != 2) = false := by
    rw [show (row.length + 1 + 1) % 3 = 2 by omega]; rfl
  simp [List.filter_cons, m0, m1, m2]

theorem selectCols_flatten (cells : List (ℝ × ℝ × ℝ)) :
    (cells.map fun p => [p.1, p.2.1, p.2.2]).flatten.length % 3 = 0 ∧
      selectCols (cells.map fun p => [p.1, p.2.1, p.2.2]).flatten =
        (cells.map fun p => [p.1, p.2.1]).flatten := by
  induction cells using List.reverseRecOn with
  | nil => exact ⟨rfl, rfl⟩
  | append_singleton l x ih =>
    simp only [List.map_append, List.flatten_append, List.map_cons, List.map_nil, List.flatten_cons,
      List.flatten_nil, List.append_nil]
    constructor
    · rw [List.length_append]
      simp only [List.length_cons, List.length_nil]
      omega
    · rw [selectCols_append ih.1, ih.2]

theorem pairs_get {cells : List (ℝ × ℝ × ℝ)} {i : ℕ} {p : ℝ × ℝ × ℝ} (h : cells[i]? = some p) :
    (cells.map fun p => [p.1, p.2.1]).flatten[2 * i]? = some p.1 ∧
      (cells.map fun p => [p.1, p.2.1]).flatten[2 * i + 1]? = some p.2.1 := by
  induction cells generalizing i with
  | nil => simp at h
  | cons q l ih =>
    cases i with
    | zero => simp at h; subst h; simp
    | succ i =>
      have := ih (i := i) (by simpa using h)
      rw [show 2 * (i + 1) = 2 * i + 2 by omega, show 2 * i + 2 + 1 = 2 * i + 1 + 2 by omega]
      simpa using this

theorem lawRow_shows {laws : List NamedLaw} (hd : ∀ l ∈ laws, LawDefined l) {x : ℝ} (h0 : 0 ≤ x) (h1 : x ≤ 1) :
    ∃ row, lawRow laws x = .ok row ∧ ∀ (i : ℕ) (l : NamedLaw), laws[i]? = some l →
      ∃ y s, (selectCols row)[2 * i]? = some x ∧ (selectCols row)[2 * i + 1]? = some y ∧ l.2 x = .ok (y, s) := by
  have hc : ∃ cells : List (ℝ × ℝ × ℝ), laws.mapM (fun l => do
      let r ← l.2 x
      return [x, r.1, r.2]) = .ok (cells.map fun p => [p.1, p.2.1, p.2.2]) ∧
      ∀ (i : ℕ) (l : NamedLaw), laws[i]? = some l → ∃ y s, cells[i]? = some (x, y, s) ∧ l.2 x = .ok (y, s) := by
    induction laws with
    | nil => exact ⟨[], rfl, fun i l h => by simp at h⟩
    | cons l laws ih =>
      obtain ⟨cells, hm, hg⟩ := ih fun l' h' => hd l' (List.mem_cons_of_mem _ h')
      obtain ⟨r, hr⟩ := hd l (by simp) x h0 h1
      refine ⟨(x, r.1, r.2) :: cells, ?_, ?_⟩
      · rw [List.mapM_cons, hm, hr]
        rfl
      · intro i l' hi
        cases i with
        | zero =>
          simp at hi
          subst hi
          exact ⟨r.1, r.2, rfl, hr⟩
        | succ i => exact hg i l' (by simpa using hi)
  obtain ⟨cells, hm, hg⟩ := hc
  refine ⟨(cells.map fun p => [p.1, p.2.1, p.2.2]).flatten, ?_, ?_⟩
  · unfold lawRow
    rw [hm]
    rfl
  · intro i l hi
    obtain ⟨y, s, hy, hl⟩ := hg i l hi
    rw [(selectCols_flatten cells).2]
    exact ⟨y, s, (pairs_get hy).1, (pairs_get hy).2, hl⟩

theorem lawRows_shows {laws : List NamedLaw} (hd : ∀ l ∈ laws, LawDefined l) {n : ℕ} (hn : 2 ≤ n) :
    ∃ rows, (lawStrains n).mapM (fun x => lawRow laws x) = .ok rows ∧
      ∀ (i : ℕ) (l : NamedLaw), laws[i]? = some l →
        ShowsYield n l ((rows.map selectCols).map fun r => (r[2 * i]?, r[2 * i + 1]?)) := by
  have hn1 : (0 : ℝ) < (n : ℝ) - 1 := by
    have : (2 : ℝ) ≤ n := by exact_mod_cast hn
    linarith
  obtain ⟨rows, hr, hf⟩ := mapM_exists171 (R := fun (x : ℝ) (row : List ℝ) =>
      ∀ (i : ℕ) (l : NamedLaw), laws[i]? = some l →
        ∃ y s, (selectCols row)[2 * i]? = some x ∧ (selectCols row)[2 * i + 1]? = some y ∧ l.2 x = .ok (y, s))
    (f := fun x => lawRow laws x) (l := lawStrains n) (by
      intro x hx
      unfold lawStrains at hx
      obtain ⟨k, hk, rfl⟩ := List.mem_map.mp hx
      have hk' : (k : ℝ) + 1 ≤ n := by exact_mod_cast List.mem_range.mp hk
      apply lawRow_shows hd
      · positivity
      · rw [div_le_one hn1]; linarith)
  have hl : rows.length = n := by rw [← hf.length_eq]; simp [lawStrains]
  refine ⟨rows, hr, ?_⟩
  intro i l hi
  refine ⟨by simp [hl], ?_⟩
  intro j hj
  have hjp : j < (lawStrains n).length := by simpa [lawStrains] using hj
  obtain ⟨y, s, h1, h2, h3⟩ := (List.forall₂_iff_get.mp hf).2 j hjp (by omega) i l hi
  simp only [List.get_eq_getElem] at h1 h2 h3
  refine ⟨(lawStrains n)[j], y, s, ?_, ?_, h3⟩
  · rw [List.getElem?_map, List.getElem?_map, List.getElem?_eq_getElem (by omega)]
    simp only [Option.map_some, h1, h2]
  · simp only [lawStrains, List.getElem_map, List.getElem_range]
    field_simp

/-- **C177.**  A displayed comparison has a curve for every law, in order and under its name, which is the yield
stress of that law at 10000 equally spaced strains from 0 to 1; what is saved is what is displayed. -/
theorem C177_shown {laws : List NamedLaw} (hd : ∀ l ∈ laws, LawDefined l) (isSave : Bool) :
    ∃ r curves, compareLaws laws isSave true = .ok r ∧ r.displayed = some curves ∧
      r.saved = (if isSave then some curves else none) ∧ curves.map Prod.fst = laws.map Prod.fst ∧
      ∀ (i : ℕ) (l : NamedLaw), laws[i]? = some l → ∃ c, curves[i]? = some (l.1, c) ∧ ShowsYield 10000 l c := by
  unfold compareLaws
  generalize hN : (10000 : ℕ) = N
  obtain ⟨rows, hr, hs⟩ := lawRows_shows hd (n := N) (by omega)
  refine ⟨⟨some (xyCurves (laws.map Prod.fst) (rows.map selectCols)),
    if isSave then some (xyCurves (laws.map Prod.fst) (rows.map selectCols)) else none⟩,
    xyCurves (laws.map Prod.fst) (rows.map selectCols), ?_, rfl, rfl, ?_, ?_⟩
  · unfold compareLawsAt
    rw [hr]
    cases isSave <;> rfl
  · unfold xyCurves
    apply List.ext_getElem?
    intro i
    simp only [List.getElem?_map, List.getElem?_mapIdx, Option.map_map]
    cases laws[i]? <;> rfl
  · intro i l hi
    refine ⟨_, ?_, hs i l hi⟩
    unfold xyCurves
    rw [List.getElem?_mapIdx, List.getElem?_map, hi]
    rfl

/-- **C177.**  A law that raises at a strain of the comparison makes the comparison raise. -/
theorem C177_raises {laws : List NamedLaw} {isSave isDisplay : Bool} {r : LawFigures}
    (h : compareLaws laws isSave isDisplay = .ok r) {l : NamedLaw} (hl : l ∈ laws) {j : ℕ} (hj : j < 10000) :
    ∃ v, l.2 ((j : ℝ) / 9999) = .ok v := by
  unfold compareLaws at h
  have hN9 : ((10000 : ℕ) : ℝ) - 1 = 9999 := by norm_num
  generalize (10000 : ℕ) = N at h hj hN9
  obtain ⟨rows, hr, _⟩ := bind_ok h
  have hf := mapM_forall₂ hr
  have hjp : j < (lawStrains N).length := by simpa [lawStrains] using hj
  have h1 := (List.forall₂_iff_get.mp hf).2 j hjp (hf.length_eq ▸ hjp)
  simp only [List.get_eq_getElem] at h1
  obtain ⟨cells, hc, _⟩ := bind_ok h1
  obtain ⟨i, hi, rfl⟩ := List.mem_iff_getElem.mp hl
  have hf2 := mapM_forall₂ hc
  have h2 := (List.forall₂_iff_get.mp hf2).2 i hi (hf2.length_eq ▸ hi)
  simp only [List.get_eq_getElem] at h2
  obtain ⟨v, hv, _⟩ := bind_ok h2
  refine ⟨v, ?_⟩
  rw [← hv]
  congr 1
  simp only [lawStrains, List.getElem_map, List.getElem_range, hN9]

/-- **C177 is violated for a comparison that is saved and not displayed.**  The figure is made only when it is
displayed, so that saving it raises an `UnboundLocalError`, whatever the laws. -/
theorem C177_saved_violated {laws : List NamedLaw} (hd : ∀ l ∈ laws, LawDefined l) :
    compareLaws laws true false = .error .unboundLocal := by
  unfold compareLaws
  generalize hN : (10000 : ℕ) = N
  obtain ⟨rows, hr, _⟩ := lawRows_shows hd (n := N) (by omega)
  unfold compareLawsAt
  rw [hr]
  rfl

/-- The hypotheses are met: a linear and a quadratic law. -/
example : ∀ l ∈ ([("linear", fun x => .ok (1 + x, 1)), ("quadratic", fun x => .ok (1 + x ^ 2, 2 * x))] :
    List NamedLaw), LawDefined l := by
  intro l hl x _ _
  simp only [List.mem_cons, List.not_mem_nil, or_false] at hl
  rcases hl with rfl | rfl
  · exact ⟨_, rfl⟩
  · exact ⟨_, rfl⟩

end Hooke
