import Verif.Spec.GroupedBars
import Verif.Props.NoiseConvergence
import Mathlib.Algebra.Order.Floor.Semiring

/-! # C174: charts of grouped bars -/

noncomputable section

namespace Hooke

open Spec

/-- What a chart that is drawn is made of. -/
theorem groupedBars_ok {labels : List String} {data : List (String × List ℝ)} {width : Option ℝ} {isAvg : Bool}
    {c : BarChart} (h : groupedBars labels data width isAvg = .ok c) :
    (∀ d ∈ data, d.2.length = labels.length) ∧
      c = ⟨labels.mapIdx fun g l => ((g : ℝ) + barWidth data.length width, l), barWidth data.length width,
        data.mapIdx fun k d => barSet (barWidth data.length width) isAvg d k⟩ := by
  obtain ⟨_, h1, h⟩ := bind_ok h
  obtain ⟨_, _, h⟩ := bind_ok h
  refine ⟨?_, ((Except.ok.inj h)).symm⟩
  by_contra hc
  have : (!(data.all fun d => d.2.length == labels.length)) = true := by
    simpa using hc
  rw [raiseIf, if_pos this] at h1
  cases h1

/-- Where the bars of a chart are. -/
theorem barAt_iff {labels : List String} {data : List (String × List ℝ)} {width : Option ℝ} {isAvg : Bool}
    {c : BarChart} (h : groupedBars labels data width isAvg = .ok c) (k g : ℕ) (a v : ℝ) :
    BarAt c k g a v ↔ a = (g : ℝ) + ((k : ℝ) + 1 / 2) * c.width ∧ ∃ d, data[k]? = some d ∧ d.2[g]? = some v := by
  obtain ⟨_, rfl⟩ := groupedBars_ok h
  unfold BarAt
  simp only [List.getElem?_mapIdx, Option.map_eq_some_iff]
  constructor
  · rintro ⟨s, ⟨d, hd, rfl⟩, hs⟩
    simp only [barSet, List.getElem?_mapIdx, Option.map_eq_some_iff] at hs
    obtain ⟨y, hy, he⟩ := hs
    have h1 := congrArg Prod.fst he
    have h2 := congrArg Prod.snd he
    simp only at h1 h2
    subst h2
    refine ⟨?_, d, hd, hy⟩
    rw [← h1]; ring
  · rintro ⟨ha, d, hd, hy⟩
    refine ⟨_, ⟨d, hd, rfl⟩, ?_⟩
    simp only [barSet, List.getElem?_mapIdx, hy, Option.map_some]
    congr 2
    rw [ha]; ring

/-- **C174.**  A chart is drawn exactly when every data set has a value for every group, and there is a data set
if average lines are asked for. -/
theorem C174_drawn (labels : List String) (data : List (String × List ℝ)) (width : Option ℝ) (isAvg : Bool) :
    (∃ c, groupedBars labels data width isAvg = .ok c) ↔
      (∀ d ∈ data, d.2.length = labels.length) ∧ (isAvg = true → data ≠ []) := by
  constructor
  · rintro ⟨c, h⟩
    refine ⟨(groupedBars_ok h).1, ?_⟩
    rintro ha rfl
    obtain ⟨_, _, h⟩ := bind_ok h
    obtain ⟨_, h2, _⟩ := bind_ok h
    subst ha
    rw [raiseIf, if_pos (by rfl)] at h2
    cases h2
  · rintro ⟨h1, h2⟩
    have e1 : ¬ (!(data.all fun d => d.2.length == labels.length)) = true := by
      simpa using h1
    have e2 : ¬ (isAvg && data.isEmpty) = true := by
      simpa using h2
    refine ⟨⟨labels.mapIdx fun g l => ((g : ℝ) + barWidth data.length width, l), barWidth data.length width,
        data.mapIdx fun k d => barSet (barWidth data.length width) isAvg d k⟩, ?_⟩
    unfold groupedBars
    rw [raiseIf, if_neg e1, raiseIf, if_neg e2]
    rfl

/-- **C174.**  Every value of every data set is the height of the bar of its data set in its group, every bar is
the bar of a value, the bars carry the label of their data set, and an average line is at the mean. -/
theorem C174_shown {labels : List String} {data : List (String × List ℝ)} {width : Option ℝ} {isAvg : Bool}
    {c : BarChart} (h : groupedBars labels data width isAvg = .ok c) :
    c.sets.map BarSet.label = data.map Prod.fst ∧ c.ticks.map Prod.snd = labels ∧
      (∀ k g v, (∃ a, BarAt c k g a v) ↔ ∃ d, data[k]? = some d ∧ d.2[g]? = some v) ∧
      (∀ (k : ℕ) (s : BarSet) (d : String × List ℝ) (y : ℝ), c.sets[k]? = some s → data[k]? = some d → s.average = some y → labels ≠ [] →
        IsMean d.2 y) ∧
      (∀ s ∈ c.sets, s.average.isSome = isAvg) := by
  have hb := barAt_iff h
  obtain ⟨hl, rfl⟩ := groupedBars_ok h
  refine ⟨?_, ?_, ?_, ?_, ?_⟩
  · apply List.ext_getElem?
    intro i
    simp only [List.getElem?_map, List.getElem?_mapIdx, Option.map_map]
    rfl
  · apply List.ext_getElem?
    intro i
    simp only [List.getElem?_map, List.getElem?_mapIdx, Option.map_map]
    cases labels[i]? <;> rfl
  · intro k g v
    constructor
    · rintro ⟨a, ha⟩
      exact ((hb k g a v).mp ha).2
    · intro hd
      exact ⟨_, (hb k g _ v).mpr ⟨rfl, hd⟩⟩
  · intro k s d y hs hd hy hne
    simp only [List.getElem?_mapIdx, hd, Option.map_some, Option.some.injEq] at hs
    subst hs
    have hd2 : d.2 ≠ [] := by
      intro h0
      have := hl d (List.mem_of_getElem? hd)
      rw [h0] at this
      exact hne (List.length_eq_zero_iff.mp this.symm)
    unfold barSet at hy
    split at hy
    · cases hy
      exact sampleMean_isMean hd2
    · cases hy
  · intro s hs
    obtain ⟨k, hk⟩ := List.mem_iff_getElem?.mp hs
    simp only [List.getElem?_mapIdx, Option.map_eq_some_iff] at hk
    obtain ⟨d, _, rfl⟩ := hk
    unfold barSet
    cases isAvg <;> rfl

theorem bars_ordered {w : ℝ} (hw : 0 < w) {n k g k' g' : ℕ} (hn : (n : ℝ) * w ≤ 1) (hk : k < n)
    (hlt : g < g' ∨ (g = g' ∧ k < k')) :
    (g : ℝ) + ((k : ℝ) + 1 / 2) * w + w / 2 ≤ (g' : ℝ) + ((k' : ℝ) + 1 / 2) * w - w / 2 := by
  have hk1 : (k : ℝ) + 1 ≤ n := by exact_mod_cast hk
  have h0 : (0 : ℝ) ≤ (k' : ℝ) * w := by positivity
  rcases hlt with hg | ⟨rfl, hkk⟩
  · have hg1 : (g : ℝ) + 1 ≤ g' := by exact_mod_cast hg
    nlinarith
  · have hk2 : (k : ℝ) + 1 ≤ k' := by exact_mod_cast hkk
    nlinarith

/-- **C174.**  With at least two groups and bars of a positive width, no two bars overlap exactly when the bars of
a group fit between two ticks. -/
theorem C174_apart_iff {labels : List String} {data : List (String × List ℝ)} {width : Option ℝ} {isAvg : Bool}
    {c : BarChart} (h : groupedBars labels data width isAvg = .ok c) (hw : 0 < c.width)
    (h2 : 2 ≤ labels.length) : BarsApart c ↔ (data.length : ℝ) * c.width ≤ 1 := by
  have hb := barAt_iff h
  have hl := (groupedBars_ok h).1
  constructor
  · intro hap
    by_contra hc
    push Not at hc
    have hkn : ⌊1 / c.width⌋₊ < data.length := by
      rw [Nat.floor_lt (by positivity), div_lt_iff₀ hw]
      exact hc
    have hf1 := Nat.floor_le (a := 1 / c.width) (by positivity)
    have hf2 := Nat.lt_floor_add_one (1 / c.width)
    rw [le_div_iff₀ hw] at hf1
    rw [div_lt_iff₀ hw] at hf2
    have hn0 : 0 < data.length := by omega
    have hg0 : 0 < (data[⌊1 / c.width⌋₊]).2.length := by
      rw [hl _ (List.getElem_mem hkn)]; omega
    have hg1 : 1 < (data[0]).2.length := by
      rw [hl _ (List.getElem_mem hn0)]; omega
    refine hap ⌊1 / c.width⌋₊ 0 0 1 _ _ _ _ ((hb _ _ _ _).mpr ⟨rfl, _, List.getElem?_eq_getElem hkn,
      List.getElem?_eq_getElem hg0⟩) ((hb _ _ _ _).mpr ⟨rfl, _, List.getElem?_eq_getElem hn0,
      List.getElem?_eq_getElem hg1⟩) (by simp) ?_
    refine ⟨(1 + ((⌊1 / c.width⌋₊ : ℝ) + 1) * c.width) / 2, ?_, ?_, ?_, ?_⟩ <;> push_cast <;> nlinarith
  · intro hn k g k' g' a b v v' ha hb' hne
    obtain ⟨rfl, d, hd, _⟩ := (hb _ _ _ _).mp ha
    obtain ⟨rfl, d', hd', _⟩ := (hb _ _ _ _).mp hb'
    have hk := (List.getElem?_eq_some_iff.mp hd).1
    have hk' := (List.getElem?_eq_some_iff.mp hd').1
    rintro ⟨x, h1, h2, h3, h4⟩
    have hcase : (g < g' ∨ (g = g' ∧ k < k')) ∨ (g' < g ∨ (g' = g ∧ k' < k)) := by
      by_contra hno
      apply hne
      have : k = k' ∧ g = g' := by omega
      rw [this.1, this.2]
    rcases hcase with hlt | hlt
    · have := bars_ordered hw hn hk hlt
      linarith
    · have := bars_ordered hw hn hk' hlt
      linarith

/-- **C174.**  With the default width no two bars overlap, however many groups and data sets there are. -/
theorem C174_default_apart {labels : List String} {data : List (String × List ℝ)} {isAvg : Bool}
    {c : BarChart} (h : groupedBars labels data none isAvg = .ok c) : BarsApart c := by
  have hb := barAt_iff h
  have hwd : c.width = 1 / (2 + (data.length : ℝ)) := by
    rw [(groupedBars_ok h).2]; rfl
  have hw : 0 < c.width := by rw [hwd]; positivity
  have hn : (data.length : ℝ) * c.width ≤ 1 := by
    rw [hwd, mul_one_div, div_le_one (by positivity)]
    linarith
  intro k g k' g' a b v v' ha hb' hne
  obtain ⟨rfl, d, hd, _⟩ := (hb _ _ _ _).mp ha
  obtain ⟨rfl, d', hd', _⟩ := (hb _ _ _ _).mp hb'
  have hk := (List.getElem?_eq_some_iff.mp hd).1
  have hk' := (List.getElem?_eq_some_iff.mp hd').1
  rintro ⟨x, h1, h2, h3, h4⟩
  have hcase : (g < g' ∨ (g = g' ∧ k < k')) ∨ (g' < g ∨ (g' = g ∧ k' < k)) := by
    by_contra hno
    apply hne
    have : k = k' ∧ g = g' := by omega
    rw [this.1, this.2]
  rcases hcase with hlt | hlt
  · have := bars_ordered hw hn hk hlt
    linarith
  · have := bars_ordered hw hn hk' hlt
    linarith

/-- **C174.**  The label of a group is at the middle of its bars exactly when there are two data sets. -/
theorem C174_centred_iff {labels : List String} {data : List (String × List ℝ)} {width : Option ℝ} {isAvg : Bool}
    {c : BarChart} (h : groupedBars labels data width isAvg = .ok c) (hw : 0 < c.width) (hne : data ≠ [])
    {g : ℕ} (hg : g < labels.length) : LabelCentred c g ↔ data.length = 2 := by
  have hb := barAt_iff h
  have hl := (groupedBars_ok h).1
  have hlen : c.sets.length = data.length := by rw [(groupedBars_ok h).2]; simp
  have ht : c.ticks[g]? = some ((g : ℝ) + c.width, labels[g]) := by
    rw [(groupedBars_ok h).2]
    simp [List.getElem?_mapIdx, hg]
  have hn0 : 0 < data.length := List.length_pos_iff.mpr hne
  have hn1 : data.length - 1 < data.length := by omega
  have hcast : ((data.length - 1 : ℕ) : ℝ) = (data.length : ℝ) - 1 := by
    rw [Nat.cast_sub hn0]; simp
  constructor
  · intro hc
    have hga : g < (data[0]).2.length := by rw [hl _ (List.getElem_mem hn0)]; exact hg
    have hgb : g < (data[data.length - 1]).2.length := by rw [hl _ (List.getElem_mem hn1)]; exact hg
    have := hc _ _ _ _ _ _ ht ((hb _ _ _ _).mpr ⟨rfl, _, List.getElem?_eq_getElem hn0,
      List.getElem?_eq_getElem hga⟩) (by
        rw [hlen]
        exact (hb _ _ _ _).mpr ⟨rfl, _, List.getElem?_eq_getElem hn1, List.getElem?_eq_getElem hgb⟩)
    rw [hcast] at this
    push_cast at this
    have h3 : c.width * ((data.length : ℝ) - 2) = 0 := by linarith
    rcases mul_eq_zero.mp h3 with h4 | h4
    · exact absurd h4 hw.ne'
    · have : (data.length : ℝ) = (2 : ℕ) := by push_cast; linarith
      exact_mod_cast this
  · intro h2 t l a b v v' htl ha hbb
    rw [ht] at htl
    have ht1 : (g : ℝ) + c.width = t := congrArg Prod.fst (Option.some.inj htl)
    have ha' := ((hb _ _ _ _).mp ha).1
    have hb' := ((hb _ _ _ _).mp hbb).1
    rw [hlen, h2] at hb'
    rw [← ht1, ha', hb']
    push_cast
    ring

/-- **C174 is violated for a given width of the bars.**  Three data sets drawn with bars of width one half: the
bars of one group are drawn over those of the next, and nothing is refused. -/
theorem C174_width_violated : ∃ c, groupedBars ["A", "B"] [("p", [1, 2]), ("q", [3, 4]), ("r", [5, 6])]
    (some (1 / 2)) false = .ok c ∧ ¬ BarsApart c := by
  obtain ⟨c, h⟩ := (C174_drawn ["A", "B"] [("p", [1, 2]), ("q", [3, 4]), ("r", [5, 6])] (some (1 / 2)) false).mpr
    ⟨by simp, by simp⟩
  have hwd : c.width = 1 / 2 := by rw [(groupedBars_ok h).2]; rfl
  refine ⟨c, h, ?_⟩
  rw [C174_apart_iff h (by rw [hwd]; norm_num) (by simp), hwd]
  norm_num

/-- **C174 is violated for the labels of the groups.**  With three data sets and the default width, the label of
a group is not at the middle of its bars. -/
theorem C174_label_violated : ∃ c, groupedBars ["A", "B"] [("p", [1, 2]), ("q", [3, 4]), ("r", [5, 6])]
    none false = .ok c ∧ ¬ LabelCentred c 0 := by
  obtain ⟨c, h⟩ := (C174_drawn ["A", "B"] [("p", [1, 2]), ("q", [3, 4]), ("r", [5, 6])] none false).mpr
    ⟨by simp, by simp⟩
  have hwd : 0 < c.width := by
    rw [(groupedBars_ok h).2]
    change (0 : ℝ) < 1 / (2 + _)
    positivity
  refine ⟨c, h, ?_⟩
  rw [C174_centred_iff h hwd (by simp) (by simp)]
  simp

/-- The hypotheses are met: two groups of two data sets with average lines are drawn, apart and centred. -/
example : ∃ c, groupedBars ["A", "B"] [("p", [1, 2]), ("q", [3, 4])] none true = .ok c ∧ BarsApart c ∧
    LabelCentred c 1 := by
  obtain ⟨c, h⟩ := (C174_drawn ["A", "B"] [("p", [1, 2]), ("q", [3, 4])] none true).mpr ⟨by simp, by simp⟩
  have hwd : 0 < c.width := by
    rw [(groupedBars_ok h).2]
    change (0 : ℝ) < 1 / (2 + _)
    positivity
  exact ⟨c, h, C174_default_apart h, (C174_centred_iff h hwd (by simp) (by simp)).mpr rfl⟩

end Hooke
