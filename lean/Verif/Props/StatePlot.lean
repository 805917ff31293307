import Verif.Spec.StatePlot
import Verif.Lemmas.StrainPathHist
import Verif.Props.UncertaintyPaths

/-! # C175: plots of state variable histories -/

noncomputable section

namespace Hooke

open Spec

theorem mem_le_last {t : List ℝ} (hs : t.Pairwise (· ≤ ·)) {x y : ℝ} (hx : x ∈ t) (hy : t.getLast? = some y) :
    x ≤ y := by
  obtain ⟨l, rfl⟩ : ∃ l, t = l ++ [y] := by
    obtain ⟨l, hl⟩ := List.getLast?_eq_some_iff.mp hy
    exact ⟨l, hl⟩
  rcases List.mem_append.mp hx with h | h
  · exact (List.pairwise_append.mp hs).2.2 x h y (by simp)
  · simp at h; exact h.le

theorem first_le_mem {t : List ℝ} (hs : t.Pairwise (· ≤ ·)) {x y : ℝ} (hx : x ∈ t) (hy : t.head? = some y) :
    y ≤ x := by
  cases t with
  | nil => cases hy
  | cons a t =>
    simp at hy
    subst hy
    rcases List.mem_cons.mp hx with rfl | h
    · exact le_rfl
    · exact (List.pairwise_cons.mp hs).1 x h

/-- **C175.**  Histories with at least one path, each with its times, one feature and a value at each time, are
plotted: the curve of each path shows its values at its own times, the histogram is of all values of all paths,
and when the times of the paths are in order all the points are within the limits of the plot. -/
theorem C175_shown {times : List (List ℝ)} {states : List StateArray} (h : StateHistories times states) :
    ∃ p, statePlot times states = .ok p ∧ p.curves.length = times.length ∧
      (∀ (k : ℕ) (t : List ℝ) (s : StateArray), times[k]? = some t → states[k]? = some s →
        ∃ c, p.curves[k]? = some c ∧ ShowsState t s c) ∧
      p.histogram = (states.map StateArray.vals).flatten ∧
      ((∀ t ∈ times, t.Pairwise (· ≤ ·)) → ∀ t ∈ times, ∀ x ∈ t, p.limits.1 ≤ x ∧ x ≤ p.limits.2) := by
  obtain ⟨hne, hf⟩ := h
  have hlen := hf.length_eq
  have hget : ∀ (k : ℕ) (t : List ℝ) (s : StateArray), times[k]? = some t → states[k]? = some s →
      t ≠ [] ∧ s.cols = 1 ∧ s.vals.length = t.length := by
    intro k t s ht hs
    obtain ⟨h1, rfl⟩ := List.getElem?_eq_some_iff.mp ht
    obtain ⟨h2, rfl⟩ := List.getElem?_eq_some_iff.mp hs
    exact (List.forall₂_iff_get.mp hf).2 k h1 h2
  have htne : ∀ t ∈ times, t ≠ [] := by
    intro t ht
    obtain ⟨k, hk, rfl⟩ := List.mem_iff_getElem.mp ht
    exact (hget k _ _ (List.getElem?_eq_getElem hk) (List.getElem?_eq_getElem (hlen ▸ hk))).1
  have hcol : ∀ s ∈ states, s.cols = 1 := by
    intro s hs
    obtain ⟨k, hk, rfl⟩ := List.mem_iff_getElem.mp hs
    exact (hget k _ _ (List.getElem?_eq_getElem (hlen ▸ hk)) (List.getElem?_eq_getElem hk)).2.1
  obtain ⟨fs, hfs, hfs2⟩ := mapM_exists171 (R := fun (t : List ℝ) (y : ℝ) => t.head? = some y)
    (f := fun t => orRaise t.head? .indexError) (l := times) (by
      intro t ht
      exact ⟨t.head (htne t ht), by rw [List.head?_eq_some_head (htne t ht)]; rfl,
        List.head?_eq_some_head (htne t ht)⟩)
  obtain ⟨ls, hls, hls2⟩ := mapM_exists171 (R := fun (t : List ℝ) (y : ℝ) => t.getLast? = some y)
    (f := fun t => orRaise t.getLast? .indexError) (l := times) (by
      intro t ht
      exact ⟨t.getLast (htne t ht), by rw [List.getLast?_eq_some_getLast (htne t ht)]; rfl,
        List.getLast?_eq_some_getLast (htne t ht)⟩)
  have hfne : fs ≠ [] := by
    rintro rfl
    exact hne (List.length_eq_zero_iff.mp hfs2.length_eq)
  have hlne : ls ≠ [] := by
    rintro rfl
    exact hne (List.length_eq_zero_iff.mp hls2.length_eq)
  obtain ⟨mn, hmn, _, hmn2⟩ := npMin_spec hfne
  obtain ⟨mx, hmx, _, hmx2⟩ := npMax_spec hlne
  have hsne : states ≠ [] := by
    rintro rfl
    exact hne (List.length_eq_zero_iff.mp hlen)
  have hcur : (times.zip states).mapM (fun p => stateCurve p.1 p.2)
      = .ok ((times.zip states).map fun p => p.1.zip p.2.vals) := by
    apply mapM_of_forall
    intro p hp
    obtain ⟨k, hk⟩ := List.mem_iff_getElem?.mp hp
    rw [List.getElem?_zip_eq_some] at hk
    unfold stateCurve
    rw [if_pos (hget k _ _ hk.1 hk.2).2.2]
  have e1 : ¬ (times.length != states.length) = true := by simp [hlen]
  have e2 : ¬ ((states.head hsne).cols != 1) = true := by simp [hcol _ (List.head_mem hsne)]
  have e3 : ¬ (!(states.all fun s => s.cols == 1)) = true := by simpa using hcol
  refine ⟨⟨(times.zip states).map fun p => p.1.zip p.2.vals, (mn, mx), states.flatMap fun s => s.vals⟩, ?_, ?_, ?_,
    ?_, ?_⟩
  · unfold statePlot
    rw [raiseIf, if_neg e1, hfs, hls, List.head?_eq_some_head hsne, hcur]
    change (npMin fs >>= fun _ => _) = _
    rw [hmn]
    change (npMax ls >>= fun _ => _) = _
    rw [hmx]
    change (raiseIf _ _ >>= fun _ => _) = _
    rw [raiseIf, if_neg e2]
    change (raiseIf _ _ >>= fun _ => _) = _
    rw [raiseIf, if_neg e3]
    rfl
  · simp [hlen]
  · intro k t s ht hs
    have hl := (hget k t s ht hs).2.2
    refine ⟨t.zip s.vals, ?_, ?_, ?_⟩
    · have hz : (times.zip states)[k]? = some (t, s) := List.getElem?_zip_eq_some.mpr ⟨ht, hs⟩
      rw [List.getElem?_map, hz]
      rfl
    · exact List.map_fst_zip hl.ge
    · exact List.map_snd_zip hl.le
  · simp [List.flatMap]
  · intro hs t ht x hx
    obtain ⟨k, hk, rfl⟩ := List.mem_iff_getElem.mp ht
    have hkf : k < fs.length := by rw [← hfs2.length_eq]; exact hk
    have hkl : k < ls.length := by rw [← hls2.length_eq]; exact hk
    have h1 := (List.forall₂_iff_get.mp hfs2).2 k hk hkf
    have h2 := (List.forall₂_iff_get.mp hls2).2 k hk hkl
    exact ⟨(hmn2 _ (List.get_mem fs ⟨k, hkf⟩)).trans (first_le_mem (hs _ ht) hx h1),
      (mem_le_last (hs _ ht) hx h2).trans (hmx2 _ (List.get_mem ls ⟨k, hkl⟩))⟩

/-- **C175.**  Whatever is plotted has as many paths as times, every path has one feature, and a value at each of
its times or a single value. -/
theorem C175_refused {times : List (List ℝ)} {states : List StateArray} {p : StatePlot}
    (h : statePlot times states = .ok p) :
    times ≠ [] ∧ times.length = states.length ∧ (∀ t ∈ times, t ≠ []) ∧ (∀ s ∈ states, s.cols = 1) ∧
      ∀ (k : ℕ) (t : List ℝ) (s : StateArray), times[k]? = some t → states[k]? = some s →
        s.vals.length = t.length ∨ s.vals.length = 1 := by
  obtain ⟨_, h1, h⟩ := bind_ok h
  obtain ⟨fs, hfs, h⟩ := bind_ok h
  obtain ⟨mn, hmn, h⟩ := bind_ok h
  obtain ⟨ls, _, h⟩ := bind_ok h
  obtain ⟨mx, _, h⟩ := bind_ok h
  obtain ⟨s0, _, h⟩ := bind_ok h
  obtain ⟨_, _, h⟩ := bind_ok h
  obtain ⟨cs, hcs, h⟩ := bind_ok h
  obtain ⟨_, h3, _⟩ := bind_ok h
  refine ⟨?_, ?_, ?_, ?_, ?_⟩
  · rintro rfl
    cases hfs
    cases hmn
  · by_contra hc
    rw [raiseIf, if_pos (by simpa using hc)] at h1
    cases h1
  · intro t ht ht0
    obtain ⟨k, hk, rfl⟩ := List.mem_iff_getElem.mp ht
    have hf2 := mapM_forall₂ hfs
    have h4 := (List.forall₂_iff_get.mp hf2).2 k hk (hf2.length_eq ▸ hk)
    simp only [List.get_eq_getElem] at h4
    rw [ht0] at h4
    cases h4
  · by_contra hc
    rw [raiseIf, if_pos (by simpa using hc)] at h3
    cases h3
  · intro k t s ht hs
    have hz : (times.zip states)[k]? = some (t, s) := List.getElem?_zip_eq_some.mpr ⟨ht, hs⟩
    obtain ⟨hk, hk2⟩ := List.getElem?_eq_some_iff.mp hz
    have hf2 := mapM_forall₂ hcs
    have h4 := (List.forall₂_iff_get.mp hf2).2 k hk (hf2.length_eq ▸ hk)
    simp only [List.get_eq_getElem, hk2] at h4
    unfold stateCurve at h4
    split at h4
    · left; assumption
    · right
      split at h4
      · rename_i he
        rw [he]; rfl
      · cases h4

/-- **C175 is violated for a path with a single value.**  A state path with one value and three times is not
refused: the value is drawn at all three times. -/
theorem C175_single_violated : ∃ p, statePlot [[0, 1, 2]] [⟨1, [5]⟩] = .ok p ∧
    p.curves = [[(0, 5), (1, 5), (2, 5)]] ∧ ¬ StateHistories [[0, 1, 2]] [⟨1, [5]⟩] := by
  refine ⟨⟨[[(0, 5), (1, 5), (2, 5)]], (0, 2), [5]⟩, rfl, rfl, ?_⟩
  rintro ⟨_, h⟩
  cases h with
  | cons h _ => exact absurd h.2.2 (by simp)

/-- The hypotheses are met: two paths of different lengths. -/
example : StateHistories [[0, 1, 2], [0, 3]] [⟨1, [5, 6, 7]⟩, ⟨1, [8, 9]⟩] :=
  ⟨by simp, .cons ⟨by simp, rfl, rfl⟩ (.cons ⟨by simp, rfl, rfl⟩ .nil)⟩

end Hooke
