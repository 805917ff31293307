import Verif.Model.PredictionComparison
import Verif.Spec.PredictionComparison
import Verif.Props.LmuData
import Verif.Props.SeriesPlot
import Verif.Props.UncertaintyPaths

/-! # C176: comparisons of the stress predictions of models -/

noncomputable section

open Classical

namespace Hooke

open Spec

theorem put_same {β : Type} {pre rest : KDict String β} {k : String} {v v' : β} (h : k ∉ pre.map Prod.fst) :
    KDict.put (pre ++ (k, v) :: rest) k v' = pre ++ (k, v') :: rest := by
  induction pre with
  | nil => simp [KDict.put]
  | cons a pre ih =>
    simp only [List.map_cons, List.mem_cons, not_or] at h
    obtain ⟨a1, a2⟩ := a
    change (if a1 = k then _ else _) = _
    rw [if_neg (fun e => h.1 e.symm)]
    rw [show pre.append ((k, v) :: rest) = pre ++ (k, v) :: rest from rfl, ih h.2]
    rfl

theorem foldl_put_same {β : Type} (l d pre : KDict String β) (hk : d.map Prod.fst = l.map Prod.fst)
    (hn : ((pre ++ l).map Prod.fst).Nodup) :
    l.foldl (fun (d : KDict String β) kv => d.put kv.1 kv.2) (pre ++ d) = pre ++ l := by
  induction l generalizing d pre with
  | nil =>
    have : d = [] := by simpa using hk
    subst this; rfl
  | cons x l ih =>
    cases d with
    | nil => simp at hk
    | cons y d =>
      simp only [List.map_cons, List.cons.injEq] at hk
      obtain ⟨y1, y2⟩ := y
      obtain ⟨x1, x2⟩ := x
      obtain ⟨h1, h2⟩ := hk
      simp only at h1
      subst h1
      have hx : y1 ∉ pre.map Prod.fst := by
        rw [List.map_append, List.nodup_append] at hn
        intro hc
        exact hn.2.2 _ hc _ (by simp) rfl
      rw [List.foldl_cons]
      simp only
      rw [put_same hx]
      have := ih d (pre ++ [(y1, x2)]) h2 (by simpa using hn)
      simpa using this

/-- All the paths that are compared, with their labels. -/
def comparedPaths (truth : Option (List (List ℝ))) (models : List (String × List (List ℝ))) :
    List (String × List (List ℝ)) := (truth.toList.map fun r => ("Ground-truth", r)) ++ models

theorem labels_same {α β : Type} {R : α → β → Prop} {l : List (String × α)} {r : List (String × β)}
    (h : List.Forall₂ (fun (m : String × α) (c : String × β) => c.1 = m.1 ∧ R m.2 c.2) l r) :
    r.map Prod.fst = l.map Prod.fst := by
  induction h with
  | nil => rfl
  | cons h1 _ ih => simp [h1.1, ih]

theorem compSeries_shows {times : List ℝ} {path : List (List ℝ)} {n i : ℕ} (h : StressPath times n path)
    (hi : i < n) : ∃ s, compSeries times path i = .ok s ∧ ShowsComponent times path i s := by
  obtain ⟨col, hc, hf⟩ := mapM_exists171 (R := fun (row : List ℝ) (y : ℝ) => row[i]? = some y)
    (f := fun row => orRaise row[i]? .indexError) (l := path) (by
      intro row hr
      have hlt : i < row.length := by rw [h.2 row hr]; exact hi
      exact ⟨row[i], by rw [List.getElem?_eq_getElem hlt]; rfl, List.getElem?_eq_getElem hlt⟩)
  have hl : col.length = times.length := by rw [← hf.length_eq]; exact h.1
  refine ⟨times.zip col, ?_, List.map_fst_zip hl.ge, ?_⟩
  · unfold compSeries
    rw [hc]
    change (raiseIf _ _ >>= fun _ => _) = _
    rw [raiseIf, if_neg (by simp [hl])]
    rfl
  · have : (times.zip col).map (fun q => some q.2) = ((times.zip col).map Prod.snd).map some := by simp
    rw [this, List.map_snd_zip hl.le]
    clear this hc hl h
    induction hf with
    | nil => rfl
    | cons h1 _ ih => simp [h1, ih]

theorem compSets_shows {times : List ℝ} {truth : Option (List (List ℝ))}
    {models : List (String × List (List ℝ))} {n i : ℕ}
    (hp : ∀ m ∈ comparedPaths truth models, StressPath times n m.2) (hi : i < n)
    (hn : ((comparedPaths truth models).map Prod.fst).Nodup) {d : KDict String (List (ℝ × ℝ))}
    (hd : d = [] ∨ d.map Prod.fst = (comparedPaths truth models).map Prod.fst) :
    ∃ d', compSets d times truth models i = .ok d' ∧
      List.Forall₂ (fun (m : String × List (List ℝ)) (c : String × List (ℝ × ℝ)) =>
        c.1 = m.1 ∧ ShowsComponent times m.2 i c.2) (comparedPaths truth models) d' := by
  obtain ⟨es, he, hf⟩ := mapM_exists171
    (R := fun (m : String × List (List ℝ)) (c : String × List (ℝ × ℝ)) =>
        c.1 = m.1 ∧ ShowsComponent times m.2 i c.2)
    (f := fun m => do
      let s ← compSeries times m.2 i
      return (m.1, s)) (l := comparedPaths truth models) (by
      intro m hm
      obtain ⟨s, hs, hs2⟩ := compSeries_shows (hp m hm) hi
      refine ⟨(m.1, s), ?_, rfl, hs2⟩
      change (compSeries times m.2 i >>= fun _ => _) = _
      rw [hs]; rfl)
  have hk : es.map Prod.fst = (comparedPaths truth models).map Prod.fst := by
    exact labels_same (R := fun a b => ShowsComponent times a i b) hf
  refine ⟨es, ?_, hf⟩
  unfold compSets
  unfold comparedPaths at he
  rw [he]
  change Except.ok _ = _
  congr 1
  rcases hd with rfl | hd
  · exact foldl_put_of_nodup (by rw [hk]; exact hn)
  · have := foldl_put_same es d [] (by rw [hd, hk]) (by simpa [hk] using hn)
    simpa using this

theorem stressFiguresFrom_shows {name : String} {times : List ℝ} {truth : Option (List (List ℝ))}
    {models : List (String × List (List ℝ))} {n : ℕ}
    (hp : ∀ m ∈ comparedPaths truth models, StressPath times n m.2)
    (hn : ((comparedPaths truth models).map Prod.fst).Nodup) (hne : comparedPaths truth models ≠ [])
    (comps : List String) (i : ℕ) (hi : i + comps.length ≤ n) (d : KDict String (List (ℝ × ℝ)))
    (hd : d = [] ∨ d.map Prod.fst = (comparedPaths truth models).map Prod.fst) :
    ∃ figs, stressFiguresFrom name times truth models d i comps = .ok figs ∧ figs.length = comps.length ∧
      ∀ (j : ℕ) (c : String), comps[j]? = some c → ∃ f, figs[j]? = some f ∧ f.1 = name ++ "_stress_" ++ c ∧
        List.Forall₂ (fun (m : String × List (List ℝ)) (c : String × List (ℝ × ℝ)) =>
          c.1 = m.1 ∧ ShowsComponent times m.2 (i + j) c.2) (comparedPaths truth models) f.2 := by
  induction comps generalizing i d with
  | nil => exact ⟨[], rfl, rfl, fun j c h => by simp at h⟩
  | cons c cs ih =>
    rw [List.length_cons] at hi
    obtain ⟨d', h1, hf⟩ := compSets_shows hp (show i < n by omega) hn hd
    have hk : d'.map Prod.fst = (comparedPaths truth models).map Prod.fst := by
      exact labels_same (R := fun a b => ShowsComponent times a i b) hf
    have hdne : d' ≠ [] := by
      rintro rfl
      exact hne (List.length_eq_zero_iff.mp hf.length_eq)
    obtain ⟨rest, h2, hl, h3⟩ := ih (i + 1) (by omega) d' (Or.inr hk)
    refine ⟨(name ++ "_stress_" ++ c, d') :: rest, ?_, by simp [hl], ?_⟩
    · change (compSets d times truth models i >>= fun _ => _) = _
      rw [h1]
      change (seriesCurves false d' >>= fun _ => _) = _
      rw [(C169_given hdne [] "" "").1]
      change (stressFiguresFrom name times truth models d' (i + 1) cs >>= fun _ => _) = _
      rw [h2]
      rfl
    · intro j c' hj
      cases j with
      | zero =>
        simp at hj
        subst hj
        exact ⟨_, rfl, rfl, hf⟩
      | succ j =>
        obtain ⟨f, hf1, hf2, hf3⟩ := h3 j c' (by simpa using hj)
        refine ⟨f, by simpa using hf1, hf2, ?_⟩
        rw [show i + (j + 1) = i + 1 + j by omega]
        exact hf3

/-- **C176.**  The predictions of models with distinct labels, none of them the one of the ground truth, are
compared in a figure for each stress component: the figure of a component has the ground truth if asked for and
then every model in order, each with that component of its own stresses at the times, whatever was in the figures
before. -/
theorem C176_shown (name : String) {times : List ℝ} {truth : Option (List (List ℝ))}
    {models : List (String × List (List ℝ))} {comps : List String}
    (hp : ∀ p ∈ truth.toList ++ models.map Prod.snd, StressPath times comps.length p)
    (hn : (models.map Prod.fst).Nodup) (hg : "Ground-truth" ∉ models.map Prod.fst)
    (hne : truth ≠ none ∨ models ≠ []) :
    ∃ figs, stressFigures name times truth models comps = .ok figs ∧ figs.length = comps.length ∧
      ∀ (j : ℕ) (c : String), comps[j]? = some c → ∃ f, figs[j]? = some f ∧ f.1 = name ++ "_stress_" ++ c ∧
        List.Forall₂ (fun (m : String × List (List ℝ)) (c : String × List (ℝ × ℝ)) =>
          c.1 = m.1 ∧ ShowsComponent times m.2 j c.2)
          ((truth.toList.map fun r => ("Ground-truth", r)) ++ models) f.2 := by
  have h := stressFiguresFrom_shows (name := name) (times := times) (truth := truth) (models := models)
    (n := comps.length) (by
      intro m hm
      apply hp
      unfold comparedPaths at hm
      rcases List.mem_append.mp hm with h | h
      · obtain ⟨r, hr, rfl⟩ := List.mem_map.mp h
        exact List.mem_append_left _ hr
      · exact List.mem_append_right _ (List.mem_map_of_mem h)) (by
      unfold comparedPaths
      cases truth with
      | none => simpa using hn
      | some r =>
        simp only [Option.toList_some, List.map_cons, List.map_nil, List.cons_append, List.nil_append,
          List.nodup_cons]
        exact ⟨hg, hn⟩) (by
      unfold comparedPaths
      cases truth with
      | none =>
        rcases hne with h | h
        · exact absurd rfl h
        · simpa using h
      | some r => simp) comps 0 (by omega) [] (Or.inl rfl)
  simpa [comparedPaths, stressFigures] using h

/-- **C176 is violated for a model with the label of the ground truth.**  Its prediction replaces the ground
truth, and is drawn as the reference under that label. -/
theorem C176_label_violated : stressFigures "p" [0, 1] (some [[1], [2]]) [("Ground-truth", [[7], [8]])] ["11"] =
    .ok [("p_stress_11", [("Ground-truth", [(0, 7), (1, 8)])])] := by
  have h1 : compSets [] [0, 1] (some [[1], [2]]) [("Ground-truth", [[7], [8]])] 0 =
      .ok [("Ground-truth", [(0, 7), (1, 8)])] := by
    have s1 : compSeries [0, 1] [[1], [2]] 0 = .ok [(0, 1), (1, 2)] := by
      unfold compSeries
      have hm : ([[1], [2]] : List (List ℝ)).mapM (fun row => orRaise row[0]? .indexError) = .ok [1, 2] := by
        simp [orRaise, bind, Except.bind, pure, Except.pure]
      rw [hm]
      simp [raiseIf, bind, Except.bind, pure, Except.pure]
    have s2 : compSeries [0, 1] [[7], [8]] 0 = .ok [(0, 7), (1, 8)] := by
      unfold compSeries
      have hm : ([[7], [8]] : List (List ℝ)).mapM (fun row => orRaise row[0]? .indexError) = .ok [7, 8] := by
        simp [orRaise, bind, Except.bind, pure, Except.pure]
      rw [hm]
      simp [raiseIf, bind, Except.bind, pure, Except.pure]
    unfold compSets
    simp only [Option.toList_some, List.map_cons, List.map_nil, List.cons_append, List.nil_append,
      List.mapM_cons, List.mapM_nil, s1, s2]
    rfl
  unfold stressFigures
  change (compSets [] [0, 1] (some [[1], [2]]) [("Ground-truth", [[7], [8]])] 0 >>= fun _ => _) = _
  rw [h1]
  change (seriesCurves false [("Ground-truth", [((0 : ℝ), (7 : ℝ)), (1, 8)])] >>= fun _ => _) = _
  rw [(C169_given (by simp) [] "" "").1]
  rfl

/-- **C176 is violated for a comparison without the ground truth.**  The first of the models is then drawn as the
reference in the figure of every component. -/
theorem C176_reference_violated (name : String) {times : List ℝ} {m : String × List (List ℝ)}
    {models : List (String × List (List ℝ))} {comps : List String}
    (hp : ∀ p ∈ (m :: models).map Prod.snd, StressPath times comps.length p)
    (hn : ((m :: models).map Prod.fst).Nodup) (hg : "Ground-truth" ∉ (m :: models).map Prod.fst) :
    ∃ figs, stressFigures name times none (m :: models) comps = .ok figs ∧ figs.length = comps.length ∧
      ∀ f ∈ figs, referenceLabel f.2 = some m.1 := by
  obtain ⟨figs, h1, h2, h3⟩ := C176_shown name (times := times) (truth := none) (models := m :: models)
    (comps := comps) (by simpa using hp) hn hg (Or.inr (by simp))
  refine ⟨figs, h1, h2, ?_⟩
  intro f hf
  obtain ⟨j, hj, rfl⟩ := List.mem_iff_getElem.mp hf
  obtain ⟨f', hf1, _, hf3⟩ := h3 j _ (List.getElem?_eq_getElem (h2 ▸ hj))
  rw [List.getElem?_eq_getElem hj] at hf1
  cases hf1
  simp only [Option.toList_none, List.map_nil, List.nil_append] at hf3
  unfold referenceLabel
  rw [labels_same (R := fun a b => ShowsComponent times a j b) hf3]
  rfl

/-- The hypotheses are met: the ground truth and two models with two components. -/
example : ∃ figs, stressFigures "p" [0, 1] (some [[1, 2], [3, 4]])
    [("a", [[1, 2], [3, 5]]), ("b", [[0, 2], [3, 5]])] ["11", "22"] = .ok figs ∧ figs.length = 2 := by
  obtain ⟨figs, h1, h2, _⟩ := C176_shown "p" (times := [0, 1]) (truth := some [[1, 2], [3, 4]])
    (models := [("a", [[1, 2], [3, 5]]), ("b", [[0, 2], [3, 5]])]) (comps := ["11", "22"])
    (by simp [StressPath]) (by decide) (by decide) (Or.inl (by simp))
  exact ⟨figs, h1, h2⟩

end Hooke
