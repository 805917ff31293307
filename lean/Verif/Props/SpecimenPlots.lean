import Verif.Model.SpecimenPlots
import Verif.Lemmas.Pruning
import Verif.Lemmas.StrainPath
import Verif.Lemmas.MapM

/-! # C173: plots of specimen histories -/

noncomputable section

open Classical

namespace Hooke

theorem overSteps_get {h : List ℝ} {k : ℕ} {y : ℝ} (hk : h[k]? = some y) :
    (overSteps h)[k]? = some ((k : ℝ), y) := by
  have hl : k < h.length := (List.getElem?_eq_some_iff.mp hk).1
  unfold overSteps
  rw [List.getElem?_zip_eq_some]
  refine ⟨?_, hk⟩
  rw [List.getElem?_map, List.getElem?_range hl]
  rfl

theorem nodeFigure_of {disps : List (List (List ℝ))} {nDim : ℕ} {label : ℤ} {node : List (List ℝ)}
    (h1 : pyIndex disps (label - 1) = .ok node) (h2 : node.length = nDim) :
    nodeFigure disps nDim label = .ok (label, (List.range nDim).map fun i =>
      ("Dim " ++ toString (i + 1), overSteps (node[i]?.getD []))) := by
  unfold nodeFigure
  rw [h1]
  change ((List.range nDim).mapM (fun i => do
    let h ← orRaise node[i]? .indexError
    return ("Dim " ++ toString (i + 1), overSteps h)) >>= fun curves => _) = _
  have e : (List.range nDim).mapM (fun i => do
      let h ← orRaise node[i]? .indexError
      return ("Dim " ++ toString (i + 1), overSteps h)) = Except.ok (ε := PyErr)
      ((List.range nDim).map fun i => ("Dim " ++ toString (i + 1), overSteps (node[i]?.getD []))) := by
    refine mapM_of_forall fun i hi => ?_
    rw [List.getElem?_eq_getElem (by rw [h2]; exact List.mem_range.mp hi)]
    rfl
  rw [e]
  rfl

/-- **C173 (nodes).** The figure of a node, which is given by its label, shows the displacements of that node
in every dimension over the time steps. -/
theorem C173_nodes {disps : List (List (List ℝ))} {nDim : ℕ} (hd : ∀ node ∈ disps, node.length = nDim)
    {labels : List ℤ} (hl : ∀ l ∈ labels, 1 ≤ l ∧ l ≤ disps.length) :
    ∃ figs, nodeFigures disps nDim (.many labels) = .ok figs ∧
      List.Forall₂ (fun (l : ℤ) (f : ℤ × List (String × List (ℝ × ℝ))) => f.1 = l ∧
        ∃ node, disps[(l - 1).toNat]? = some node ∧
          f.2 = (List.range nDim).map (fun i => ("Dim " ++ toString (i + 1), overSteps (node[i]?.getD []))))
        labels figs := by
  unfold nodeFigures
  change ∃ figs, (labels.mapM fun l => nodeFigure disps nDim l) = .ok figs ∧ _
  have h : ∀ l ∈ labels, ∃ node, disps[(l - 1).toNat]? = some node ∧ nodeFigure disps nDim l = .ok
      (l, (List.range nDim).map fun i => ("Dim " ++ toString (i + 1), overSteps (node[i]?.getD []))) := by
    intro l hm
    obtain ⟨h1, h2⟩ := hl l hm
    have hlt : (l - 1).toNat < disps.length := by omega
    refine ⟨disps[(l - 1).toNat], List.getElem?_eq_getElem hlt, nodeFigure_of ?_ (hd _ (List.getElem_mem hlt))⟩
    have e : l - 1 = ((l - 1).toNat : ℤ) := by omega
    unfold pyIndex
    rw [if_pos (by omega), List.getElem?_eq_getElem hlt]
    rfl
  clear hl
  induction labels with
  | nil => exact ⟨[], rfl, .nil⟩
  | cons l labels ih =>
    obtain ⟨figs, h1, h2⟩ := ih fun l hl => h l (List.mem_cons_of_mem _ hl)
    obtain ⟨node, h3, h4⟩ := h l (by simp)
    refine ⟨(l, (List.range nDim).map fun i => ("Dim " ++ toString (i + 1), overSteps (node[i]?.getD []))) ::
      figs, ?_, .cons ⟨rfl, node, h3, rfl⟩ h2⟩
    rw [List.mapM_cons, h4, h1]
    rfl

/-- **C173 (all nodes).** All the nodes are the ones with the labels from one to their number, and a single
label is a list with it. -/
theorem C173_labels (disps : List (List (List ℝ))) (nDim : ℕ) :
    nodeFigures disps nDim .all = nodeFigures disps nDim
      (.many ((List.range disps.length).map fun k => (k : ℤ) + 1)) ∧
    ∀ i, nodeFigures disps nDim (.one i) = nodeFigures disps nDim (.many [i]) := ⟨rfl, fun _ => rfl⟩

/-- **C173 is violated for labels that are not positive.** The label zero is not refused: the last node is
shown, and the figure is named after a node that does not exist; a negative label counts back from there. -/
theorem C173_zero_violated {disps : List (List (List ℝ))} {nDim : ℕ}
    (hd : ∀ node ∈ disps, node.length = nDim) {k : ℕ} (hk : k < disps.length) :
    ∃ node, disps[disps.length - 1 - k]? = some node ∧
      nodeFigures disps nDim (.one (-(k : ℤ))) = .ok [(-(k : ℤ), (List.range nDim).map fun i =>
        ("Dim " ++ toString (i + 1), overSteps (node[i]?.getD [])))] := by
  have hlt : disps.length - 1 - k < disps.length := by omega
  refine ⟨disps[disps.length - 1 - k], List.getElem?_eq_getElem hlt, ?_⟩
  unfold nodeFigures
  change ([-(k : ℤ)].mapM fun l => nodeFigure disps nDim l) = _
  have e : pyIndex disps (-(k : ℤ) - 1) = .ok disps[disps.length - 1 - k] := by
    unfold pyIndex
    rw [if_neg (by omega), if_pos (by omega)]
    have : ((disps.length : ℤ) + (-(k : ℤ) - 1)).toNat = disps.length - 1 - k := by omega
    rw [this, List.getElem?_eq_getElem hlt]
    rfl
  rw [List.mapM_cons, nodeFigure_of e (hd _ (List.getElem_mem hlt))]
  rfl

/-- **C173 (refusals).** A label above the number of nodes, and labels that are neither a number, nor a list,
nor all, are refused; the latter holds for the default argument. -/
theorem C173_refusals (disps : List (List (List ℝ))) (nDim : ℕ) :
    (∀ l : ℤ, (disps.length : ℤ) < l → nodeFigures disps nDim (.one l) = .error .indexError) ∧
    nodeFigures disps nDim .other = .error .valueError := by
  refine ⟨fun l hl => ?_, rfl⟩
  unfold nodeFigures
  change ([l].mapM fun l => nodeFigure disps nDim l) = _
  have e : pyIndex disps (l - 1) = .error .indexError := by
    unfold pyIndex
    rw [if_pos (by omega), List.getElem?_eq_none (by omega)]
    rfl
  rw [List.mapM_cons, nodeFigure, e]
  rfl

/-- **C173 (reaction forces).** Every set has a figure with its label, which shows its reaction forces over
the time steps, or over the displacements of a node that is given by its label and a dimension. -/
theorem C173_reactions (disps : List (List (List ℝ))) (sets : List (String × List ℝ)) :
    reactionFigures disps none sets = .ok (sets.map fun s => (s.1, overSteps s.2)) ∧
    ∀ (l : ℤ) (d : ℕ) node x, 1 ≤ l → disps[(l - 1).toNat]? = some node → node[d]? = some x →
      reactionFigures disps (some (l, d)) sets = .ok (sets.map fun s => (s.1, x.zip s.2)) := by
  constructor
  · unfold reactionFigures
    exact mapM_of_forall fun s _ => rfl
  · intro l d node x hl hn hx
    unfold reactionFigures
    refine mapM_of_forall fun s _ => ?_
    have e1 : pyIndex disps (l - 1) = .ok node := by
      unfold pyIndex
      rw [if_pos (by omega), hn]
      rfl
    have e2 : pyIndex node (d : ℤ) = .ok x := by
      unfold pyIndex
      rw [if_pos (by omega), Int.toNat_natCast, hx]
      rfl
    simp only [reactionAbscissae, e1]
    change (pyIndex node (d : ℤ) >>= fun x => _) = _
    rw [e2]
    rfl

/-- **C173 (comparison).** The figure of all the sets shows each of them over the time steps with its label;
another number of labels is refused. -/
theorem C173_comparison (hists : List (List ℝ)) :
    compareReactions none hists = .ok (hists.map fun h => (none, overSteps h)) ∧
    (∀ l : List String, l.length = hists.length →
      compareReactions (some l) hists = .ok ((l.map some).zip (hists.map overSteps))) ∧
    ∀ l : List String, l.length ≠ hists.length → compareReactions (some l) hists = .error .runtimeError := by
  refine ⟨rfl, fun l h => ?_, fun l h => ?_⟩
  · simp only [compareReactions, raiseIf]
    rw [if_neg (not_not.mpr h)]
    rfl
  · simp only [compareReactions, raiseIf]
    rw [if_pos h]
    rfl

/-- **C173 (time steps).** A history over the time steps has every value at its number. -/
theorem C173_steps (h : List ℝ) : (overSteps h).length = h.length ∧
    ∀ (k : ℕ) (y : ℝ), h[k]? = some y → (overSteps h)[k]? = some ((k : ℝ), y) :=
  ⟨by simp [overSteps], fun _ _ hk => overSteps_get hk⟩

/-- Two nodes in two dimensions with different histories. -/
example : (∀ node ∈ [[[(0 : ℝ), 1], [0, 2]], [[0, 3], [0, 4]]], node.length = 2) ∧
    ∀ l ∈ [(2 : ℤ), 1], 1 ≤ l ∧ l ≤ ([[[(0 : ℝ), 1], [0, 2]], [[0, 3], [0, 4]]] : List (List (List ℝ))).length := by
  constructor
  · simp
  · simp

end Hooke
