import Verif.Spec.ReactionHistory
import Verif.Props.DirichletSets
import Verif.Props.LearnableParameters

/-!
# C120: histories of the reactions of Dirichlet sets
-/

namespace Hooke

open Spec

variable {N n T : ℕ}

/-- **C120.** The reaction history has a row for each label of the first time, in increasing order; its
entry for a time is the total of the internal minus external forces of that time over the degrees of
freedom that have this label at the first time. -/
theorem C120_history (h : ForceHist N n (T + 1)) :
    setsReactionHist h = .ok (((labels (h.bc 0)).sort (· ≤ ·)).map fun l =>
      (List.finRange (T + 1)).map fun t =>
        labelSum (h.bc 0) l fun i j => h.internal t i j - h.external t i j) := by
  unfold setsReactionHist
  have hb : (List.ofFn h.bc).head? = some (h.bc 0) := by simp [List.ofFn_succ]
  rw [hb]
  simp only [orRaise, bind, Except.bind]
  congr 1
  apply List.ext_getElem
  · simp [uniqueLabels_eq]
  · intro k h1 h2
    simp only [List.length_map, List.length_range] at h1
    simp only [List.getElem_map, List.getElem_range]
    refine List.map_congr_left fun t _ => ?_
    rw [C60_reaction, List.getD_eq_getElem?_getD, List.getElem?_map,
      List.getElem?_eq_getElem (by simpa [uniqueLabels_eq] using h1)]
    rfl

/-- **C120.** At each time the reactions of the rows, with that of the free degrees of freedom, add up
to the total of the internal minus external forces. -/
theorem C120_total (h : ForceHist N n (T + 1)) (t : Fin (T + 1)) :
    ∃ hist, setsReactionHist h = .ok hist ∧
      (hist.map fun row => row.getD t.val 0).sum = ∑ i, ∑ j, (h.internal t i j - h.external t i j) := by
  refine ⟨_, C120_history h, ?_⟩
  rw [List.map_map]
  have he : ∀ l, ((fun row : List ℝ => row.getD t.val 0) ∘ fun l => (List.finRange (T + 1)).map fun t =>
      labelSum (h.bc 0) l fun i j => h.internal t i j - h.external t i j) l
      = labelSum (h.bc 0) l fun i j => h.internal t i j - h.external t i j := by
    intro l
    have ht : (List.finRange (T + 1))[t.val]? = some t := by
      rw [List.getElem?_eq_getElem (by simpa using Nat.lt_succ_iff.1 t.isLt), List.getElem_finRange]
      rfl
    simp [List.getD_eq_getElem?_getD, ht]
  rw [List.map_congr_left fun l _ => he l]
  have hs : (((labels (h.bc 0)).sort (· ≤ ·)).map fun l =>
      labelSum (h.bc 0) l fun i j => h.internal t i j - h.external t i j).sum
      = ∑ l ∈ labels (h.bc 0), labelSum (h.bc 0) l fun i j => h.internal t i j - h.external t i j := by
    rw [← List.sum_toFinset _ (Finset.sort_nodup ..), Finset.sort_toFinset]
  rw [hs]
  simp only [labelSum, labels]
  rw [Finset.sum_fiberwise_of_maps_to (s := Finset.univ)
    (g := fun d : Fin N × Fin n => h.bc 0 d.1 d.2)
    (f := fun d => h.internal t d.1 d.2 - h.external t d.1 d.2)
    (fun d _ => Finset.mem_image_of_mem _ (Finset.mem_univ d)), Fintype.sum_prod_type]

/-- **C120.** The table of the reactions has a row for each time and a column for each label in
increasing order; the columns are named by their position. -/
theorem C120_table (h : ForceHist N n (T + 1)) :
    ∃ hist, setsReactionHist h = .ok hist ∧ reactionTable (T + 1) hist
      = ((List.range (labels (h.bc 0)).card).map fun i => "SET " ++ toString i,
         (List.finRange (T + 1)).map fun t => ((labels (h.bc 0)).sort (· ≤ ·)).map fun l =>
           labelSum (h.bc 0) l fun i j => h.internal t i j - h.external t i j) := by
  refine ⟨_, C120_history h, ?_⟩
  unfold reactionTable
  rw [Prod.mk.injEq]
  constructor
  · simp
  · apply List.ext_getElem
    · simp
    · intro t h1 h2
      simp only [List.length_map, List.length_range] at h1
      simp only [List.getElem_map, List.getElem_range, List.map_map, List.getElem_finRange]
      refine List.map_congr_left fun l _ => ?_
      simp [List.getD_eq_getElem?_getD, h1]

theorem sort_of_pairwise {α : Type} [LinearOrder α] {l : List α} (hp : l.Pairwise (· < ·)) {s : Finset α}
    (hs : ∀ x, x ∈ l ↔ x ∈ s) : s.sort (· ≤ ·) = l := by
  refine (List.Perm.eq_of_pairwise' (r := (· ≤ ·)) (hp.imp fun h => h.le) (Finset.pairwise_sort _ _) ?_).symm
  refine (List.perm_ext_iff_of_nodup (hp.imp fun h => h.ne) (Finset.sort_nodup ..)).2 fun k => ?_
  rw [Finset.mem_sort, hs]

theorem labelNodes_sum (bc : NodeMat N n ℤ) (j : Fin n) (l : ℤ) (f : NodeMat N n ℝ) :
    ((labelNodes bc j l).map fun i => f i j).sum = dimSum bc j l f := by
  unfold labelNodes dimSum
  have hnd : ((List.finRange N).filter fun i => bc i j = l).Nodup := (List.nodup_finRange N).filter _
  rw [← List.sum_toFinset _ hnd]
  congr 1
  ext i
  simp

theorem labelNodes_nodes (bc : NodeMat N n ℤ) (j : Fin n) (l : ℤ) :
    (labelNodes bc j l).map (fun i => i.val + 1) = (dimNodes bc j l).sort (· ≤ ·) := by
  have hp : ((labelNodes bc j l).map fun i => i.val + 1).Pairwise (· < ·) := by
    rw [List.pairwise_map]
    have : (List.finRange N).Pairwise (· < ·) := List.pairwise_lt_finRange N
    exact (this.filter _).imp fun h => Nat.succ_lt_succ h
  exact (sort_of_pairwise hp fun k => by simp [labelNodes, dimNodes]).symm

/-- **C120.** The script builds a row for each dimension and each label of that dimension at the first
time, in increasing order: the total of the reactions in that dimension over the nodes with the label,
and the increasing list of these nodes. -/
theorem C120_script (bc : Fin (T + 1) → NodeMat N n ℤ) (R : Fin (T + 1) → NodeMat N n ℝ) :
    scriptSets bc R = .ok ((List.finRange n).flatMap fun j => ((dimLabels (bc 0) j).sort (· ≤ ·)).map fun l =>
      ⟨"dim_" ++ toString (j.val + 1) ++ "_label_" ++ toString l,
       (List.finRange (T + 1)).map fun t => dimSum (bc 0) j l (R t),
       (dimNodes (bc 0) j l).sort (· ≤ ·)⟩) := by
  unfold scriptSets
  have hb : (List.ofFn bc).head? = some (bc 0) := by simp [List.ofFn_succ]
  rw [hb]
  simp only [orRaise, bind, Except.bind, labelNodes_sum, labelNodes_nodes]
  rfl

/-- **C120.** Where the boundary conditions pass the check of the finder and the internal minus external
forces are the reactions at all constrained degrees of freedom, the row of the finder for a positive
label is the row of the script for that label and its only dimension. -/
theorem C120_agree (h : ForceHist N n (T + 1)) (hc : checkDirichletBc .dirichletSets h.bc = .ok ())
    (he : ∀ t i j, 0 < h.bc 0 i j → h.internal t i j - h.external t i j = h.reaction t i j)
    (i : Fin N) (j : Fin n) (hl : 0 < h.bc 0 i j) :
    ∃ hist sets, ∃ k : ℕ, ∃ row set, setsReactionHist h = .ok hist ∧ scriptSets h.bc h.reaction = .ok sets ∧
      ((labels (h.bc 0)).sort (· ≤ ·))[k]? = some (h.bc 0 i j) ∧ hist[k]? = some row ∧ set ∈ sets ∧
      set.text = "dim_" ++ toString (j.val + 1) ++ "_label_" ++ toString (h.bc 0 i j) ∧
      set.reaction = row ∧ i.val + 1 ∈ set.nodes := by
  have hm : h.bc 0 i j ∈ (labels (h.bc 0)).sort (· ≤ ·) := by
    rw [Finset.mem_sort]
    exact Finset.mem_image.2 ⟨(i, j), Finset.mem_univ _, rfl⟩
  obtain ⟨k, hk⟩ := List.mem_iff_getElem?.1 hm
  refine ⟨_, _, k, _, _, C120_history h, C120_script h.bc h.reaction, hk,
    by rw [List.getElem?_map, hk]; rfl,
    List.mem_flatMap.2 ⟨j, List.mem_finRange j, List.mem_map.2 ⟨h.bc 0 i j, ?_, rfl⟩⟩, rfl, ?_, ?_⟩
  · rw [Finset.mem_sort]
    exact Finset.mem_image.2 ⟨i, Finset.mem_univ _, rfl⟩
  · refine List.map_congr_left fun t _ => ?_
    have hone := ((C60_check h.bc).2.1 hc).2
    unfold dimSum labelSum
    symm
    refine Finset.sum_bij' (fun d _ => d.1) (fun a _ => (a, j)) ?_ ?_ ?_ ?_ ?_
    · intro d hd
      rw [Finset.mem_filter] at hd ⊢
      have hj : d.2 = j := hone 0 i j 0 d.1 d.2 hl hd.2
      exact ⟨Finset.mem_univ _, by rw [← hd.2, hj]⟩
    · intro a ha
      rw [Finset.mem_filter] at ha ⊢
      exact ⟨Finset.mem_univ _, ha.2⟩
    · intro d hd
      rw [Finset.mem_filter] at hd
      have hj : d.2 = j := hone 0 i j 0 d.1 d.2 hl hd.2
      rw [← hj]
    · intro a _
      rfl
    · intro d hd
      rw [Finset.mem_filter] at hd
      have hj : d.2 = j := hone 0 i j 0 d.1 d.2 hl hd.2
      have := he t d.1 d.2 (by rw [hd.2]; exact hl)
      rw [hj] at this
      simpa only [hj] using this
  · rw [Finset.mem_sort]
    exact Finset.mem_image.2 ⟨i, Finset.mem_filter.2 ⟨Finset.mem_univ _, rfl⟩, rfl⟩

/-- **C120 is violated for the names of the columns.** The columns of the table are named by position,
not by label: if every degree of freedom is constrained, `SET 0` is the set with label one. -/
theorem C120_names_violated (a b : ℝ) : ∃ (h : ForceHist 2 1 1) (hist : List (List ℝ)),
    (∀ i j, h.bc 0 i j ≠ 0) ∧ checkDirichletBc .dirichletSets h.bc = .ok () ∧
    setsReactionHist h = .ok hist ∧ labelSum (h.bc 0) 1 (h.internal 0) = a ∧
    labelSum (h.bc 0) 2 (h.internal 0) = b ∧ reactionTable 1 hist = (["SET 0", "SET 1"], [[a, b]]) := by
  let h : ForceHist 2 1 1 := ⟨fun _ i _ => if i = 0 then a else b, fun _ _ _ => 0, fun _ _ _ => 0,
    fun _ i _ => if i = 0 then 1 else 2, fun _ => 1⟩
  have hlab : labels (h.bc 0) = {1, 2} := by
    ext x
    simp only [labels, h, Finset.mem_image, Finset.mem_univ, true_and, Prod.exists, Fin.exists_fin_two,
      Finset.mem_insert, Finset.mem_singleton]
    constructor
    · rintro (⟨_, rfl⟩ | ⟨_, rfl⟩) <;> simp
    · rintro (rfl | rfl)
      · exact .inl ⟨0, by simp⟩
      · exact .inr ⟨0, by simp⟩
  have hsort : (labels (h.bc 0)).sort (· ≤ ·) = [1, 2] := by
    rw [hlab]
    exact sort_of_pairwise (by simp) (by simp)
  have h1 : ∀ f : NodeMat 2 1 ℝ, labelSum (h.bc 0) 1 f = f 0 0 := by
    intro f
    rw [labelSum_eq]
    simp [h]
  have h2 : ∀ f : NodeMat 2 1 ℝ, labelSum (h.bc 0) 2 f = f 1 0 := by
    intro f
    rw [labelSum_eq]
    simp [h, Fin.sum_univ_two]
  obtain ⟨hist, e1, e2⟩ := C120_table h
  refine ⟨h, hist, ?_, ?_, e1, by rw [h1]; simp [h], by rw [h2]; simp [h], ?_⟩
  · intro i j
    simp only [h]
    split <;> decide
  · refine (C60_check _).2.2 ⟨fun t i j => ?_, fun t i j t' i' j' _ _ => Subsingleton.elim _ _⟩
    simp only [h]
    split <;> decide
  · rw [e2, hsort, hlab]
    have hcard : ({1, 2} : Finset ℤ).card = 2 := by decide
    rw [hcard]
    simp only [List.map_cons, List.map_nil, h1, h2, List.finRange_succ, List.finRange_zero]
    have e3 : (List.range 2).map (fun i => "SET " ++ toString i) = ["SET 0", "SET 1"] := by decide +kernel
    rw [e3]
    simp [h]

/-- **C120 is violated for labels that change.** The labels of the first time are used at all times: a
node that is constrained from the second time on is missing from the row of its label. -/
theorem C120_labels_violated : ∃ (h : ForceHist 2 1 2), checkDirichletBc .dirichletSets h.bc = .ok () ∧
    setsReactionHist h = .ok [[0, 7], [0, 3]] ∧
    labelSum (h.bc 1) 1 (fun i j => h.internal 1 i j - h.external 1 i j) = 10 := by
  let h : ForceHist 2 1 2 := ⟨fun t i _ => if t = 0 then 0 else if i = 0 then 7 else 3, fun _ _ _ => 0,
    fun _ _ _ => 0, fun t i _ => if t = 0 then (if i = 0 then 0 else 1) else 1, fun _ => 1⟩
  have hlab : labels (h.bc 0) = {0, 1} := by
    ext x
    simp only [labels, h, Finset.mem_image, Finset.mem_univ, true_and, Prod.exists, Fin.exists_fin_two,
      Finset.mem_insert, Finset.mem_singleton]
    constructor
    · rintro (⟨_, rfl⟩ | ⟨_, rfl⟩) <;> simp
    · rintro (rfl | rfl)
      · exact .inl ⟨0, by simp⟩
      · exact .inr ⟨0, by simp⟩
  have hsort : (labels (h.bc 0)).sort (· ≤ ·) = [0, 1] := by
    rw [hlab]
    exact sort_of_pairwise (by simp) (by simp)
  refine ⟨h, ?_, ?_, ?_⟩
  · refine (C60_check _).2.2 ⟨fun t i j => ?_, fun t i j t' i' j' _ _ => Subsingleton.elim _ _⟩
    simp only [h]
    split_ifs <;> decide
  · rw [C120_history h, hsort]
    simp only [List.map_cons, List.map_nil, List.finRange_succ, List.finRange_zero, labelSum_eq]
    simp [h, Fin.sum_univ_two]
  · rw [labelSum_eq]
    simp only [h, Fin.sum_univ_two]
    norm_num

/-! ### Flattening -/

/-- **C120.** The labels of one time can be flattened whatever the numbers of nodes, dimensions and
times. -/
theorem C120_flat_labels (N T n : ℕ) : viewFlat (labelSlice N T n) = .ok (N * n) := by
  unfold viewFlat labelSlice columnSlice
  rw [(raiseIf_ok (u := ())).mpr (by simp)]
  rfl

/-- **C120 is violated for reactions read from files.** The reactions of one time are three of thirteen
columns and cannot be flattened with `view(-1)`: for two or more nodes in two or three dimensions the
components of the Dirichlet sets loss cannot be computed. -/
theorem C120_flatten_violated (N T n : ℕ) (hN : 2 ≤ N) (hT : 1 ≤ T) (hn : n = 2 ∨ n = 3) :
    flattenTime N T n = .error .runtimeError := by
  have h : ¬ (N = 0 ∨ n = 0 ∨ N = 1 ∨ n = 1 ∨ 13 * T = n * T) := by
    rcases hn with rfl | rfl <;> omega
  have hv : viewFlat (reactionSlice N T n) = .error .runtimeError := by
    unfold viewFlat reactionSlice columnSlice
    rw [raiseIf, if_pos h]
    rfl
  unfold flattenTime
  rw [hv]
  rfl

/-! ### Copying of labels -/

theorem copyTable_ok (src target : LabelTable) (h : ∀ c ∈ dbcNames, c ∈ src.cols.keys) :
    ∃ r, copyTable src target = .ok r ∧ HasLabelsOf src target r := by
  have hhas : ∀ c ∈ dbcNames, src.cols.has c = true := fun c hc => KDict.has_iff.2 (h c hc)
  unfold copyTable
  rw [(raiseIf_ok (u := ())).mpr (not_not.2 hhas)]
  refine ⟨_, rfl, rfl, ?_, ?_, ?_⟩
  · intro c hc
    obtain ⟨f, hf⟩ := KDict.mem_keys_iff.1 (h c hc)
    refine ⟨f, (List.range target.n).map fun i => (f[i]?).getD none, hf, ?_, by simp, fun k hk => by
      simp [hk]⟩
    have hc' : c = "DBC1" ∨ c = "DBC2" ∨ c = "DBC3" := by simpa using hc
    simp only [dbcNames, List.foldl_cons, List.foldl_nil]
    rcases hc' with rfl | rfl | rfl
    · rw [KDict.get?_put_ne _ _ (by decide), KDict.get?_put_ne _ _ (by decide), KDict.get?_put_self, hf]
      rfl
    · rw [KDict.get?_put_ne _ _ (by decide), KDict.get?_put_self, hf]
      rfl
    · rw [KDict.get?_put_self, hf]
      rfl
  · intro c hc
    have hc' : c ≠ "DBC1" ∧ c ≠ "DBC2" ∧ c ≠ "DBC3" := by simpa using hc
    simp only [dbcNames, List.foldl_cons, List.foldl_nil]
    rw [KDict.get?_put_ne _ _ hc'.2.2, KDict.get?_put_ne _ _ hc'.2.1, KDict.get?_put_ne _ _ hc'.1]
  · intro hk
    have k1 := hk "DBC1" (by simp)
    have k2 := hk "DBC2" (by simp)
    have k3 := hk "DBC3" (by simp)
    simp only [dbcNames, List.foldl_cons, List.foldl_nil, KDict.keys_put, if_pos k1, if_pos k2, if_pos k3]

/-- **C120.** If both histories have the same number of files and every source file has the three
columns of labels, each target file gets the labels of the source file at the same position, row by
row; its other columns, their order and its number of rows stay. -/
theorem C120_copy (srcs targets : List LabelTable) (hl : srcs.length = targets.length)
    (h : ∀ s ∈ srcs, ∀ c ∈ ["DBC1", "DBC2", "DBC3"], c ∈ s.cols.keys) :
    ∃ out, copyLabels srcs targets = (out, none) ∧ out.length = targets.length ∧
      ∀ (i : ℕ) (s t : LabelTable), srcs[i]? = some s → targets[i]? = some t → ∃ r, out[i]? = some r ∧ HasLabelsOf s t r := by
  unfold copyLabels
  rw [if_neg (not_not.2 hl)]
  induction srcs generalizing targets with
  | nil =>
    obtain rfl : targets = [] := List.length_eq_zero_iff.1 hl.symm
    exact ⟨[], rfl, rfl, by simp⟩
  | cons s srcs ih =>
    cases targets with
    | nil => simp at hl
    | cons t targets =>
      obtain ⟨r, h1, h2⟩ := copyTable_ok s t (h s (by simp))
      obtain ⟨out, i1, i2, i3⟩ := ih targets (by simpa using hl) fun s' hs' => h s' (by simp [hs'])
      refine ⟨r :: out, ?_, by simp [i2], ?_⟩
      · simp only [List.zip_cons_cons, copyTables, h1, i1]
      · rintro (_ | i) s' t' hs ht
        · simp only [List.getElem?_cons_zero, Option.some.injEq] at hs ht
          subst hs ht
          exact ⟨r, rfl, h2⟩
        · exact i3 i s' t' hs ht

/-- **C120 is violated for an incomplete source.** The columns of each source file are checked when its
labels are copied: if the second file has none, the call fails but the labels of the first target file
have been replaced. -/
theorem C120_copy_incomplete_violated (s1 s2 t1 t2 : LabelTable)
    (h1 : ∀ c ∈ ["DBC1", "DBC2", "DBC3"], c ∈ s1.cols.keys) (h2 : "DBC1" ∉ s2.cols.keys) :
    ∃ r, copyLabels [s1, s2] [t1, t2] = ([r, t2], some .runtimeError) ∧ HasLabelsOf s1 t1 r := by
  obtain ⟨r, e1, e2⟩ := copyTable_ok s1 t1 h1
  refine ⟨r, ?_, e2⟩
  have e3 : copyTable s2 t2 = .error .runtimeError := by
    have : ¬ ∀ c ∈ dbcNames, s2.cols.has c = true := fun h => h2 (KDict.has_iff.1 (h "DBC1" (by decide)))
    unfold copyTable
    rw [raiseIf, if_pos this]
    rfl
  simp [copyLabels, copyTables, e1, e3]

/-- **C120 is violated for meshes of different sizes.** The numbers of rows are not compared: nodes of
the target that the source does not have lose their labels without an error. -/
theorem C120_copy_rows_violated (src t : LabelTable) (hk : ∀ c ∈ ["DBC1", "DBC2", "DBC3"], c ∈ src.cols.keys)
    (f : List (Option ℝ)) (hf : src.cols.get? "DBC1" = some f) (hlt : f.length < t.n) :
    ∃ r col, copyLabels [src] [t] = ([r], none) ∧ r.cols.get? "DBC1" = some col ∧
      col[f.length]? = some none := by
  obtain ⟨r, e1, e2⟩ := copyTable_ok src t hk
  obtain ⟨f', col, g1, g2, -, g4⟩ := e2.2.1 "DBC1" (by simp)
  rw [hf, Option.some.injEq] at g1
  subst g1
  exact ⟨r, col, by simp [copyLabels, copyTables, e1], g2, by rw [g4 _ hlt]; simp⟩

/-! ### Cases -/

/-- The hypotheses of `C120_agree` for a bar with a free and a constrained node. -/
example : ∃ (h : ForceHist 2 1 2), checkDirichletBc .dirichletSets h.bc = .ok () ∧
    (∀ t i j, 0 < h.bc 0 i j → h.internal t i j - h.external t i j = h.reaction t i j) ∧
    0 < h.bc 0 1 0 ∧ h.bc 0 0 0 = 0 ∧ h.reaction 1 1 0 = 4 := by
  refine ⟨⟨fun t i _ => if i = 0 then 0 else 4 * t.val, fun _ _ _ => 0,
    fun t i _ => if i = 0 then 0 else 4 * t.val, fun _ i _ => if i = 0 then 0 else 1, fun _ => 1⟩,
    ?_, ?_, ?_, ?_, ?_⟩
  · refine (C60_check _).2.2 ⟨fun t i j => ?_, fun t i j t' i' j' _ _ => Subsingleton.elim _ _⟩
    dsimp only
    split <;> decide
  · intro t i j _
    simp
  · simp
  · simp
  · simp

/-- A source with labels and a target without them. -/
example : ∃ src t : LabelTable, (∀ c ∈ ["DBC1", "DBC2", "DBC3"], c ∈ src.cols.keys) ∧
    src.n = 1 ∧ t.n = 2 ∧ t.cols.keys = ["NODE"] :=
  ⟨⟨1, [("NODE", [some 1]), ("DBC1", [some 1]), ("DBC2", [some 0]), ("DBC3", [some 0])]⟩,
   ⟨2, [("NODE", [some 1, some 2])]⟩, by simp [KDict.keys], rfl, rfl, rfl⟩

end Hooke
