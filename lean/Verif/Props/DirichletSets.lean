import Verif.Props.ForceEquilibrium

/-! # C60: force equilibrium loss grouped by Dirichlet sets -/

namespace Hooke

open Spec

variable {N n T : ℕ}

theorem bucketize_iff {L : List ℤ} (hL : L.Pairwise (· < ·)) {v : ℤ} (hv : v ∈ L) (k : ℕ) :
    bucketize L v = k ↔ L[k]? = some v := by
  induction L generalizing k with
  | nil => simp at hv
  | cons a L ih =>
    have ha := List.pairwise_cons.1 hL
    unfold bucketize
    rw [List.findIdx_cons]
    by_cases h : v ≤ a
    · have hva : v = a := by
        rcases List.mem_cons.1 hv with h' | h'
        · exact h'
        · exact absurd (ha.1 v h') (not_lt.2 h)
      subst hva
      simp only [le_refl, decide_true, cond_true]
      cases k with
      | zero => simp
      | succ k =>
        constructor
        · intro h'; omega
        · intro h'
          rw [List.getElem?_cons_succ] at h'
          exact absurd (ha.1 v (List.mem_of_getElem? h')) (lt_irrefl _)
    · have hvL : v ∈ L := by
        rcases List.mem_cons.1 hv with h' | h'
        · exact absurd h'.le h
        · exact h'
      have hva : v ≠ a := fun h' => h h'.le
      simp only [h, decide_false, cond_false]
      cases k with
      | zero => simp [Ne.symm hva]
      | succ k =>
        rw [List.getElem?_cons_succ, ← ih ha.2 hvL]
        unfold bucketize
        omega

theorem uniqueLabels_eq (bc : NodeMat N n ℤ) : uniqueLabels bc = (labels bc).sort (· ≤ ·) := rfl

theorem uniqueLabels_sorted (bc : NodeMat N n ℤ) : (uniqueLabels bc).Pairwise (· < ·) :=
  Finset.sortedLT_sort _ |>.pairwise

theorem mem_uniqueLabels (bc : NodeMat N n ℤ) (l : ℤ) : l ∈ uniqueLabels bc ↔ l ∈ labels bc := by
  rw [uniqueLabels_eq, Finset.mem_sort]

theorem oneHot_eq (bc : NodeMat N n ℤ) (i : Fin N) (j : Fin n) {s : ℕ} {l : ℤ}
    (h : (uniqueLabels bc)[s]? = some l) : oneHot bc i j s = if bc i j = l then 1 else 0 := by
  have hm : bc i j ∈ uniqueLabels bc := by
    rw [mem_uniqueLabels]
    exact Finset.mem_image.2 ⟨(i, j), Finset.mem_univ _, rfl⟩
  unfold oneHot
  simp only [bucketize_iff (uniqueLabels_sorted bc) hm, h, Option.some.injEq, eq_comm]

theorem labelSum_eq (bc : NodeMat N n ℤ) (l : ℤ) (f : NodeMat N n ℝ) :
    labelSum bc l f = ∑ i, ∑ j, if bc i j = l then f i j else 0 := by
  rw [labelSum, Finset.sum_filter, Fintype.sum_prod_type]

theorem sum_labels (bc : NodeMat N n ℤ) (l0 : ℤ) (L : List ℤ) (h : uniqueLabels bc = l0 :: L) (g : ℤ → ℝ) :
    ∑ s ∈ Finset.range L.length, g (L.getD s 0) = ∑ l ∈ (labels bc).erase l0, g l := by
  have hs := uniqueLabels_sorted bc
  rw [h, List.pairwise_cons] at hs
  have hnd : L.Nodup := hs.2.imp fun h => ne_of_lt h
  have hfin : (labels bc).erase l0 = L.toFinset := by
    ext x
    have hx := mem_uniqueLabels bc x
    rw [h, List.mem_cons] at hx
    rw [Finset.mem_erase, List.mem_toFinset, ← hx]
    constructor
    · rintro ⟨h1, h2 | h2⟩
      · exact absurd h2 h1
      · exact h2
    · intro h2
      exact ⟨(hs.1 x h2).ne', .inr h2⟩
  rw [hfin, List.sum_toFinset _ hnd]
  clear hfin hnd hs h
  induction L with
  | nil => simp
  | cons a L ih => 
    rw [List.length_cons, Finset.sum_range_succ', List.map_cons, List.sum_cons, ← ih, add_comm]
    rfl

theorem sets_value (Fi Fe R : NodeMat N n ℝ) (bc : NodeMat N n ℤ) (l0 : ℤ) (L : List ℤ)
    (h : uniqueLabels bc = l0 :: L) :
    freeLoss Fi Fe R bc + setsLoss Fi Fe R bc = groupedLoss l0 Fi Fe R bc := by
  have h0 : ∀ i j, oneHot bc i j 0 = if bc i j = l0 then 1 else 0 :=
    fun i j => oneHot_eq bc i j (by rw [h]; rfl)
  unfold groupedLoss freeLoss setsLoss
  congr 1
  · rw [labelSum_eq]
    refine Finset.sum_congr rfl fun i _ => Finset.sum_congr rfl fun j _ => ?_
    rw [setResidual, h0]
    split <;> simp
  · rw [← sum_labels bc l0 L h fun l => labelSum bc l (fun i j => Fi i j - Fe i j - R i j) ^ 2, h,
      List.length_cons, Nat.add_sub_cancel]
    refine Finset.sum_congr rfl fun s hs => ?_
    have hs := Finset.mem_range.1 hs
    have hg : (uniqueLabels bc)[s + 1]? = some (L.getD s 0) := by
      rw [h, List.getElem?_cons_succ, List.getD_eq_getElem?_getD, List.getElem?_eq_getElem hs]; rfl
    have hne : L.getD s 0 ≠ l0 := by
      have hso := uniqueLabels_sorted bc
      rw [h, List.pairwise_cons] at hso
      have : L.getD s 0 ∈ L := by
        rw [List.getD_eq_getElem?_getD, List.getElem?_eq_getElem hs]; exact List.getElem_mem hs
      exact (hso.1 _ this).ne'
    congr 1
    rw [labelSum_eq]
    refine Finset.sum_congr rfl fun i _ => Finset.sum_congr rfl fun j _ => ?_
    rw [setResidual, h0, oneHot_eq bc i j hg]
    by_cases hb : bc i j = L.getD s 0
    · rw [if_pos hb, if_pos hb, if_neg (by rw [hb]; exact hne)]; ring
    · rw [if_neg hb, if_neg hb, mul_zero]

theorem uniqueLabels_min (bc : NodeMat N n ℤ) (l0 : ℤ) (hl : l0 ∈ labels bc)
    (hmin : ∀ i j, l0 ≤ bc i j) : ∃ L, uniqueLabels bc = l0 :: L := by
  cases h : uniqueLabels bc with
  | nil =>
    have := (mem_uniqueLabels bc l0).2 hl
    rw [h] at this; simp at this
  | cons a L =>
    refine ⟨L, ?_⟩
    have hs := uniqueLabels_sorted bc
    rw [h, List.pairwise_cons] at hs
    have h1 := (mem_uniqueLabels bc l0).2 hl
    rw [h, List.mem_cons] at h1
    have h2 : a ∈ labels bc := (mem_uniqueLabels bc a).1 (by rw [h]; simp)
    obtain ⟨d, -, hd⟩ := Finset.mem_image.1 h2
    have h3 : l0 ≤ a := hd ▸ hmin d.1 d.2
    rcases h1 with h1 | h1
    · rw [h1]
    · exact absurd (hs.1 l0 h1) (not_lt.2 h3)

/-- **C60.** Whatever the labels, the loss groups by label and takes the smallest label in use for the
free degrees of freedom. -/
theorem C60_smallest_label (cfg : LossConfig n) (hc : cfg.lossType = .dirichletSets) (hs : cfg.scaler = none)
    (Fi Fe R : NodeMat N n ℝ) (bc : NodeMat N n ℤ) (l0 : ℤ) (hl : l0 ∈ labels bc)
    (hmin : ∀ i j, l0 ≤ bc i j) :
    vLoss cfg Fi Fe R bc = .ok (groupedLoss l0 Fi Fe R bc) := by
  obtain ⟨L, hL⟩ := uniqueLabels_min bc l0 hl hmin
  have := sets_value Fi Fe R bc l0 L hL
  simp [vLoss, hc, hL, normForces, hs, this]

/-- **C60.** With labels that are not negative and at least one free degree of freedom, the loss is the
sum of the squared free residuals plus, for each positive label, the square of the total residual over
its set.  It is not negative, and zero exactly when each free degree of freedom is balanced and the
total reaction of each set is matched. -/
theorem C60_sets (cfg : LossConfig n) (hc : cfg.lossType = .dirichletSets) (hs : cfg.scaler = none)
    (Fi Fe R : NodeMat N n ℝ) (bc : NodeMat N n ℤ) (hb : ∀ i j, 0 ≤ bc i j) (hf : ∃ i j, bc i j = 0) :
    ∃ L, vLoss cfg Fi Fe R bc = .ok L ∧ L = groupedLoss 0 Fi Fe R bc ∧ 0 ≤ L ∧
      (L = 0 ↔ (∀ i j, bc i j = 0 → Fi i j = Fe i j) ∧
        ∀ l, 0 < l → labelSum bc l (fun i j => Fi i j - Fe i j) = labelSum bc l R) := by
  obtain ⟨i0, j0, h0⟩ := hf
  have hl : (0 : ℤ) ∈ labels bc := Finset.mem_image.2 ⟨(i0, j0), Finset.mem_univ _, h0⟩
  have hn1 : 0 ≤ labelSum bc 0 (fun i j => (Fi i j - Fe i j) ^ 2) :=
    Finset.sum_nonneg fun _ _ => sq_nonneg _
  have hn2 : 0 ≤ ∑ l ∈ (labels bc).erase 0, labelSum bc l (fun i j => Fi i j - Fe i j - R i j) ^ 2 :=
    Finset.sum_nonneg fun _ _ => sq_nonneg _
  refine ⟨_, C60_smallest_label cfg hc hs Fi Fe R bc 0 hl hb, rfl, add_nonneg hn1 hn2, ?_⟩
  unfold groupedLoss
  rw [add_eq_zero_iff_of_nonneg hn1 hn2, Finset.sum_eq_zero_iff_of_nonneg fun _ _ => sq_nonneg _]
  have hsub : ∀ l, labelSum bc l (fun i j => Fi i j - Fe i j - R i j) =
      labelSum bc l (fun i j => Fi i j - Fe i j) - labelSum bc l R := by
    intro l; simp only [labelSum, Finset.sum_sub_distrib]
  refine and_congr ?_ ?_
  · rw [labelSum, Finset.sum_eq_zero_iff_of_nonneg fun _ _ => sq_nonneg _]
    constructor
    · intro h i j hij
      have := h (i, j) (by simp [hij])
      have := pow_eq_zero_iff (two_ne_zero) |>.1 this
      linarith
    · intro h d hd
      have := h d.1 d.2 (Finset.mem_filter.1 hd).2
      rw [this]; simp
  · constructor
    · intro h l hl
      by_cases hm : l ∈ labels bc
      · have := h l (Finset.mem_erase.2 ⟨hl.ne', hm⟩)
        have := pow_eq_zero_iff (two_ne_zero) |>.1 this
        rw [hsub] at this
        linarith
      · have he : ∀ f : NodeMat N n ℝ, labelSum bc l f = 0 := by
          intro f
          apply Finset.sum_eq_zero
          intro d hd
          exact absurd (Finset.mem_image.2 ⟨d, Finset.mem_univ _, (Finset.mem_filter.1 hd).2⟩) hm
        rw [he, he]
    · intro h l hl
      obtain ⟨h1, h2⟩ := Finset.mem_erase.1 hl
      obtain ⟨d, -, hd⟩ := Finset.mem_image.1 h2
      have : 0 < l := lt_of_le_of_ne (hd ▸ hb d.1 d.2) (Ne.symm h1)
      rw [hsub, h l this]; simp

/-- **C60, violated.** Without a free degree of freedom the smallest positive label is taken for free:
when all degrees of freedom have positive labels and the internal forces match the reactions, the loss
is positive as soon as a reaction of the smallest label is not zero. -/
theorem C60_no_free_violated (cfg : LossConfig n) (hc : cfg.lossType = .dirichletSets)
    (hs : cfg.scaler = none) (Fi Fe R : NodeMat N n ℝ) (bc : NodeMat N n ℤ)
    (heq : ∀ i j, Fi i j = Fe i j + R i j) (i : Fin N) (j : Fin n)
    (hmin : ∀ i' j', bc i j ≤ bc i' j') (hR : R i j ≠ 0) :
    ∃ L, vLoss cfg Fi Fe R bc = .ok L ∧ 0 < L := by
  refine ⟨_, C60_smallest_label cfg hc hs Fi Fe R bc (bc i j)
    (Finset.mem_image.2 ⟨(i, j), Finset.mem_univ _, rfl⟩) hmin, ?_⟩
  unfold groupedLoss
  apply add_pos_of_pos_of_nonneg
  · unfold labelSum
    apply Finset.sum_pos' fun _ _ => sq_nonneg _
    exact ⟨(i, j), by simp, by simp only [heq i j, add_sub_cancel_left]; positivity⟩
  · exact Finset.sum_nonneg fun _ _ => sq_nonneg _

/-- **C60.** The reaction of each set: in increasing order of the labels, the total of the internal
minus external forces over the degrees of freedom with that label. -/
theorem C60_reaction (Fi Fe : NodeMat N n ℝ) (bc : NodeMat N n ℤ) :
    setsReaction Fi Fe bc = ((labels bc).sort (· ≤ ·)).map fun l =>
      labelSum bc l fun i j => Fi i j - Fe i j := by
  unfold setsReaction
  rw [← uniqueLabels_eq]
  apply List.ext_getElem
  · simp
  · intro k h1 h2
    simp only [List.length_map, List.length_range] at h1
    simp only [List.getElem_map, List.getElem_range]
    rw [labelSum_eq]
    refine Finset.sum_congr rfl fun i _ => Finset.sum_congr rfl fun j _ => ?_
    rw [oneHot_eq bc i j (List.getElem?_eq_getElem h1)]
    split <;> simp

/-- **C60.** The stored components of the Dirichlet sets loss without normalisation: the total, and the
free and grouped parts that add up to it. -/
theorem C60_components (Fi Fe R : NodeMat N n ℝ) (bc : NodeMat N n ℤ) (hb : ∀ i j, 0 ≤ bc i j)
    (hf : ∃ i j, bc i j = 0) :
    ∃ a b, lossComponents .dirichletSets Fi Fe R bc = .ok [a + b, a, b] ∧
      a = labelSum bc 0 (fun i j => (Fi i j - Fe i j) ^ 2) ∧
      b = ∑ l ∈ (labels bc).erase 0, labelSum bc l (fun i j => Fi i j - Fe i j - R i j) ^ 2 := by
  obtain ⟨i0, j0, h0⟩ := hf
  have hl : (0 : ℤ) ∈ labels bc := Finset.mem_image.2 ⟨(i0, j0), Finset.mem_univ _, h0⟩
  obtain ⟨L, hL⟩ := uniqueLabels_min bc 0 hl hb
  have hv := sets_value Fi Fe R bc 0 L hL
  have hfree : freeLoss Fi Fe R bc = labelSum bc 0 (fun i j => (Fi i j - Fe i j) ^ 2) := by
    have h0 : ∀ i j, oneHot bc i j 0 = if bc i j = 0 then 1 else 0 :=
      fun i j => oneHot_eq bc i j (by rw [hL]; rfl)
    rw [labelSum_eq]
    refine Finset.sum_congr rfl fun i _ => Finset.sum_congr rfl fun j _ => ?_
    rw [setResidual, h0]
    split <;> simp
  refine ⟨freeLoss Fi Fe R bc, setsLoss Fi Fe R bc, ?_, hfree, ?_⟩
  · simp [lossComponents, hL]
  · rw [hfree, groupedLoss] at hv
    exact add_left_cancel hv

/-- **C60.** The check of the boundary conditions accepts, for the pointwise type, exactly the labels
`0` and `1`, and for the Dirichlet sets exactly the labels that are not negative and whose positive
values each occur in one dimension only. -/
theorem C60_check (bc : Fin T → NodeMat N n ℤ) :
    (checkDirichletBc .pointwise bc = .ok () ↔ ∀ t i j, bc t i j = 0 ∨ bc t i j = 1) ∧
    (checkDirichletBc .dirichletSets bc = .ok () ↔ (∀ t i j, 0 ≤ bc t i j) ∧
      ∀ t i j t' i' j', 0 < bc t i j → bc t' i' j' = bc t i j → j' = j) := by
  constructor
  · simp only [checkDirichletBc, raiseIf_ok, not_not]
  · have hcard : (¬ ∃ t i j, 0 < bc t i j ∧
        1 < (Finset.univ.filter fun k : Fin n => ∃ t' i', bc t' i' k = bc t i j).card) ↔
        ∀ t i j t' i' j', 0 < bc t i j → bc t' i' j' = bc t i j → j' = j := by
      constructor
      · intro h t i j t' i' j' hp he
        by_contra hne
        refine h ⟨t, i, j, hp, ?_⟩
        rw [Finset.one_lt_card]
        exact ⟨j', by simpa using ⟨t', i', he⟩, j, by simpa using ⟨t, i, rfl⟩, hne⟩
      · rintro h ⟨t, i, j, hp, hc⟩
        obtain ⟨a, ha, b, hb, hab⟩ := Finset.one_lt_card.1 hc
        simp only [Finset.mem_filter, Finset.mem_univ, true_and] at ha hb
        obtain ⟨ta, ia, ha⟩ := ha
        obtain ⟨tb, ib, hb⟩ := hb
        exact hab ((h t i j ta ia a hp ha).trans (h t i j tb ib b hp hb).symm)
    simp only [checkDirichletBc]
    constructor
    · intro h
      obtain ⟨⟨⟩, h1, h2⟩ := bind_ok h
      exact ⟨not_not.1 (raiseIf_ok.1 h1), hcard.1 (raiseIf_ok.1 h2)⟩
    · rintro ⟨h1, h2⟩
      have e1 := raiseIf_ok (e := PyErr.runtimeError) (u := ()) |>.2 (not_not.2 h1)
      rw [e1]
      exact raiseIf_ok.2 (hcard.2 h2)

/-- **C60, violated.** The sequential modes ignore the loss type: a set whose residuals cancel has zero
Dirichlet sets loss but a positive loss in the sequential modes. -/
theorem C60_sequential_violated :
    (∀ (N n T : ℕ) (cfg : LossConfig n) (h : ForceHist N n T) (flags : NodeMat N n ℤ) (ty : LossType),
      seqHistLoss { cfg with lossType := ty } h flags = seqHistLoss cfg h flags) ∧
    ∃ (cfg : LossConfig 1) (h : ForceHist 3 1 1), cfg.lossType = .dirichletSets ∧
      checkDirichletBc .dirichletSets h.bc = .ok () ∧
      vHistLoss cfg h = .ok 0 ∧ 0 < seqHistLoss cfg h (h.bc 0) := by
  refine ⟨fun _ _ _ _ _ _ _ => rfl, ⟨.dirichletSets, none⟩,
    ⟨fun _ i _ => if i = 1 then 1 else if i = 2 then -1 else 0, fun _ _ _ => 0, fun _ _ _ => 0,
      fun _ i _ => if i = 0 then 0 else 1, fun _ => 1⟩, rfl, ?_, ?_, ?_⟩
  · refine (C60_check _).2.2 ⟨fun t i j => ?_, fun t i j t' i' j' _ _ => Subsingleton.elim _ _⟩
    dsimp only; split <;> simp
  · obtain ⟨L, h1, -, -, h4⟩ := C60_sets (N := 3) (n := 1) ⟨.dirichletSets, none⟩ rfl rfl
      (fun i _ => if i = 1 then 1 else if i = 2 then -1 else 0) (fun _ _ => 0) (fun _ _ => 0)
      (fun i _ => if i = 0 then 0 else 1) (fun i j => by split <;> simp) ⟨0, 0, rfl⟩
    have hL : L = 0 := h4.2 ⟨fun i j hij => by
        fin_cases i
        · simp
        · simp at hij
        · simp at hij, fun l hl => by
        simp only [labelSum_eq, Fin.sum_univ_three]
        by_cases h : (1 : ℤ) = l
        · subst h; simp
        · simp [h]⟩
    simp [vHistLoss, List.finRange_succ, orRaise, h1, hL, bind, Except.bind, pure, Except.pure]
  · simp [seqHistLoss, List.finRange_succ, loopLoss_eq, pointwiseLoss, Fin.sum_univ_three, normForces]

section Examples

/-- Labels with a free degree of freedom and two sets. -/
example : ∃ bc : NodeMat 3 1 ℤ, (∀ i j, 0 ≤ bc i j) ∧ (∃ i j, bc i j = 0) ∧ bc 1 0 = 1 ∧ bc 2 0 = 5 :=
  ⟨fun i _ => if i = 0 then 0 else if i = 1 then 1 else 5,
    fun i j => by dsimp only; split_ifs <;> simp, ⟨0, 0, rfl⟩, rfl, rfl⟩

end Examples

end Hooke
