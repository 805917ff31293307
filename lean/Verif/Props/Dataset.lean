import Verif.Spec.Dataset
import Verif.Lemmas.Py
import Mathlib.Data.List.Nodup
import Mathlib.Tactic.Linarith
import Mathlib.Tactic.NormNum
import Mathlib.Algebra.BigOperators.Group.List.Basic
import Mathlib.Algebra.Order.BigOperators.Group.List

/-!
# C43, C44: splitting data sets, operations of in-memory data sets
-/

namespace Hooke

variable {α : Type}

/-! ## C44 -/

theorem removeFrom_eq {γ : Type} (indices : List ℤ) (l : List γ) (i : ℕ) :
    InMemory.removeFrom indices i l =
      ((l.zipIdx i).filter fun p => (p.2 : ℤ) ∉ indices).map Prod.fst := by
  induction l generalizing i with
  | nil => simp [InMemory.removeFrom]
  | cons x xs ih =>
    simp only [InMemory.removeFrom, List.zipIdx_cons]
    by_cases h : (i : ℤ) ∈ indices <;> simp [h, ih]

theorem removeFrom_map {γ δ : Type} (f : γ → δ) (indices : List ℤ) (l : List γ) (i : ℕ) :
    (InMemory.removeFrom indices i l).map f = InMemory.removeFrom indices i (l.map f) := by
  induction l generalizing i with
  | nil => simp [InMemory.removeFrom]
  | cons x xs ih =>
    simp only [InMemory.removeFrom, List.map_cons]
    split_ifs <;> simp [ih]

theorem removeFrom_sublist {γ : Type} (indices : List ℤ) (l : List γ) (i : ℕ) :
    (InMemory.removeFrom indices i l).Sublist l := by
  induction l generalizing i with
  | nil => simp [InMemory.removeFrom]
  | cons x xs ih =>
    simp only [InMemory.removeFrom]
    split_ifs
    · exact (ih _).cons _
    · exact (ih _).cons₂ _

theorem view_remove (ds : InMemory) (h : Samples α) (indices : List ℤ) :
    (ds.remove indices).view h = withoutPositions (ds.view h) indices := by
  unfold InMemory.view InMemory.remove withoutPositions
  rw [removeFrom_map, removeFrom_eq]

theorem allocAll_spec (h : Samples α) (vs : List α) :
    (h.allocAll vs).1.next = h.next + vs.length ∧
    (∀ r < h.next, (h.allocAll vs).1.obj r = h.obj r) ∧
    (h.allocAll vs).2.map (h.allocAll vs).1.obj = vs ∧
    (∀ r ∈ (h.allocAll vs).2, h.next ≤ r ∧ r < h.next + vs.length) ∧
    (h.allocAll vs).2.Nodup := by
  induction vs generalizing h with
  | nil => simp [Samples.allocAll]
  | cons v vs ih =>
    obtain ⟨h1, h2, h3, h4, h5⟩ := ih (h.alloc v).1
    have hn : (h.alloc v).1.next = h.next + 1 := rfl
    have hr : (h.alloc v).2 = h.next := rfl
    simp only [Samples.allocAll, hr]
    rw [hn] at h1 h2 h4
    refine ⟨by rw [h1]; simp; omega, ?_, ?_, ?_, ?_⟩
    · intro r hr'
      rw [h2 r (by omega)]
      simp [Samples.alloc, Function.update, Nat.ne_of_lt hr']
    · rw [List.map_cons, h3, h2 h.next (by omega)]
      simp [Samples.alloc]
    · intro r hr'
      rcases List.mem_cons.mp hr' with rfl | hr'
      · simp
      · have := h4 r hr'
        simp only [List.length_cons]
        omega
    · refine List.nodup_cons.mpr ⟨fun hm => ?_, h5⟩
      have := h4 _ hm
      omega

/-- Reachable states: all references are allocated, no sample occurs twice, and no copy is a
sample of the data set. -/
structure DsState.Inv (s : DsState α) : Prop where
  refs : ∀ r ∈ s.ds.refs, r < s.heap.next
  nodup : s.ds.refs.Nodup
  copies : ∀ c ∈ s.copies, ∀ r ∈ c, r < s.heap.next ∧ r ∉ s.ds.refs

theorem DsState.inv_start (h : Samples α) (contents : List α) : (DsState.start h contents).Inv := by
  obtain ⟨h1, -, -, h4, h5⟩ := allocAll_spec h contents
  refine ⟨fun r hr => ?_, h5, by simp [DsState.start]⟩
  have := h4 r hr
  show r < (h.allocAll contents).1.next
  omega

theorem view_congr {ds : InMemory} {h h' : Samples α} (H : ∀ r ∈ ds.refs, h.obj r = h'.obj r) :
    ds.view h = ds.view h' := List.map_congr_left H

theorem DsState.step_spec {s : DsState α} (hs : s.Inv) (op : DsOp α) :
    (s.step op).Inv ∧ (s.step op).ds.view (s.step op).heap = op.effect (s.ds.view s.heap) := by
  cases op with
  | add contents =>
    obtain ⟨h1, h2, h3, h4, h5⟩ := allocAll_spec s.heap contents
    refine ⟨⟨?_, ?_, ?_⟩, ?_⟩
    · intro r hr
      show r < (s.heap.allocAll contents).1.next
      rcases List.mem_append.mp hr with hr | hr
      · have := hs.refs r hr; omega
      · have := h4 r hr; omega
    · refine List.nodup_append.mpr ⟨hs.nodup, h5, ?_⟩
      rintro a ha b hb rfl
      have := hs.refs a ha
      have := h4 a hb
      omega
    · intro c hc r hr
      have hcr := hs.copies c hc r hr
      refine ⟨?_, fun hm => ?_⟩
      · show r < (s.heap.allocAll contents).1.next
        omega
      · rcases List.mem_append.mp hm with hm | hm
        · exact hcr.2 hm
        · have := h4 r hm; omega
    · show (s.ds.refs ++ (s.heap.allocAll contents).2).map (s.heap.allocAll contents).1.obj = _
      rw [List.map_append, h3]
      show _ = s.ds.refs.map s.heap.obj ++ contents
      congr 1
      exact List.map_congr_left fun r hr => h2 r (hs.refs r hr)
  | remove indices =>
    have hsub := removeFrom_sublist indices s.ds.refs 0
    refine ⟨⟨fun r hr => hs.refs r (hsub.subset hr), hsub.nodup hs.nodup, fun c hc r hr =>
      ⟨(hs.copies c hc r hr).1, fun hm => (hs.copies c hc r hr).2 (hsub.subset hm)⟩⟩, ?_⟩
    exact view_remove s.ds s.heap indices
  | getAll =>
    have hn : (s.step .getAll).heap.next = 2 * s.heap.next := rfl
    refine ⟨⟨?_, hs.nodup, ?_⟩, ?_⟩
    · intro r hr
      have := hs.refs r hr
      omega
    · intro c hc r hr
      rcases List.mem_append.mp hc with hc | hc
      · have := hs.copies c hc r hr
        exact ⟨by omega, this.2⟩
      · rw [List.mem_singleton] at hc
        subst hc
        obtain ⟨r', hr', rfl⟩ := List.mem_map.mp hr
        have := hs.refs r' hr'
        refine ⟨by omega, fun hm => ?_⟩
        have := hs.refs _ hm
        omega
    · refine view_congr fun r hr => ?_
      have := hs.refs r hr
      show (if r < s.heap.next then _ else _) = _
      rw [if_pos this]
  | change k j f =>
    cases hr : s.copies[k]?.bind (·[j]?) with
    | none =>
      have : s.step (.change k j f) = s := by simp only [DsState.step, hr]
      rw [this]
      exact ⟨hs, rfl⟩
    | some r =>
      obtain ⟨c, hc, hj⟩ := Option.bind_eq_some_iff.mp hr
      have hcr := hs.copies c (List.mem_of_getElem? hc) r (List.mem_of_getElem? hj)
      have : s.step (.change k j f) = { s with heap := s.heap.modify r f } := by
        simp only [DsState.step, hr]
      rw [this]
      refine ⟨⟨hs.refs, hs.nodup, hs.copies⟩, view_congr fun r' hr' => ?_⟩
      have : r' ≠ r := fun e => hcr.2 (e ▸ hr')
      simp [Samples.modify, Function.update, this]

theorem DsState.run_spec (ops : List (DsOp α)) {s : DsState α} (hs : s.Inv) :
    (ops.foldl DsState.step s).Inv ∧
    (ops.foldl DsState.step s).ds.view (ops.foldl DsState.step s).heap
      = ops.foldl DsOp.effect (s.ds.view s.heap) := by
  induction ops generalizing s with
  | nil => exact ⟨hs, rfl⟩
  | cons op ops ih =>
    obtain ⟨h1, h2⟩ := s.step_spec hs op
    obtain ⟨h3, h4⟩ := ih h1
    exact ⟨h3, by rw [List.foldl_cons, h4, h2]; rfl⟩

/-- **C44** (history). After any sequence of operations on a new data set its contents are the
initial ones with the added samples appended and the removed positions dropped, in order; obtaining
the samples and changing what was obtained has no effect. -/
theorem C44_history (h : Samples α) (contents : List α) (ops : List (DsOp α)) :
    (ops.foldl DsState.step (DsState.start h contents)).ds.view
        (ops.foldl DsState.step (DsState.start h contents)).heap
      = ops.foldl DsOp.effect contents := by
  rw [(DsState.run_spec ops (DsState.inv_start h contents)).2]
  congr 1
  exact (allocAll_spec h contents).2.2.1

/-- **C44** (reading). The list returned by `get_dataset_samples` after any history has the contents
of the data set. -/
theorem C44_get_contents (h : Samples α) (contents : List α) (ops : List (DsOp α)) :
    let s := ops.foldl DsState.step (DsState.start h contents)
    (s.ds.getSamples s.heap).2.map (s.ds.getSamples s.heap).1.obj
      = ops.foldl DsOp.effect contents := by
  intro s
  have hv : s.ds.view s.heap = _ := C44_history h contents ops
  rw [← hv]
  show (s.ds.refs.map (· + s.heap.next)).map _ = s.ds.refs.map _
  rw [List.map_map]
  refine List.map_congr_left fun r hr => ?_
  simp [InMemory.getSamples, Samples.deepcopyList]

/-- **C44** (indexing aliases). Changing the sample returned by indexing changes the data set at
exactly that position, after any history. -/
theorem C44_index_alias (h : Samples α) (contents : List α) (ops : List (DsOp α)) (i : ℕ)
    (f : α → α) :
    let s := ops.foldl DsState.step (DsState.start h contents)
    ∀ r, s.ds.getitem i = .ok r →
      s.ds.view (s.heap.modify r f) = (s.ds.view s.heap).modify i f := by
  intro s r hr
  have hinv := (DsState.run_spec ops (DsState.inv_start h contents)).1
  have hi : s.ds.refs[i]? = some r := by
    have := orRaise_ok.mp hr
    simpa using this
  apply List.ext_getElem?
  intro j
  rw [List.getElem?_modify]
  simp only [InMemory.view, List.getElem?_map]
  by_cases hij : i = j
  · subst hij
    simp [hi, Samples.modify]
  · simp only [hij, if_false]
    cases hj : s.ds.refs[j]? with
    | none => simp
    | some r' =>
      have hne : r' ≠ r := by
        rintro rfl
        obtain ⟨h1, h1'⟩ := List.getElem?_eq_some_iff.mp hi
        obtain ⟨h2, h2'⟩ := List.getElem?_eq_some_iff.mp hj
        exact hij ((List.Nodup.getElem_inj_iff hinv.nodup).mp (h1'.trans h2'.symm))
      simp [Samples.modify, Function.update, hne]

/-- Removing position 1, adding two samples, and removing a negative index (which is ignored). -/
example : [DsOp.remove [1], .getAll, .change 0 0 (· + 100), .add [8, 9], .remove [-1]].foldl
    DsOp.effect [5, 6, 7] = [5, 7, 8, 9] := by decide

/-! ## C43 -/

theorem chunks_spec (ns : List ℕ) (idx : List ℕ) (h : ns.sum ≤ idx.length) :
    (chunks idx ns).flatten = idx.take ns.sum ∧ (chunks idx ns).map List.length = ns := by
  induction ns generalizing idx with
  | nil => simp [chunks]
  | cons n ns ih =>
    rw [List.sum_cons] at h
    obtain ⟨h1, h2⟩ := ih (idx.drop n) (by rw [List.length_drop]; omega)
    constructor
    · rw [chunks, List.flatten_cons, h1, List.sum_cons, List.take_add]
    · rw [chunks, List.map_cons, h2, List.length_take]
      congr 1
      omega

theorem distribute_succ (ls : List ℕ) (n : ℕ) :
    distribute ls (n + 1) = (distribute ls n).modify (n % (distribute ls n).length) (· + 1) := by
  simp [distribute, List.range_succ]

theorem distribute_length (ls : List ℕ) (n : ℕ) : (distribute ls n).length = ls.length := by
  induction n with
  | zero => simp [distribute]
  | succ n ih => rw [distribute_succ, List.length_modify, ih]

theorem sum_modify (l : List ℕ) (i : ℕ) (h : i < l.length) : (l.modify i (· + 1)).sum = l.sum + 1 := by
  induction l generalizing i with
  | nil => simp at h
  | cons x xs ih =>
    cases i with
    | zero => simp [List.modify]; omega
    | succ i =>
      have := ih i (by simpa using h)
      simp [List.modify_succ_cons, this]; omega

theorem distribute_sum (ls : List ℕ) (hl : ls ≠ []) (n : ℕ) :
    (distribute ls n).sum = ls.sum + n := by
  induction n with
  | zero => simp [distribute]
  | succ n ih =>
    have hpos : 0 < (distribute ls n).length := by
      rw [distribute_length]; exact List.length_pos_of_ne_nil hl
    rw [distribute_succ, sum_modify _ _ (Nat.mod_lt _ hpos), ih]; omega

theorem distribute_getElem (ls : List ℕ) (n : ℕ) (hn : n ≤ ls.length) (i : ℕ) :
    (distribute ls n)[i]? = ls[i]?.map fun x => x + if i < n then 1 else 0 := by
  induction n with
  | zero => simp [distribute]
  | succ n ih =>
    rw [distribute_succ, List.getElem?_modify, ih (by omega), distribute_length,
      Nat.mod_eq_of_lt (by omega)]
    cases ls[i]? with
    | none => simp
    | some x =>
      by_cases h1 : n = i
      · subst h1; simp
      · simp only [h1, if_false, Option.map_some, Option.map_eq_map, id_eq, Option.map_id']
        by_cases h2 : i < n
        · simp [h2, show i < n + 1 by omega]
        · simp [h2, show ¬ i < n + 1 by omega]

theorem collectSubsets_ok {d : DS α} {l : List (String × List ℕ)} {out : List (String × DS α)} :
    collectSubsets d l = .ok out ↔
      (∀ p ∈ l, p.2 ≠ []) ∧ out = l.map fun p => (p.1, .subset d p.2) := by
  induction l generalizing out with
  | nil =>
    simp only [collectSubsets, Except.ok.injEq, List.not_mem_nil, false_imp_iff, implies_true,
      true_and, List.map_nil]
    exact eq_comm
  | cons p l ih =>
    obtain ⟨name, idx⟩ := p
    simp only [collectSubsets]
    by_cases hi : idx = []
    · subst hi; simp
    · have : ¬ idx.length < 1 := by
        have := List.length_pos_of_ne_nil hi; omega
      rw [if_neg this]
      cases hc : collectSubsets d l with
      | error e =>
        simp only [Except.map, reduceCtorEq, false_iff, not_and]
        intro hall ho
        have := (ih (out := l.map fun p => (p.1, .subset d p.2))).mpr
          ⟨fun p hp => hall p (List.mem_cons_of_mem _ hp), rfl⟩
        rw [hc] at this
        cases this
      | ok r =>
        obtain ⟨h1, h2⟩ := ih.mp hc
        simp only [Except.map, Except.ok.injEq, List.map_cons, List.mem_cons, forall_eq_or_imp]
        rw [← h2]
        exact ⟨fun h => ⟨⟨hi, h1⟩, h.symm⟩, fun h => h.2.symm⟩

theorem checkSizes_ok {l : List (String × ℝ)} {u : Unit} :
    checkSizes l = .ok u ↔ ∀ p ∈ l, 0 ≤ p.2 ∧ p.2 ≤ 1 := by
  induction l with
  | nil => simp [checkSizes]
  | cons p l ih =>
    obtain ⟨k, v⟩ := p
    simp only [checkSizes, List.mem_cons, forall_eq_or_imp]
    split_ifs with h
    · simp only [reduceCtorEq, false_iff, not_and]
      intro h'
      rcases h with h | h <;> [exact absurd h'.1 (not_le.mpr h); exact absurd h'.2 (not_le.mpr h)]
    · push Not at h
      rw [ih]
      exact ⟨fun h' => ⟨h, h'⟩, fun h' => h'.2⟩

/-- The sizes of the subsets, as computed by `random_split`. -/
noncomputable def splitLengths (n : ℕ) (fr : List ℝ) : List ℕ :=
  distribute (fr.map fun f => ⌊(n : ℝ) * f⌋₊) (n - (fr.map fun f => ⌊(n : ℝ) * f⌋₊).sum)

theorem floors_sum_le (n : ℕ) (fr : List ℝ) (h0 : ∀ f ∈ fr, 0 ≤ f) :
    (((fr.map fun f => ⌊(n : ℝ) * f⌋₊).sum : ℕ) : ℝ) ≤ n * fr.sum := by
  induction fr with
  | nil => simp
  | cons f fr ih =>
    have h1 := Nat.floor_le (mul_nonneg (Nat.cast_nonneg n) (h0 f List.mem_cons_self))
    have h2 := ih fun g hg => h0 g (List.mem_cons_of_mem _ hg)
    simp only [List.map_cons, List.sum_cons, Nat.cast_add, mul_add]
    linarith

theorem floors_sum_gt (n : ℕ) (fr : List ℝ) (hne : fr ≠ []) :
    (n : ℝ) * fr.sum < ((fr.map fun f => ⌊(n : ℝ) * f⌋₊).sum : ℕ) + fr.length := by
  induction fr with
  | nil => exact absurd rfl hne
  | cons f fr ih =>
    have h1 := Nat.lt_floor_add_one ((n : ℝ) * f)
    simp only [List.map_cons, List.sum_cons, Nat.cast_add, mul_add, List.length_cons, Nat.cast_one]
    by_cases hfr : fr = []
    · subst hfr; simp; linarith
    · have h2 := ih hfr
      push_cast at h2 ⊢
      linarith

theorem splitLengths_sum (n : ℕ) (fr : List ℝ) (h0 : ∀ f ∈ fr, 0 ≤ f) (h1 : fr.sum ≤ 1)
    (hne : fr ≠ []) : (splitLengths n fr).sum = n := by
  have h := floors_sum_le n fr h0
  have h' : (((fr.map fun f => ⌊(n : ℝ) * f⌋₊).sum : ℕ) : ℝ) ≤ n := by
    have : (n : ℝ) * fr.sum ≤ n * 1 := mul_le_mul_of_nonneg_left h1 (Nat.cast_nonneg n)
    linarith
  have h'' : (fr.map fun f => ⌊(n : ℝ) * f⌋₊).sum ≤ n := by exact_mod_cast h'
  rw [splitLengths, distribute_sum _ (by simpa using hne)]
  omega

theorem not_close_zero : ¬ mathIsCloseOne 0 := by
  unfold mathIsCloseOne; norm_num

theorem mathIsCloseOne_one : mathIsCloseOne 1 := by unfold mathIsCloseOne; norm_num

theorem npIsCloseOne_one : npIsCloseOne 1 := by unfold npIsCloseOne; norm_num

theorem splitDataset_ok {d : DS α} {sizes : List (String × ℝ)} {perm : List ℕ}
    {subs : List (String × DS α)} :
    splitDataset d sizes perm = .ok subs ↔
      (∀ p ∈ sizes, 0 ≤ p.2 ∧ p.2 ≤ 1) ∧ npIsCloseOne (sizes.map Prod.snd).sum ∧
      mathIsCloseOne (sizes.map Prod.snd).sum ∧ (sizes.map Prod.snd).sum ≤ 1 ∧
      (∀ p ∈ (sizes.map Prod.fst).zip (chunks perm (splitLengths d.len (sizes.map Prod.snd))),
        p.2 ≠ []) ∧
      subs = ((sizes.map Prod.fst).zip
        (chunks perm (splitLengths d.len (sizes.map Prod.snd)))).map
          fun p => (p.1, .subset d p.2) := by
  unfold splitDataset
  simp only [bind_ok_iff, raiseIf_ok, not_not, checkSizes_ok, collectSubsets_ok, exists_and_left,
    exists_const]
  unfold randomSplit
  constructor
  · rintro ⟨h1, h2, idx, h3, h4, h5⟩
    split_ifs at h3 with h
    obtain rfl := Except.ok.inj h3
    exact ⟨h1, h2, h.1, h.2, h4, h5⟩
  · rintro ⟨h1, h2, h3, h4, h5, h6⟩
    exact ⟨h1, h2, _, if_pos ⟨h3, h4⟩, h5, h6⟩

theorem chunks_length (ns idx : List ℕ) : (chunks idx ns).length = ns.length := by
  induction ns generalizing idx with
  | nil => rfl
  | cons n ns ih => simp [chunks, ih]

theorem splitLengths_length (n : ℕ) (fr : List ℝ) : (splitLengths n fr).length = fr.length := by
  rw [splitLengths, distribute_length, List.length_map]

/-- **C43** (partition). When `split_dataset` returns, whatever permutation was drawn, there is one
nonempty subset of the data set for each name, in order, and every index of the data set belongs to
exactly one subset and occurs there once: the concatenated index lists are a permutation of
`0, …, len - 1`. -/
theorem C43_partition {d : DS α} {sizes : List (String × ℝ)} {perm : List ℕ}
    {subs : List (String × DS α)} (hperm : perm.Perm (List.range d.len))
    (h : splitDataset d sizes perm = .ok subs) :
    ∃ idx : List (List ℕ), subs = (sizes.map Prod.fst).zipWith (fun s i => (s, .subset d i)) idx ∧
      idx.length = sizes.length ∧ (∀ i ∈ idx, i ≠ []) ∧
      idx.flatten.Perm (List.range d.len) := by
  obtain ⟨h1, -, h3, h4, h5, h6⟩ := splitDataset_ok.mp h
  have hne : sizes.map Prod.snd ≠ [] := by
    intro e
    rw [e] at h3
    exact not_close_zero h3
  have h0 : ∀ f ∈ sizes.map Prod.snd, 0 ≤ f := by
    intro f hf
    obtain ⟨p, hp, rfl⟩ := List.mem_map.mp hf
    exact (h1 p hp).1
  have hlen : perm.length = d.len := by rw [hperm.length_eq, List.length_range]
  have hsum := splitLengths_sum d.len _ h0 h4 hne
  have hc := chunks_spec (splitLengths d.len (sizes.map Prod.snd)) perm (by omega)
  refine ⟨chunks perm (splitLengths d.len (sizes.map Prod.snd)), ?_, ?_, ?_, ?_⟩
  · rw [h6, List.zip, List.map_zipWith]
  · rw [chunks_length, splitLengths_length, List.length_map]
  · intro i hi
    obtain ⟨k, hk, rfl⟩ := List.mem_iff_getElem.mp hi
    have hk' : k < (sizes.map Prod.fst).length := by
      rw [chunks_length, splitLengths_length] at hk
      simpa using hk
    exact h5 ((sizes.map Prod.fst)[k], _)
      (List.mem_iff_getElem.mpr ⟨k, by simp only [List.length_zip]; omega, by simp⟩)
  · rw [hc.1, hsum, ← hlen, List.take_length]
    exact hperm.trans (by rw [hlen])

theorem item_subset_samples (d : DS α) (idx : List ℕ) :
    (DS.subset d idx).samples = idx.map fun (i : ℕ) => d.item (i : ℤ) := by
  apply List.ext_getElem?
  intro j
  unfold DS.samples
  simp only [List.getElem?_map, DS.len, DS.item, pyIndex]
  by_cases hj : j < idx.length
  · rw [List.getElem?_range hj, List.getElem?_eq_getElem hj]
    simp [hj, orRaise, bind, Except.bind]
  · rw [List.getElem?_eq_none (by simpa using hj), List.getElem?_eq_none (by simpa using hj)]
    simp

/-- **C43** (samples). The samples of the subsets together are those of the data set, each as often
as it occurs there. -/
theorem C43_samples {d : DS α} {sizes : List (String × ℝ)} {perm : List ℕ}
    {subs : List (String × DS α)} (hperm : perm.Perm (List.range d.len))
    (h : splitDataset d sizes perm = .ok subs) :
    ((subs.map fun s => s.2.samples).flatten).Perm d.samples := by
  obtain ⟨idx, rfl, hlen, -, hp⟩ := C43_partition hperm h
  have : (((sizes.map Prod.fst).zipWith (fun s i => (s, DS.subset d i)) idx).map
      fun s => s.2.samples) = idx.map fun l => l.map fun (i : ℕ) => d.item (i : ℤ) := by
    rw [List.map_zipWith]
    apply List.ext_getElem?
    intro k
    simp only [List.getElem?_zipWith, List.getElem?_map, item_subset_samples]
    by_cases hk : k < idx.length
    · rw [List.getElem?_eq_getElem hk, List.getElem?_eq_getElem (by omega)]
      simp
    · rw [List.getElem?_eq_none (by omega : idx.length ≤ k)]
      simp
  rw [this, ← List.map_flatten]
  exact hp.map _

/-- **C43** (sizes). For fractions adding to one, subset `k` has `⌊n fₖ⌋` samples, plus one for the
first `n - ∑ ⌊n fⱼ⌋` subsets. -/
theorem C43_sizes {d : DS α} {sizes : List (String × ℝ)} {perm : List ℕ}
    {subs : List (String × DS α)} (hperm : perm.Perm (List.range d.len))
    (hone : (sizes.map Prod.snd).sum = 1)
    (h : splitDataset d sizes perm = .ok subs) (k : ℕ) (name : String) (f : ℝ)
    (hk : sizes[k]? = some (name, f)) :
    ∃ sub, subs[k]? = some (name, sub) ∧
      sub.len = ⌊(d.len : ℝ) * f⌋₊ +
        if k < d.len - (sizes.map fun p => ⌊(d.len : ℝ) * p.2⌋₊).sum then 1 else 0 := by
  obtain ⟨h1, -, h3, h4, h5, h6⟩ := splitDataset_ok.mp h
  have hne : sizes.map Prod.snd ≠ [] := by
    intro e
    rw [e] at h3
    exact not_close_zero h3
  have h0 : ∀ f ∈ sizes.map Prod.snd, 0 ≤ f := by
    intro f hf
    obtain ⟨p, hp, rfl⟩ := List.mem_map.mp hf
    exact (h1 p hp).1
  have hlen : perm.length = d.len := by rw [hperm.length_eq, List.length_range]
  have hsum := splitLengths_sum d.len _ h0 h4 hne
  have hc := chunks_spec (splitLengths d.len (sizes.map Prod.snd)) perm (by omega)
  have hgt := floors_sum_gt d.len _ hne
  rw [hone, mul_one] at hgt
  have hgt' : d.len < ((sizes.map Prod.snd).map fun f => ⌊(d.len : ℝ) * f⌋₊).sum
      + (sizes.map Prod.snd).length := by exact_mod_cast hgt
  have hget := distribute_getElem ((sizes.map Prod.snd).map fun f => ⌊(d.len : ℝ) * f⌋₊)
    (d.len - ((sizes.map Prod.snd).map fun f => ⌊(d.len : ℝ) * f⌋₊).sum)
    (by rw [List.length_map]; omega) k
  have hlk : (splitLengths d.len (sizes.map Prod.snd))[k]? = _ := hget
  rw [← hc.2] at hlk
  simp only [List.getElem?_map, hk, Option.map_some, List.map_map] at hlk
  obtain ⟨c, hck, hcl⟩ := Option.map_eq_some_iff.mp hlk
  refine ⟨.subset d c, ?_, hcl⟩
  rw [h6, List.getElem?_map, List.zip, List.getElem?_zipWith, List.getElem?_map, hk, hck]
  rfl

/-- **C43** (success). Fractions adding to one, none so small that its share rounds down to no
sample, are accepted. -/
theorem C43_succeeds (d : DS α) (sizes : List (String × ℝ)) (perm : List ℕ)
    (hperm : perm.Perm (List.range d.len)) (hone : (sizes.map Prod.snd).sum = 1)
    (h0 : ∀ p ∈ sizes, 0 ≤ p.2) (hbig : ∀ p ∈ sizes, 1 ≤ (d.len : ℝ) * p.2) :
    ∃ subs, splitDataset d sizes perm = .ok subs := by
  have hle : ∀ p ∈ sizes, p.2 ≤ 1 := by
    intro p hp
    rw [← hone]
    exact List.single_le_sum (by
      intro x hx
      obtain ⟨q, hq, rfl⟩ := List.mem_map.mp hx
      exact h0 q hq) _ (List.mem_map_of_mem hp)
  have hne : sizes.map Prod.snd ≠ [] := by
    intro e
    rw [e] at hone
    simp at hone
  have h0' : ∀ f ∈ sizes.map Prod.snd, 0 ≤ f := by
    intro f hf
    obtain ⟨p, hp, rfl⟩ := List.mem_map.mp hf
    exact h0 p hp
  have hlen : perm.length = d.len := by rw [hperm.length_eq, List.length_range]
  have hsum := splitLengths_sum d.len _ h0' hone.le hne
  have hc := chunks_spec (splitLengths d.len (sizes.map Prod.snd)) perm (by omega)
  have hgt := floors_sum_gt d.len _ hne
  rw [hone, mul_one] at hgt
  have hgt' : d.len < ((sizes.map Prod.snd).map fun f => ⌊(d.len : ℝ) * f⌋₊).sum
      + (sizes.map Prod.snd).length := by exact_mod_cast hgt
  refine ⟨_, splitDataset_ok.mpr ⟨fun p hp => ⟨h0 p hp, hle p hp⟩, hone ▸ npIsCloseOne_one,
    hone ▸ mathIsCloseOne_one, hone.le, ?_, rfl⟩⟩
  intro p hp
  have hp2 := (List.of_mem_zip (a := p.1) (b := p.2) hp).2
  have hmem : p.2.length ∈ splitLengths d.len (sizes.map Prod.snd) := by
    rw [← hc.2]; exact List.mem_map_of_mem hp2
  obtain ⟨k, hk⟩ := List.mem_iff_getElem?.mp hmem
  have hget := distribute_getElem ((sizes.map Prod.snd).map fun f => ⌊(d.len : ℝ) * f⌋₊)
    (d.len - ((sizes.map Prod.snd).map fun f => ⌊(d.len : ℝ) * f⌋₊).sum)
    (by rw [List.length_map]; omega) k
  rw [splitLengths] at hk
  rw [hk, eq_comm] at hget
  obtain ⟨x, hx, hxl⟩ := Option.map_eq_some_iff.mp hget
  have hxm := List.mem_of_getElem? hx
  obtain ⟨f, hf, rfl⟩ := List.mem_map.mp hxm
  obtain ⟨q, hq, rfl⟩ := List.mem_map.mp hf
  have : 1 ≤ ⌊(d.len : ℝ) * q.2⌋₊ := Nat.le_floor (by exact_mod_cast hbig q hq)
  intro e
  rw [e, List.length_nil] at hxl
  omega

/-- **C43** (rejected fractions). A fraction outside `[0, 1]`, or fractions not adding to one within
the tolerance, raise; fractions rounded so that the sum is within the tolerance of `split_dataset`
but not within the smaller one of `torch`, or above one, raise too. -/
theorem C43_rejected (d : DS α) (sizes : List (String × ℝ)) (perm : List ℕ) :
    ((∃ p ∈ sizes, p.2 < 0 ∨ 1 < p.2) ∨ 1 / 10 ^ 5 + 1 / 10 ^ 8 < |(sizes.map Prod.snd).sum - 1| ∨
      1 < (sizes.map Prod.snd).sum ∨ (sizes.map Prod.snd).sum < 1 - 1 / 10 ^ 9) →
    ∃ e, splitDataset d sizes perm = .error e := by
  intro h
  cases hs : splitDataset d sizes perm with
  | error e => exact ⟨e, rfl⟩
  | ok subs =>
    exfalso
    obtain ⟨h1, h2, h3, h4, -, -⟩ := splitDataset_ok.mp hs
    rcases h with ⟨p, hp, h⟩ | h | h | h
    · have := h1 p hp
      rcases h with h | h <;> linarith
    · unfold npIsCloseOne at h2; linarith
    · linarith
    · unfold mathIsCloseOne at h3
      have hs0 : 0 ≤ (sizes.map Prod.snd).sum := List.sum_nonneg (by
        intro x hx
        obtain ⟨q, hq, rfl⟩ := List.mem_map.mp hx
        exact (h1 q hq).1)
      rw [abs_of_nonneg hs0, max_eq_right h4, abs_of_nonpos (by linarith)] at h3
      linarith

/-- **C43** (parent indexes). Going from a subset to its parent, or through any number of nested
subsets, yields indexes denoting the same samples. -/
theorem C43_parent_indices {d r : DS α} {l l' : List ℤ} (h : Up d l r l') :
    l.map d.item = l'.map r.item := by
  induction h with
  | refl => rfl
  | @step p idx l out r l' hout _ ih =>
    rw [← ih, List.map_map]
    rename_i hup
    clear ih hup
    replace hout : l.mapM (pyIndex idx) = .ok out := hout
    induction l generalizing out with
    | nil =>
      obtain rfl : [] = out := by simpa [pure, Except.pure] using hout
      rfl
    | cons i l ihl =>
      rw [List.mapM_cons] at hout
      obtain ⟨j, hj, hout⟩ := bind_ok hout
      obtain ⟨js, hjs, hout⟩ := bind_ok hout
      obtain rfl := Except.ok.inj hout
      rw [List.map_cons, List.map_cons]
      congr 1
      · simp [DS.item, hj, bind, Except.bind]
      · exact ihl hjs

/-- **C43** (parent indexes exist). Valid indexes of a subset are mapped to indexes of its parent. -/
theorem C43_parent_indices_ok (p : DS α) (idx : List ℕ) (l : List ℤ)
    (hl : ∀ i ∈ l, -(idx.length : ℤ) ≤ i ∧ i < idx.length) :
    ∃ out, parentIndices (.subset p idx) l = .ok out ∧ out.length = l.length ∧ ∀ j ∈ out, j ∈ idx := by
  show ∃ out, l.mapM (pyIndex idx) = .ok out ∧ _
  induction l with
  | nil => exact ⟨[], rfl, rfl, by simp⟩
  | cons i l ih =>
    obtain ⟨out, ho, hlen, hmem⟩ := ih fun i hi => hl i (List.mem_cons_of_mem _ hi)
    have hi := hl i List.mem_cons_self
    have : ∃ j, pyIndex idx i = .ok j ∧ j ∈ idx := by
      unfold pyIndex
      by_cases h0 : 0 ≤ i
      · have hlt : i.toNat < idx.length := by omega
        refine ⟨idx[i.toNat], ?_, List.getElem_mem _⟩
        rw [if_pos h0, List.getElem?_eq_getElem hlt]; rfl
      · have hlt : ((idx.length : ℤ) + i).toNat < idx.length := by omega
        refine ⟨idx[((idx.length : ℤ) + i).toNat], ?_, List.getElem_mem _⟩
        rw [if_neg h0, if_pos hi.1, List.getElem?_eq_getElem hlt]; rfl
    obtain ⟨j, hj, hjm⟩ := this
    refine ⟨j :: out, ?_, by simp [hlen], ?_⟩
    · rw [List.mapM_cons, hj, ho]; rfl
    · intro x hx
      rcases List.mem_cons.mp hx with rfl | hx
      · exact hjm
      · exact hmem x hx

/-- **C43** (not a subset). -/
theorem C43_parent_of_base (s : List α) (l : List ℤ) :
    parentIndices (.base s) l = .error .runtimeError := rfl

/-- Ten samples split 70/30 along any permutation. -/
example (perm : List ℕ) (hp : perm.Perm (List.range 10)) :
    ∃ subs, splitDataset (.base [0, 1, 2, 3, 4, 5, 6, 7, 8, 9]) [("training", 0.7), ("testing", 0.3)]
      perm = .ok subs := by
  refine C43_succeeds _ _ _ hp (by norm_num) ?_ ?_ <;>
  · intro p hp
    simp only [List.mem_cons, List.not_mem_nil, or_false] at hp
    rcases hp with rfl | rfl <;> norm_num [DS.len]

/-- A subset of a subset. -/
example : Up (.subset (.subset (.base [10, 11, 12, 13]) [3, 1, 0]) [2, 0]) [1, -2]
    (.base [10, 11, 12, 13]) [3, 0] :=
  .step (out := [0, 2]) (by rfl) (.step (out := [3, 0]) (by rfl) (.refl _ _))

end Hooke
