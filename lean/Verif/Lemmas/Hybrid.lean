import Verif.Spec.Hybrid
import Verif.Lemmas.Py

/-!
# Lemmas for hybrid models
-/

namespace Hooke

open Spec

/-- Lexicographic order of the hybridization indices. -/
def LexLe (a b : HybEntry) : Prop :=
  a.indices.1 < b.indices.1 ∨ a.indices.1 = b.indices.1 ∧ a.indices.2 ≤ b.indices.2

/-- Strict lexicographic order. -/
def LexLt (a b : HybEntry) : Prop :=
  a.indices.1 < b.indices.1 ∨ a.indices.1 = b.indices.1 ∧ a.indices.2 < b.indices.2

theorem LexLt.trans {a b c : HybEntry} (h : LexLt a b) (h' : LexLt b c) : LexLt a c := by
  unfold LexLt at *; omega

theorem sortEntries_perm (l : List HybEntry) : (sortEntries l).Perm l :=
  (List.mergeSort_perm _ _).trans (List.mergeSort_perm _ _)

theorem sortEntries_sorted (l : List HybEntry) : (sortEntries l).Pairwise LexLe := by
  set l1 := l.mergeSort fun a b => decide (a.indices.2 ≤ b.indices.2) with hl1
  have h1 : l1.Pairwise fun a b => decide (a.indices.2 ≤ b.indices.2) = true :=
    List.pairwise_mergeSort (fun a b c => by simp; omega) (fun a b => by simp; omega) l
  set l2 := l1.mergeSort fun a b => decide (a.indices.1 ≤ b.indices.1) with hl2
  have tr : ∀ a b c : HybEntry, decide (a.indices.1 ≤ b.indices.1) = true →
      decide (b.indices.1 ≤ c.indices.1) = true → decide (a.indices.1 ≤ c.indices.1) = true := by
    intro a b c; simp; omega
  have tt : ∀ a b : HybEntry, (decide (a.indices.1 ≤ b.indices.1) || decide (b.indices.1 ≤ a.indices.1))
      = true := by intro a b; simp; omega
  have h2 : l2.Pairwise fun a b => decide (a.indices.1 ≤ b.indices.1) = true :=
    List.pairwise_mergeSort tr tt l1
  have hp : l2.Perm l1 := List.mergeSort_perm _ _
  have hf : ∀ r : ℤ, l2.filter (fun e => e.indices.1 = r) = l1.filter (fun e => e.indices.1 = r) := by
    intro r
    have hs : (l1.filter fun e => decide (e.indices.1 = r)).Sublist l2 := by
      refine List.sublist_mergeSort tr tt ?_ List.filter_sublist
      refine List.pairwise_of_forall_mem_list fun a ha b hb => ?_
      simp only [List.mem_filter, decide_eq_true_eq] at ha hb
      simp [ha.2, hb.2]
    have hs2 := hs.filter (fun e => decide (e.indices.1 = r))
    rw [List.filter_filter] at hs2
    simp only [Bool.and_self] at hs2
    exact (hs2.eq_of_length (hp.filter _).length_eq.symm).symm
  show l2.Pairwise LexLe
  rw [List.pairwise_iff_forall_sublist]
  intro a b hab
  have hle := List.pairwise_iff_forall_sublist.mp h2 hab
  simp only [decide_eq_true_eq] at hle
  rcases lt_or_eq_of_le hle with h | h
  · exact .inl h
  · refine .inr ⟨h, ?_⟩
    have hs := hab.filter (fun e => decide (e.indices.1 = b.indices.1))
    simp [h] at hs
    have hf' := hf b.indices.1
    rw [hf'] at hs
    have h3 := List.pairwise_iff_forall_sublist.mp h1 (hs.trans List.filter_sublist)
    simpa using h3

/-- Invariant of the loop. -/
structure ChanInv (s : ChanState) : Prop where
  ne : s.cur ≠ []
  doneNe : ∀ ch ∈ s.done, ch ≠ []
  lex : (s.done.flatten ++ s.cur).Pairwise LexLt
  same : ∀ ch ∈ s.done ++ [s.cur], ∀ a ∈ ch, ∀ b ∈ ch, a.indices.1 = b.indices.1
  incr : (s.done ++ [s.cur]).Pairwise fun c d => ∀ a ∈ c, ∀ b ∈ d, a.indices.1 < b.indices.1

theorem ChanInv.add {s : ChanState} (h : ChanInv s) {e : HybEntry}
    (he : ∀ a ∈ s.done.flatten ++ s.cur, LexLe a e) :
    (∃ a ∈ s.cur, a.indices = e.indices) ∧ addToChannel s e = .error .runtimeError ∨
    ∃ s', addToChannel s e = .ok s' ∧ ChanInv s' ∧
      s'.done.flatten ++ s'.cur = s.done.flatten ++ s.cur ++ [e] := by
  obtain ⟨ini, p, hp⟩ : ∃ ini p, s.cur = ini ++ [p] := by
    rcases List.eq_nil_or_concat s.cur with h' | ⟨ini, p, h'⟩
    · exact absurd h' h.ne
    · exact ⟨ini, p, by simpa using h'⟩
  have hlast : s.cur.getLast? = some p := by simp [hp]
  have hpm : p ∈ s.cur := by simp [hp]
  have hpe := he p (List.mem_append_right _ hpm)
  -- every model so far is before `p` or is `p`
  have hbefore : ∀ a ∈ s.done.flatten ++ s.cur, a = p ∨ LexLt a p := by
    intro a ha
    have hl := h.lex
    rw [hp, ← List.append_assoc, List.pairwise_append] at hl
    rw [hp, ← List.append_assoc] at ha
    rcases List.mem_append.mp ha with ha | ha
    · exact .inr (hl.2.2 a ha p (by simp))
    · exact .inl (by simpa using ha)
  by_cases h1 : e.indices.1 = p.indices.1
  · by_cases h2 : e.indices.2 = p.indices.2
    · refine .inl ⟨⟨p, hpm, ?_⟩, ?_⟩
      · exact (Prod.ext h1 h2).symm
      · simp [addToChannel, hlast, h1, h2]
    · right
      have hlt : LexLt p e := by unfold LexLe at hpe; unfold LexLt; omega
      refine ⟨⟨s.done, s.cur ++ [e]⟩, by simp [addToChannel, hlast, h1, h2],
        ⟨by simp, h.doneNe, ?_, ?_, ?_⟩, by simp⟩
      · show (s.done.flatten ++ (s.cur ++ [e])).Pairwise LexLt
        rw [← List.append_assoc, List.pairwise_append]
        refine ⟨h.lex, by simp, fun a ha b hb => ?_⟩
        obtain rfl := List.mem_singleton.mp hb
        rcases hbefore a ha with rfl | h'
        · exact hlt
        · exact h'.trans hlt
      · intro ch hch a ha b hb
        have hcur := h.same s.cur (by simp)
        rcases List.mem_append.mp hch with hch | hch
        · exact h.same ch (List.mem_append_left _ hch) a ha b hb
        · obtain rfl := List.mem_singleton.mp hch
          have key : ∀ c ∈ s.cur ++ [e], c.indices.1 = p.indices.1 := by
            intro c hc
            rcases List.mem_append.mp hc with hc | hc
            · exact hcur c hc p hpm
            · obtain rfl := List.mem_singleton.mp hc
              exact h1
          rw [key a ha, key b hb]
      · have hi := h.incr
        rw [List.pairwise_append] at hi ⊢
        refine ⟨hi.1, by simp, fun c hc d hd a ha b hb => ?_⟩
        obtain rfl := List.mem_singleton.mp hd
        have h3 := hi.2.2 c hc s.cur (by simp) a ha p hpm
        rcases List.mem_append.mp hb with hb | hb
        · exact hi.2.2 c hc s.cur (by simp) a ha b hb
        · obtain rfl := List.mem_singleton.mp hb
          rw [h1]; exact h3
  · right
    have hlt : p.indices.1 < e.indices.1 := by unfold LexLe at hpe; omega
    have hall : ∀ a ∈ s.done.flatten ++ s.cur, a.indices.1 < e.indices.1 := by
      intro a ha
      rcases hbefore a ha with rfl | h'
      · exact hlt
      · unfold LexLt at h'; omega
    refine ⟨⟨s.done ++ [s.cur], [e]⟩, by simp [addToChannel, hlast, h1], ⟨by simp, ?_, ?_, ?_, ?_⟩,
      by simp⟩
    · intro ch hch
      rcases List.mem_append.mp hch with hch | hch
      · exact h.doneNe ch hch
      · obtain rfl := List.mem_singleton.mp hch
        exact h.ne
    · show ((s.done ++ [s.cur]).flatten ++ [e]).Pairwise LexLt
      simp only [List.flatten_append, List.flatten_cons, List.flatten_nil, List.append_nil]
      rw [List.pairwise_append]
      refine ⟨h.lex, by simp, fun a ha b hb => ?_⟩
      obtain rfl := List.mem_singleton.mp hb
      exact .inl (hall a ha)
    · intro ch hch a ha b hb
      rcases List.mem_append.mp hch with hch | hch
      · exact h.same ch hch a ha b hb
      · obtain rfl := List.mem_singleton.mp hch
        rw [List.mem_singleton.mp ha, List.mem_singleton.mp hb]
    · show ((s.done ++ [s.cur]) ++ [[e]]).Pairwise _
      rw [List.pairwise_append]
      refine ⟨h.incr, by simp, fun c hc d hd a ha b hb => ?_⟩
      obtain rfl := List.mem_singleton.mp hd
      obtain rfl := List.mem_singleton.mp hb
      refine hall a ?_
      rcases List.mem_append.mp hc with hc | hc
      · exact List.mem_append_left _ (List.mem_flatten.mpr ⟨c, hc, ha⟩)
      · obtain rfl := List.mem_singleton.mp hc
        exact List.mem_append_right _ ha

/-- The loop over the remaining models. -/
theorem chanLoop {l : List HybEntry} {s : ChanState} (h : ChanInv s)
    (hl : (s.done.flatten ++ s.cur ++ l).Pairwise LexLe) :
    (¬ (s.done.flatten ++ s.cur ++ l).Pairwise (fun a b => a.indices ≠ b.indices) ∧
      l.foldlM addToChannel s = .error .runtimeError) ∨
    ∃ s', l.foldlM addToChannel s = .ok s' ∧ ChanInv s' ∧
      s'.done.flatten ++ s'.cur = s.done.flatten ++ s.cur ++ l := by
  induction l generalizing s with
  | nil => exact .inr ⟨s, rfl, h, by simp⟩
  | cons e es ih =>
    have hle : ∀ a ∈ s.done.flatten ++ s.cur, LexLe a e := fun a ha =>
      (List.pairwise_append.mp hl).2.2 a ha e List.mem_cons_self
    rcases h.add hle with ⟨⟨a, ha, hae⟩, h2⟩ | ⟨s', h1, h2, h3⟩
    · left
      refine ⟨fun hn => ?_, ?_⟩
      · exact (List.pairwise_append.mp hn).2.2 a (List.mem_append_right _ ha) e
          List.mem_cons_self hae
      · simp [List.foldlM_cons, h2, bind, Except.bind]
    · have hl' : (s'.done.flatten ++ s'.cur ++ es).Pairwise LexLe := by
        rw [h3, List.append_assoc]; simpa using hl
      have e1 : (e :: es).foldlM addToChannel s = es.foldlM addToChannel s' := by
        simp [List.foldlM_cons, h1, bind, Except.bind]
      rw [e1]
      have e2 : s.done.flatten ++ s.cur ++ e :: es = s'.done.flatten ++ s'.cur ++ es := by
        rw [h3]; simp
      rw [e2]
      exact ih h2 hl'

end Hooke
