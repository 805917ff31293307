import Verif.Lemmas.Kelvin

namespace Hooke

open Spec

theorem same_one {a b : Tensor} {p : ℕ} (ha : a.shape = [p]) (hb : b.shape = [p])
    (h : ∀ k < p, a.val [k] = b.val [k]) : SameTensor a b := by
  refine ⟨by rw [ha, hb], ?_⟩
  intro idx hi
  unfold InBounds at hi
  rw [ha] at hi
  rcases hi with _ | ⟨h1, hi⟩
  cases hi
  exact h _ h1

theorem same_two {a b : Tensor} {p q : ℕ} (ha : a.shape = [p, q]) (hb : b.shape = [p, q])
    (h : ∀ i < p, ∀ j < q, a.val [i, j] = b.val [i, j]) : SameTensor a b := by
  refine ⟨by rw [ha, hb], ?_⟩
  intro idx hi
  unfold InBounds at hi
  rw [ha] at hi
  rcases hi with _ | ⟨h1, hi⟩
  rcases hi with _ | ⟨h2, hi⟩
  cases hi
  exact h _ h1 _ h2

theorem same_four {a b : Tensor} {p q r s : ℕ} (ha : a.shape = [p, q, r, s])
    (hb : b.shape = [p, q, r, s])
    (h : ∀ i < p, ∀ j < q, ∀ k < r, ∀ l < s, a.val [i, j, k, l] = b.val [i, j, k, l]) :
    SameTensor a b := by
  refine ⟨by rw [ha, hb], ?_⟩
  intro idx hi
  unfold InBounds at hi
  rw [ha] at hi
  rcases hi with _ | ⟨h1, hi⟩
  rcases hi with _ | ⟨h2, hi⟩
  rcases hi with _ | ⟨h3, hi⟩
  rcases hi with _ | ⟨h4, hi⟩
  cases hi
  exact h _ h1 _ h2 _ h3 _ h4

/-- Every position of a duplicate-free order is the position of a listed component. -/
theorem pos_of_lt {co : List Comp} (h : co.Nodup) {p : ℕ} (hp : p < co.length) :
    ∃ c ∈ co, co.idxOf c = p := ⟨co[p], List.getElem_mem hp, h.idxOf_getElem p hp⟩

theorem same_mf {co : List Comp} (h : co.Nodup) {a b : Tensor} (ha : a.shape = [co.length])
    (hb : b.shape = [co.length]) (hv : ∀ c ∈ co, a.val [co.idxOf c] = b.val [co.idxOf c]) :
    SameTensor a b := by
  refine same_one ha hb ?_
  intro k hk
  obtain ⟨c, hc, rfl⟩ := pos_of_lt h hk
  exact hv c hc

theorem same_mf2 {co : List Comp} (h : co.Nodup) {a b : Tensor}
    (ha : a.shape = [co.length, co.length]) (hb : b.shape = [co.length, co.length])
    (hv : ∀ c ∈ co, ∀ d ∈ co, a.val [co.idxOf c, co.idxOf d] = b.val [co.idxOf c, co.idxOf d]) :
    SameTensor a b := by
  refine same_two ha hb ?_
  intro k hk l hl
  obtain ⟨c, hc, rfl⟩ := pos_of_lt h hk
  obtain ⟨d, hd, rfl⟩ := pos_of_lt h hl
  exact hv c hc d hd

end Hooke
