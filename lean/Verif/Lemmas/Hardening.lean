import Verif.Model.Hardening
import Verif.Spec.Hardening
import Mathlib.Tactic.Linarith
import Mathlib.Tactic.FieldSimp

noncomputable section

namespace Hooke

open Spec

theorem Spec.IsTable.lt {pts : List (ℝ × ℝ)} (h : IsTable pts) {i j : ℕ} (hij : i < j)
    (hj : j < pts.length) : (pts[i]).1 < (pts[j]).1 := by
  induction j with
  | zero => omega
  | succ j ih =>
    rcases Nat.lt_succ_iff_lt_or_eq.mp hij with h1 | h1
    · exact (ih h1 (by omega)).trans (h.incr j hj)
    · subst h1; exact h.incr i hj

theorem Spec.MonotoneTable.le {pts : List (ℝ × ℝ)} (h : MonotoneTable pts) {i j : ℕ} (hij : i ≤ j)
    (hj : j < pts.length) : (pts[i]).2 ≤ (pts[j]).2 := by
  induction j with
  | zero => have : i = 0 := by omega
            subst this; exact le_refl _
  | succ j ih =>
    rcases Nat.le_succ_iff.mp hij with h1 | h1
    · exact (ih h1 (by omega)).trans (h j hj)
    · subst h1; exact le_refl _

theorem countP_segment {pts : List (ℝ × ℝ)} (h : IsTable pts) {x : ℝ} {k : ℕ}
    (hk : k ≤ pts.length) (hlo : ∀ (i : ℕ) (hi : i < pts.length), i < k → (pts[i]).1 ≤ x)
    (hhi : ∀ (i : ℕ) (hi : i < pts.length), k ≤ i → x < (pts[i]).1) :
    (pts.map Prod.fst).countP (· ≤ x) = k := by
  rw [List.countP_map, ← List.take_append_drop k pts, List.countP_append]
  have h1 : (pts.take k).countP ((fun y => decide (y ≤ x)) ∘ Prod.fst) = (pts.take k).length := by
    rw [List.countP_eq_length]
    intro p hp
    obtain ⟨i, hi, rfl⟩ := List.getElem_of_mem hp
    simp only [List.length_take] at hi
    simp only [List.getElem_take, Function.comp, decide_eq_true_eq]
    exact hlo i (by omega) (by omega)
  have h2 : (pts.drop k).countP ((fun y => decide (y ≤ x)) ∘ Prod.fst) = 0 := by
    rw [List.countP_eq_zero]
    intro p hp
    obtain ⟨i, hi, rfl⟩ := List.getElem_of_mem hp
    simp only [List.length_drop] at hi
    simp only [List.getElem_drop, Function.comp, decide_eq_true_eq, not_le]
    exact hhi (k + i) (by omega) (by omega)
  rw [h1, h2, List.length_take]
  omega

/-- Segment of a point of a segment, its right end excluded. -/
theorem segIndex_eq {pts : List (ℝ × ℝ)} (h : IsTable pts) {x : ℝ} {i : ℕ}
    (hi : i + 1 < pts.length) (hlo : (pts[i]).1 ≤ x) (hhi : x < (pts[i + 1]).1) :
    segIndex (pts.map Prod.fst) x = i := by
  have hc := countP_segment h (x := x) (k := i + 1) (by omega)
    (fun j hj hji => by
      rcases Nat.lt_succ_iff_lt_or_eq.mp hji with h1 | h1
      · exact (h.lt h1 (by omega)).le.trans hlo
      · subst h1; exact hlo)
    (fun j hj hji => by
      rcases Nat.le_iff_lt_or_eq.mp hji with h1 | h1
      · exact hhi.trans (h.lt h1 hj)
      · subst h1; exact hhi)
  rw [segIndex, hc, List.length_map]
  omega

theorem segIndex_last {pts : List (ℝ × ℝ)} (h : IsTable pts) {x : ℝ}
    (hx : (pts[pts.length - 1]'(by have := h.two; omega)).1 ≤ x) :
    segIndex (pts.map Prod.fst) x = pts.length - 2 := by
  have := h.two
  have hc := countP_segment h (x := x) (k := pts.length) le_rfl
    (fun j hj _ => by
      rcases Nat.lt_or_ge j (pts.length - 1) with h1 | h1
      · exact (h.lt h1 (by omega)).le.trans hx
      · have : j = pts.length - 1 := by omega
        subst this; exact hx)
    (fun j hj hji => by omega)
  rw [segIndex, hc, List.length_map]
  omega

theorem getD_fst {pts : List (ℝ × ℝ)} {i : ℕ} (hi : i < pts.length) :
    (pts.map Prod.fst).getD i 0 = (pts[i]).1 := by
  simp [List.getD_eq_getElem?_getD, hi]

theorem getD_snd {pts : List (ℝ × ℝ)} {i : ℕ} (hi : i < pts.length) :
    (pts.map Prod.snd).getD i 0 = (pts[i]).2 := by
  simp [List.getD_eq_getElem?_getD, hi]

/-- Every point between the first and the last abscissa lies in a segment. -/
theorem exists_segment {pts : List (ℝ × ℝ)} (h : IsTable pts) {x : ℝ}
    (hlo : (pts[0]'(by have := h.two; omega)).1 ≤ x)
    (hhi : x < (pts[pts.length - 1]'(by have := h.two; omega)).1) :
    ∃ (i : ℕ) (hi : i + 1 < pts.length), (pts[i]).1 ≤ x ∧ x < (pts[i + 1]).1 := by
  have h2 := h.two
  by_contra hc
  push Not at hc
  have : ∀ (i : ℕ) (hi : i < pts.length), (pts[i]).1 ≤ x := by
    intro i
    induction i with
    | zero => intro _; exact hlo
    | succ i ih => intro hi; exact hc i hi (ih (by omega))
  exact absurd (this (pts.length - 1) (by omega)) (not_le.mpr hhi)

end Hooke
