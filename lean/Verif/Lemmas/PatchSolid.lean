import Verif.Lemmas.PatchArea

/-!
# Lemmas for C147: the facets of solid elements
-/

noncomputable section

namespace Hooke

open Spec

/-- Component `l` of the cross product. -/
def crossC (u v : ℕ → ℝ) (l : ℕ) : ℝ :=
  u ((l + 1) % 3) * v ((l + 2) % 3) - u ((l + 2) % 3) * v ((l + 1) % 3)

/-- Share of a corner in a triangular facet. -/
def triCorner (a b c : ℕ → ℝ) (l : ℕ) : ℝ := (crossC a b l + crossC b c l + crossC c a l) / 6

/-- Share of the corner `a` in the facet with corners `a, b, c, d`. -/
def quadCorner (a b c d : ℕ → ℝ) (l : ℕ) : ℝ :=
  (crossC a b l + crossC d a l) / 6 + (crossC b c l + crossC b d l + crossC c d l) / 12

/-- Share of the corner in position `i` in a facet. -/
def faceShare (p : List (ℕ → ℝ)) (i l : ℕ) : ℝ :=
  match p, i with
  | [a, b, c], 0 => triCorner a b c l
  | [a, b, c], 1 => triCorner b c a l
  | [a, b, c], 2 => triCorner c a b l
  | [a, b, c, d], 0 => quadCorner a b c d l
  | [a, b, c, d], 1 => quadCorner b c d a l
  | [a, b, c, d], 2 => quadCorner c d a b l
  | [a, b, c, d], 3 => quadCorner d a b c l
  | _, _ => 0

theorem length_four {α : Type} {E : List α} (h : E.length = 4) : ∃ a b c d, E = [a, b, c, d] := by
  match E, h with
  | [a, b, c, d], _ => exact ⟨a, b, c, d, rfl⟩

theorem face_reverse (x : ℕ → ℕ → ℝ) (E : List ℕ) (hE : E.length = 3 ∨ E.length = 4) (n l : ℕ) :
    nodeShare faceShare x E.reverse n l = -nodeShare faceShare x E n l := by
  rcases hE with h | h
  · obtain ⟨a, b, c, rfl⟩ := List.length_eq_three.1 h
    simp only [nodeShare, List.reverse_cons, List.reverse_nil, List.nil_append, List.cons_append,
      List.length_cons, List.length_nil, Finset.sum_range_succ, Finset.sum_range_zero, List.map_cons,
      List.map_nil, List.getD_cons_zero, List.getD_cons_succ, faceShare, zero_add, Nat.reduceAdd,
      triCorner, crossC]
    split_ifs <;> ring
  · obtain ⟨a, b, c, d, rfl⟩ := length_four h
    simp only [nodeShare, List.reverse_cons, List.reverse_nil, List.nil_append, List.cons_append,
      List.length_cons, List.length_nil, Finset.sum_range_succ, Finset.sum_range_zero, List.map_cons,
      List.map_nil, List.getD_cons_zero, List.getD_cons_succ, faceShare, zero_add, Nat.reduceAdd,
      quadCorner, crossC]
    split_ifs <;> ring

theorem face_rotate_one (x : ℕ → ℕ → ℝ) (E : List ℕ) (hE : E.length = 3 ∨ E.length = 4) (n l : ℕ) :
    nodeShare faceShare x (E.rotate 1) n l = nodeShare faceShare x E n l := by
  rcases hE with h | h
  · obtain ⟨a, b, c, rfl⟩ := List.length_eq_three.1 h
    simp only [nodeShare, List.rotate_cons_succ, List.rotate_zero, List.cons_append, List.nil_append,
      List.length_cons, List.length_nil, Finset.sum_range_succ, Finset.sum_range_zero, List.map_cons,
      List.map_nil, List.getD_cons_zero, List.getD_cons_succ, faceShare, zero_add, Nat.reduceAdd]
    ring
  · obtain ⟨a, b, c, d, rfl⟩ := length_four h
    simp only [nodeShare, List.rotate_cons_succ, List.rotate_zero, List.cons_append, List.nil_append,
      List.length_cons, List.length_nil, Finset.sum_range_succ, Finset.sum_range_zero, List.map_cons,
      List.map_nil, List.getD_cons_zero, List.getD_cons_succ, faceShare, zero_add, Nat.reduceAdd]
    ring

theorem face_startAt (x : ℕ → ℕ → ℝ) (E : List ℕ) (hE : E.length = 3 ∨ E.length = 4) (n l : ℕ) :
    nodeShare faceShare x (startAt n E) n l = nodeShare faceShare x E n l := by
  unfold startAt
  generalize E.idxOf n = k
  induction k with
  | zero => rw [List.rotate_zero]
  | succ k ih => rw [← List.rotate_rotate, face_rotate_one x _ (by simpa using hE), ih]

/-- The shares of an interior node in the facets of a solid mesh cancel. -/
theorem solid_cancel {m : MeshTopology} {typ : ℕ → ElementType}
    (ht : ∀ k, IsElement m k → (typ k).dim = 3) (xs : ℕ → ℕ → ℝ) {node : ℕ}
    (h : InteriorSolid m typ node) (l : ℕ) :
    ((boundaryAt m typ node).map fun E => nodeShare faceShare xs E node l).sum = 0 := by
  have hlen : ∀ e : ElementType, e.dim = 3 → ∀ E ∈ elementBoundary e, E.length = 3 ∨ E.length = 4 := by
    intro e
    cases e <;> decide
  have hE : ∀ E ∈ boundaryAt m typ node, E.length = 3 ∨ E.length = 4 := by
    intro E hE
    obtain ⟨k, hk, hE⟩ := List.mem_flatMap.1 (List.mem_of_mem_filter hE)
    obtain ⟨E0, hE0, rfl⟩ := List.mem_map.1 hE
    rw [List.length_map]
    have hk' : IsElement m (k + 1) := ⟨by omega, by have := List.mem_range.1 hk; omega⟩
    exact hlen _ (ht _ hk') _ hE0
  have h1 := (h.map fun E => nodeShare faceShare xs E node l).sum_eq
  rw [List.map_map, List.map_map] at h1
  have h2 : ((boundaryAt m typ node).map ((fun E => nodeShare faceShare xs E node l) ∘
      fun E => startAt node E.reverse)).sum =
      -((boundaryAt m typ node).map fun E => nodeShare faceShare xs E node l).sum := by
    rw [sum_map_neg_list]
    congr 1
    refine List.map_congr_left fun E hE' => ?_
    have := hE E hE'
    rw [Function.comp_apply, face_startAt _ _ (by simpa using this), face_reverse xs E this]
  have h3 : ((boundaryAt m typ node).map ((fun E => nodeShare faceShare xs E node l) ∘ startAt node)).sum =
      ((boundaryAt m typ node).map fun E => nodeShare faceShare xs E node l).sum := by
    congr 1
    exact List.map_congr_left fun E hE' => face_startAt _ _ (hE E hE') _ _
  rw [h2, h3] at h1
  linarith

/-! ## `tetra4` -/

theorem tetra4_matrix {n : ℕ} {rule : GaussRule 3} (h : gaussTetrahedral n = .ok rule) (a b c : Fin 4) :
    faceMatrix 4 tetra4LocalDeriv rule a b c =
      1 / 6 * det3 (tetra4LocalDeriv 0 a) (tetra4LocalDeriv 0 b) (tetra4LocalDeriv 0 c) := by
  have hc : ∀ c : Fin 3 → ℝ, tetra4LocalDeriv c = tetra4LocalDeriv 0 := fun _ => rfl
  simp only [faceMatrix, hc]
  have hw := (C14_points .tetrahedral n rule h).2.2
  generalize det3 (tetra4LocalDeriv 0 a) (tetra4LocalDeriv 0 b) (tetra4LocalDeriv 0 c) = D
  have : ∀ r : GaussRule 3, (r.map fun cw => cw.2 * D).sum = (r.map (·.2)).sum * D := by
    intro r
    induction r with
    | nil => simp
    | cons x r ih => simp only [List.map_cons, List.sum_cons, ih, add_mul]
  rw [this, hw]
  norm_num [refVolume]

theorem tetra4_faces (y : ℕ → ℕ → ℝ) (a : Fin 4) (l : Fin 3) :
    ∑ b, ∑ c, (1 / 6 * det3 (tetra4LocalDeriv 0 a) (tetra4LocalDeriv 0 b) (tetra4LocalDeriv 0 c)) *
      y b ((l + 1 : Fin 3) : ℕ) * y c ((l + 2 : Fin 3) : ℕ) =
      ((elementBoundary .tetra4).map fun E => nodeShare faceShare y E a l).sum := by
  have e1 : (((l + 1 : Fin 3) : ℕ)) = ((l : ℕ) + 1) % 3 := by fin_cases l <;> rfl
  have e2 : (((l + 2 : Fin 3) : ℕ)) = ((l : ℕ) + 2) % 3 := by fin_cases l <;> rfl
  rw [e1, e2]
  fin_cases a <;>
    (simp [elementBoundary, nodeShare, faceShare, triCorner, crossC, det3, tetra4LocalDeriv,
      Fin.sum_univ_succ, Finset.sum_range_succ] <;> ring)

end Hooke
