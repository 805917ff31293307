import Verif.Lemmas.PatchTest

noncomputable section

namespace Hooke

open Spec

/-- Share of a node in an edge, as the component `l` of a vector normal to the edge. -/
def edgeNormal (p : List (ℕ → ℝ)) (i l : ℕ) : ℝ := if l = 0 then edgeShare p i 1 else -edgeShare p i 0

theorem nodeShare_normal (y : ℕ → ℕ → ℝ) (E : List ℕ) (n l : ℕ) :
    nodeShare edgeNormal y E n l =
      if l = 0 then nodeShare edgeShare y E n 1 else -nodeShare edgeShare y E n 0 := by
  simp only [nodeShare, edgeNormal]
  split_ifs with h
  · rfl
  · rw [← Finset.sum_neg_distrib]
    refine Finset.sum_congr rfl fun i _ => ?_
    split_ifs <;> simp

theorem tri3_edges (y : ℕ → ℕ → ℝ) (a : Fin 3) (i : ℕ) :
    ∑ b, tri3Edges a b * y b i = ((elementBoundary .tri3).map fun E => nodeShare edgeShare y E a i).sum := by
  fin_cases a <;>
    (simp [elementBoundary, nodeShare, edgeShare, tri3Edges, Fin.sum_univ_succ, Finset.sum_range_succ] <;> ring)

theorem tri6_edges (y : ℕ → ℕ → ℝ) (a : Fin 6) (i : ℕ) :
    ∑ b, tri6Edges a b * y b i = ((elementBoundary .tri6).map fun E => nodeShare edgeShare y E a i).sum := by
  fin_cases a <;>
    (simp [elementBoundary, nodeShare, edgeShare, tri6Edges, Fin.sum_univ_succ, Finset.sum_range_succ] <;> ring)

theorem quad4_edges (y : ℕ → ℕ → ℝ) (a : Fin 4) (i : ℕ) :
    ∑ b, quad4Edges a b * y b i = ((elementBoundary .quad4).map fun E => nodeShare edgeShare y E a i).sum := by
  fin_cases a <;>
    (simp [elementBoundary, nodeShare, edgeShare, quad4Edges, Fin.sum_univ_succ, Finset.sum_range_succ] <;> ring)

theorem quad8_edges (y : ℕ → ℕ → ℝ) (a : Fin 8) (i : ℕ) :
    ∑ b, quad8Edges a b * y b i = ((elementBoundary .quad8).map fun E => nodeShare edgeShare y E a i).sum := by
  fin_cases a <;>
    (simp [elementBoundary, nodeShare, edgeShare, quad8Edges, Fin.sum_univ_succ, Finset.sum_range_succ] <;> ring)

theorem plane_shares_aux {N : ℕ} (dN : (Fin 2 → ℝ) → Fin N → Fin 2 → ℝ) (rule : GaussRule 2)
    {K : Fin N → Fin N → ℝ} (hK : edgeMatrix N dN rule = K) {Es : List (List ℕ)}
    (hE : ∀ (y : ℕ → ℕ → ℝ) (a : Fin N) (i : ℕ), ∑ b, K a b * y b i =
      (Es.map fun E => nodeShare edgeShare y E a i).sum)
    (y : ℕ → ℕ → ℝ) (a : Fin N) (l : Fin 2) :
    ∑ g ∈ Finset.range rule.length, (rule[g]?.map fun cw => cw.2 * ∑ k,
      ((Matrix.of (dN cw.1)).transpose * Matrix.of (fun (a : Fin N) (i : Fin 2) => y a i)).adjugate l k *
        dN cw.1 a k).getD 0 = (Es.map fun E => nodeShare edgeNormal y E a l).sum := by
  rw [plane_area, hK]
  simp only [nodeShare_normal]
  fin_cases l
  · exact hE y a 1
  · show -∑ b, K a b * y b 0 = (Es.map fun E => -nodeShare edgeShare y E a 0).sum
    rw [hE y a 0, sum_map_neg_list]

theorem plane_shares {e : ElementType} {n : ℕ} (h : (e, n) ∈ planePairs) (rule : GaussRule e.dim)
    (hr : e.init n = .ok rule) (y : ℕ → ℕ → ℝ) (a : Fin e.nNode) (l : Fin e.dim) :
    nodeArea e n rule (fun (a : Fin e.nNode) (i : Fin e.dim) => y a i) a l =
      ((elementBoundary e).map fun E => nodeShare edgeNormal y E a l).sum := by
  have hlen : rule.length = n := by
    by_cases hn : n ∈ e.admissibleGauss
    · obtain ⟨r, h1, h2⟩ := (C14_element_init e n).1 hn
      rw [hr] at h1
      cases h1
      exact h2
    · rw [(C14_element_init e n).2 hn] at hr
      cases hr
  unfold nodeArea
  rw [← hlen]
  simp only [planePairs, List.mem_cons, List.not_mem_nil, or_false, Prod.mk.injEq] at h
  rcases h with ⟨rfl, rfl⟩ | ⟨rfl, rfl⟩ | ⟨rfl, rfl⟩ | ⟨rfl, rfl⟩ | ⟨rfl, rfl⟩ | ⟨rfl, rfl⟩
  · exact plane_shares_aux tri3LocalDeriv rule (tri3_matrix hr) tri3_edges y a l
  · exact plane_shares_aux tri6LocalDeriv rule (tri6_matrix hr) tri6_edges y a l
  · exact plane_shares_aux quad4LocalDeriv rule (quad4_matrix1 hr) quad4_edges y a l
  · exact plane_shares_aux quad4LocalDeriv rule (quad4_matrix4 hr) quad4_edges y a l
  · exact plane_shares_aux quad8LocalDeriv rule (quad8_matrix4 hr) quad8_edges y a l
  · exact plane_shares_aux quad8LocalDeriv rule (quad8_matrix9 hr) quad8_edges y a l

theorem edgeNormal_reverse (x : ℕ → ℕ → ℝ) (E : List ℕ) (hE : E.length = 2 ∨ E.length = 3) (n l : ℕ) :
    nodeShare edgeNormal x E.reverse n l = -nodeShare edgeNormal x E n l := by
  simp only [nodeShare_normal, edge_reverse x E hE]
  split_ifs <;> simp

/-- The shares of an interior node in the edges of a plane mesh cancel. -/
theorem plane_cancel {m : MeshTopology} {typ : ℕ → ElementType}
    (ht : ∀ k, IsElement m k → (typ k).dim = 2) (xs : ℕ → ℕ → ℝ) {node : ℕ}
    (h : InteriorPlane m typ node) (l : ℕ) :
    ((boundaryAt m typ node).map fun E => nodeShare edgeNormal xs E node l).sum = 0 := by
  have hlen : ∀ e : ElementType, e.dim = 2 → ∀ E ∈ elementBoundary e, E.length = 2 ∨ E.length = 3 := by
    intro e
    cases e <;> decide
  have hE : ∀ E ∈ boundaryAt m typ node, E.length = 2 ∨ E.length = 3 := by
    intro E hE
    obtain ⟨k, hk, hE⟩ := List.mem_flatMap.1 (List.mem_of_mem_filter hE)
    obtain ⟨E0, hE0, rfl⟩ := List.mem_map.1 hE
    rw [List.length_map]
    have hk' : IsElement m (k + 1) := ⟨by omega, by have := List.mem_range.1 hk; omega⟩
    have hd := ht _ hk'
    exact hlen _ hd _ hE0
  have h1 := (h.map fun E => nodeShare edgeNormal xs E node l).sum_eq
  rw [List.map_map] at h1
  have h2 : ((boundaryAt m typ node).map ((fun E => nodeShare edgeNormal xs E node l) ∘ List.reverse)).sum =
      -((boundaryAt m typ node).map fun E => nodeShare edgeNormal xs E node l).sum := by
    rw [sum_map_neg_list]
    congr 1
    exact List.map_congr_left fun E hE' => edgeNormal_reverse xs E (hE E hE') node l
  rw [h2] at h1
  linarith

/-! ## Solid elements -/

/-- Determinant of three vectors. -/
def det3 (u v w : Fin 3 → ℝ) : ℝ :=
  u 0 * (v 1 * w 2 - v 2 * w 1) - u 1 * (v 0 * w 2 - v 2 * w 0) + u 2 * (v 0 * w 1 - v 1 * w 0)

/-- `∑ w det(∇Nₐ, ∇N_b, ∇N_c)` over the Gauss points. -/
def faceMatrix (N : ℕ) (dN : (Fin 3 → ℝ) → Fin N → Fin 3 → ℝ) (rule : GaussRule 3) (a b c : Fin N) : ℝ :=
  (rule.map fun cw => cw.2 * det3 (dN cw.1 a) (dN cw.1 b) (dN cw.1 c)).sum

theorem det3_sum {N : ℕ} (u : Fin 3 → ℝ) (v : Fin N → Fin 3 → ℝ) (y z : Fin N → ℝ) :
    ∑ b, ∑ c, det3 u (v b) (v c) * y b * z c =
      det3 u (fun k => ∑ b, v b k * y b) (fun k => ∑ c, v c k * z c) := by
  simp only [det3, Finset.sum_mul_sum]
  simp only [← Finset.sum_sub_distrib, Finset.mul_sum, ← Finset.sum_add_distrib]
  refine Finset.sum_congr rfl fun b _ => Finset.sum_congr rfl fun c _ => by ring

theorem faceMatrix_sum {N : ℕ} (dN : (Fin 3 → ℝ) → Fin N → Fin 3 → ℝ) (rule : GaussRule 3)
    (a : Fin N) (y z : Fin N → ℝ) :
    ∑ b, ∑ c, faceMatrix N dN rule a b c * y b * z c =
      (rule.map fun cw => cw.2 * det3 (dN cw.1 a) (fun k => ∑ b, dN cw.1 b k * y b)
        (fun k => ∑ c, dN cw.1 c k * z c)).sum := by
  induction rule with
  | nil => simp [faceMatrix]
  | cons cw rule ih =>
    rw [List.map_cons, List.sum_cons, ← ih, ← det3_sum]
    simp only [faceMatrix, List.map_cons, List.sum_cons, add_mul, Finset.sum_add_distrib, Finset.mul_sum]
    congr 1
    refine Finset.sum_congr rfl fun b _ => Finset.sum_congr rfl fun c _ => by ring

theorem solid_area {N : ℕ} (dN : (Fin 3 → ℝ) → Fin N → Fin 3 → ℝ) (rule : GaussRule 3)
    (X : Fin N → Fin 3 → ℝ) (a : Fin N) (l : Fin 3) :
    ∑ g ∈ Finset.range rule.length, (rule[g]?.map fun cw => cw.2 * ∑ k,
      ((Matrix.of (dN cw.1)).transpose * Matrix.of X).adjugate l k * dN cw.1 a k).getD 0 =
      ∑ b, ∑ c, faceMatrix N dN rule a b c * X b (l + 1) * X c (l + 2) := by
  rw [sum_getD_rule, faceMatrix_sum]
  congr 1
  refine List.map_congr_left fun cw _ => ?_
  congr 1
  rw [Matrix.adjugate_fin_three, Fin.sum_univ_three]
  generalize hJ : (Matrix.of (dN cw.1)).transpose * Matrix.of X = J
  have hJ' : ∀ k j, ∑ b, dN cw.1 b k * X b j = J k j := by
    intro k j
    rw [← hJ, Matrix.mul_apply]
    rfl
  simp only [hJ']
  fin_cases l
  · simp [det3]; ring
  · simp [det3]; ring
  · simp [det3]; ring

end Hooke
