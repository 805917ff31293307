import Verif.Lemmas.PatchSolid

/-!
# Lemmas for C147: `hexa8` with eight Gauss points
-/

noncomputable section

namespace Hooke

open Spec

theorem hexa8_gradient (c : Fin 3 → ℝ) (a : Fin 8) :
    hexa8LocalDeriv c a =
      ![1 / 8 * hexa8Nodes a 0 * (1 + hexa8Nodes a 1 * c 1) * (1 + hexa8Nodes a 2 * c 2),
        1 / 8 * hexa8Nodes a 1 * (1 + hexa8Nodes a 0 * c 0) * (1 + hexa8Nodes a 2 * c 2),
        1 / 8 * hexa8Nodes a 2 * (1 + hexa8Nodes a 0 * c 0) * (1 + hexa8Nodes a 1 * c 1)] := by
  funext k
  fin_cases a <;> fin_cases k <;> simp [hexa8LocalDeriv, hexa8Nodes, -mul_eq_mul_left_iff, -mul_eq_mul_right_iff] <;> ring

theorem grid8 {rule : GaussRule 3} (h : gaussHexahedral 8 = .ok rule) :
    ∃ s : ℝ, s ^ 2 = 1 / 3 ∧ rule =
      [(![-s, -s, -s], 1), (![s, -s, -s], 1), (![-s, s, -s], 1), (![s, s, -s], 1),
       (![-s, -s, s], 1), (![s, -s, s], 1), (![-s, s, s], 1), (![s, s, s], 1)] := by
  refine ⟨1 / √3, by rw [div_pow, Real.sq_sqrt (by norm_num)]; norm_num, ?_⟩
  simp only [gaussHexahedral, uniformGridQuadrature, gaussQuadrature1d] at h
  norm_num [bind, Except.bind, pure, Except.pure] at h
  rw [← h]
  simp only [List.range_succ, List.range_zero, List.map_cons, List.map_nil,
    List.nil_append, List.cons_append]
  norm_num [Fin.prod_univ_three]
  refine ⟨?_, ?_, ?_, ?_, ?_, ?_, ?_, ?_⟩ <;> funext i <;> fin_cases i <;> norm_num <;> ring

/-- One of the six products of the determinant, integrated. -/
theorem grid8_term (s u v w p1 q1 p2 q2 p3 q3 : ℝ) (hs : s ^ 2 = 1 / 3) :
    (∑ i ∈ ({-1, 1} : Finset ℤ), ∑ j ∈ ({-1, 1} : Finset ℤ), ∑ k ∈ ({-1, 1} : Finset ℤ),
      u * v * w * ((1 + p1 * (i * s)) * (1 + q1 * (i * s))) * ((1 + p2 * (j * s)) * (1 + q2 * (j * s))) *
        ((1 + p3 * (k * s)) * (1 + q3 * (k * s)))) =
      8 * u * v * w * (1 + p1 * q1 / 3) * (1 + p2 * q2 / 3) * (1 + p3 * q3 / 3) := by
  have h1 : ∀ p q : ℝ, ∑ i ∈ ({-1, 1} : Finset ℤ), ((1 + p * (i * s)) * (1 + q * (i * s))) =
      2 * (1 + p * q / 3) := by
    intro p q
    rw [Finset.sum_pair (by decide)]
    push_cast
    linear_combination (2 * p * q) * hs
  simp only [← Finset.mul_sum, ← Finset.sum_mul, h1]
  ring

/-- Integrated determinants in terms of the local coordinates of the three nodes. -/
def hexaDet (u v w : Fin 3 → ℝ) : ℝ :=
  1 / 64 * (
    u 0 * v 1 * w 2 * (1 + v 0 * w 0 / 3) * (1 + u 1 * w 1 / 3) * (1 + u 2 * v 2 / 3)
    - u 0 * v 2 * w 1 * (1 + v 0 * w 0 / 3) * (1 + u 1 * v 1 / 3) * (1 + u 2 * w 2 / 3)
    - u 1 * v 0 * w 2 * (1 + u 0 * w 0 / 3) * (1 + v 1 * w 1 / 3) * (1 + u 2 * v 2 / 3)
    + u 1 * v 2 * w 0 * (1 + u 0 * v 0 / 3) * (1 + v 1 * w 1 / 3) * (1 + u 2 * w 2 / 3)
    + u 2 * v 0 * w 1 * (1 + u 0 * w 0 / 3) * (1 + u 1 * v 1 / 3) * (1 + v 2 * w 2 / 3)
    - u 2 * v 1 * w 0 * (1 + u 0 * v 0 / 3) * (1 + u 1 * w 1 / 3) * (1 + v 2 * w 2 / 3))

/-- Determinant of the gradients of three nodes with local coordinates `u, v, w` at the point `c`. -/
def hexaPoint (u v w : Fin 3 → ℝ) (c0 c1 c2 : ℝ) : ℝ :=
  1 / 512 * (
    u 0 * v 1 * w 2 * ((1 + v 0 * c0) * (1 + w 0 * c0)) * ((1 + u 1 * c1) * (1 + w 1 * c1)) * ((1 + u 2 * c2) * (1 + v 2 * c2))
    - u 0 * v 2 * w 1 * ((1 + v 0 * c0) * (1 + w 0 * c0)) * ((1 + u 1 * c1) * (1 + v 1 * c1)) * ((1 + u 2 * c2) * (1 + w 2 * c2))
    - u 1 * v 0 * w 2 * ((1 + u 0 * c0) * (1 + w 0 * c0)) * ((1 + v 1 * c1) * (1 + w 1 * c1)) * ((1 + u 2 * c2) * (1 + v 2 * c2))
    + u 1 * v 2 * w 0 * ((1 + u 0 * c0) * (1 + v 0 * c0)) * ((1 + v 1 * c1) * (1 + w 1 * c1)) * ((1 + u 2 * c2) * (1 + w 2 * c2))
    + u 2 * v 0 * w 1 * ((1 + u 0 * c0) * (1 + w 0 * c0)) * ((1 + u 1 * c1) * (1 + v 1 * c1)) * ((1 + v 2 * c2) * (1 + w 2 * c2))
    - u 2 * v 1 * w 0 * ((1 + u 0 * c0) * (1 + v 0 * c0)) * ((1 + u 1 * c1) * (1 + w 1 * c1)) * ((1 + v 2 * c2) * (1 + w 2 * c2)))

theorem hexaPoint_sum (u v w : Fin 3 → ℝ) {s : ℝ} (hs : s ^ 2 = 1 / 3) :
    ∑ i ∈ ({-1, 1} : Finset ℤ), ∑ j ∈ ({-1, 1} : Finset ℤ), ∑ k ∈ ({-1, 1} : Finset ℤ),
      hexaPoint u v w (i * s) (j * s) (k * s) = hexaDet u v w := by
  simp only [hexaPoint, ← Finset.mul_sum, Finset.sum_add_distrib, Finset.sum_sub_distrib, hexaDet]
  have g := fun u v w p1 q1 p2 q2 p3 q3 => grid8_term s u v w p1 q1 p2 q2 p3 q3 hs
  simp only [Finset.mul_sum] at g ⊢
  simp only [g]
  ring

theorem hexa8_point (c : Fin 3 → ℝ) (a b d : Fin 8) :
    det3 (hexa8LocalDeriv c a) (hexa8LocalDeriv c b) (hexa8LocalDeriv c d) =
      hexaPoint (hexa8Nodes a) (hexa8Nodes b) (hexa8Nodes d) (c 0) (c 1) (c 2) := by
  simp only [hexa8_gradient]
  generalize hexa8Nodes a = u
  generalize hexa8Nodes b = v
  generalize hexa8Nodes d = w
  simp only [det3, hexaPoint, Matrix.cons_val_zero, Matrix.cons_val_one, Matrix.cons_val]
  ring

theorem hexa8_matrix {rule : GaussRule 3} (h : gaussHexahedral 8 = .ok rule) (a b d : Fin 8) :
    faceMatrix 8 hexa8LocalDeriv rule a b d =
      hexaDet (hexa8Nodes a) (hexa8Nodes b) (hexa8Nodes d) := by
  obtain ⟨s, hs, rfl⟩ := grid8 h
  rw [← hexaPoint_sum _ _ _ hs]
  simp only [faceMatrix, hexa8_point, List.map_cons, List.map_nil, List.sum_cons, List.sum_nil,
    Finset.sum_pair (show (-1 : ℤ) ≠ 1 by decide), Matrix.cons_val_zero, Matrix.cons_val_one,
    Matrix.cons_val, Int.cast_neg, Int.cast_one, neg_mul, one_mul]
  ring

set_option maxHeartbeats 4000000 in
theorem hexa8_faces_aux (Y Z : ℕ → ℝ) (a : Fin 8) :
    ∑ b : Fin 8, ∑ c : Fin 8, hexaDet (hexa8Nodes a) (hexa8Nodes b) (hexa8Nodes c) * Y b * Z c =
      ((elementBoundary .hexa8).map fun E => nodeShare faceShare
        (fun n i => if i = 1 then Y n else Z n) E a 0).sum := by
  fin_cases a
  all_goals
    simp [elementBoundary, nodeShare, faceShare, quadCorner, crossC, Finset.sum_range_succ]
    simp only [Fin.sum_univ_eight, hexaDet, hexa8Nodes, Matrix.cons_val, Matrix.cons_val_zero,
      Matrix.cons_val_one]
    norm_num
    ring

theorem faceShare_component (y : ℕ → ℕ → ℝ) (E : List ℕ) (hE : E.length = 3 ∨ E.length = 4) (n l : ℕ) :
    nodeShare faceShare (fun n i => if i = 1 then y n ((l + 1) % 3) else y n ((l + 2) % 3)) E n 0 =
      nodeShare faceShare y E n l := by
  rcases hE with h | h
  · obtain ⟨a, b, c, rfl⟩ := List.length_eq_three.1 h
    simp [nodeShare, Finset.sum_range_succ, faceShare, triCorner, crossC]
  · obtain ⟨a, b, c, d, rfl⟩ := length_four h
    simp [nodeShare, Finset.sum_range_succ, faceShare, quadCorner, crossC]

theorem hexa8_faces (y : ℕ → ℕ → ℝ) (a : Fin 8) (l : Fin 3) :
    ∑ b : Fin 8, ∑ c : Fin 8, hexaDet (hexa8Nodes a) (hexa8Nodes b) (hexa8Nodes c) *
      y b ((l + 1 : Fin 3) : ℕ) * y c ((l + 2 : Fin 3) : ℕ) =
      ((elementBoundary .hexa8).map fun E => nodeShare faceShare y E a l).sum := by
  have e1 : (((l + 1 : Fin 3) : ℕ)) = ((l : ℕ) + 1) % 3 := by fin_cases l <;> rfl
  have e2 : (((l + 2 : Fin 3) : ℕ)) = ((l : ℕ) + 2) % 3 := by fin_cases l <;> rfl
  rw [e1, e2, hexa8_faces_aux (fun n => y n (((l : ℕ) + 1) % 3)) (fun n => y n (((l : ℕ) + 2) % 3)) a]
  refine congrArg List.sum (List.map_congr_left fun E hE => faceShare_component y E ?_ a l)
  revert E
  decide

theorem solid_shares {e : ElementType} {n : ℕ} (h : (e, n) ∈ solidPairs) (rule : GaussRule e.dim)
    (hr : e.init n = .ok rule) (y : ℕ → ℕ → ℝ) (a : Fin e.nNode) (l : Fin e.dim) :
    nodeArea e n rule (fun (a : Fin e.nNode) (i : Fin e.dim) => y a i) a l =
      ((elementBoundary e).map fun E => nodeShare faceShare y E a l).sum := by
  have hlen : rule.length = n := by
    by_cases hn : n ∈ e.admissibleGauss
    · obtain ⟨r, h1, h2⟩ := (C14_element_init e n).1 hn
      rw [hr] at h1
      cases h1
      exact h2
    · rw [(C14_element_init e n).2 hn] at hr
      cases hr
  unfold nodeArea
  rw [← hlen]
  simp only [solidPairs, List.mem_cons, List.not_mem_nil, or_false, Prod.mk.injEq] at h
  have ht : ∀ m, ∀ rule : GaussRule 3, gaussTetrahedral m = .ok rule → ∀ (a : Fin 4) (l : Fin 3),
      ∑ g ∈ Finset.range rule.length, (rule[g]?.map fun cw => cw.2 * ∑ k,
        ((Matrix.of (tetra4LocalDeriv cw.1)).transpose *
          Matrix.of (fun (a : Fin 4) (i : Fin 3) => y a i)).adjugate l k *
          tetra4LocalDeriv cw.1 a k).getD 0 =
        ((elementBoundary .tetra4).map fun E => nodeShare faceShare y E a l).sum := by
    intro m rule hr a l
    rw [solid_area]
    simp only [tetra4_matrix hr]
    exact tetra4_faces y a l
  rcases h with ⟨rfl, rfl⟩ | ⟨rfl, rfl⟩ | ⟨rfl, rfl⟩
  · exact ht 1 rule hr a l
  · exact ht 4 rule hr a l
  · refine (solid_area hexa8LocalDeriv rule (fun (a : Fin 8) (i : Fin 3) => y a i) a l).trans ?_
    exact (Finset.sum_congr rfl fun b _ => Finset.sum_congr rfl fun c _ => congrArg (fun z => z * _ * _)
      (hexa8_matrix hr a b c)).trans (hexa8_faces y a l)

end Hooke
