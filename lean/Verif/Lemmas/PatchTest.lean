import Verif.Spec.PatchTest
import Verif.Props.FrameForces

/-!
# Lemmas for C147: integrated shape function derivatives as shares of the boundary
-/

noncomputable section

namespace Hooke

open Spec

/-- `∑ w det d[a, l]` over the Gauss points, written with the adjugate of the Jacobian. -/
def nodeArea (e : ElementType) (n : ℕ) (rule : GaussRule e.dim) (X : Fin e.nNode → Fin e.dim → ℝ)
    (a : Fin e.nNode) (l : Fin e.dim) : ℝ :=
  ∑ g ∈ Finset.range n, (rule[g]?.map fun cw =>
    cw.2 * ∑ k, (e.jacobian X cw.1).adjugate l k * e.localDeriv cw.1 a k).getD 0

theorem det_inv_adjugate {n : ℕ} {J : Matrix (Fin n) (Fin n) ℝ} (h : J.det ≠ 0) (i k : Fin n) :
    J.det * J⁻¹ i k = J.adjugate i k := by
  rw [Matrix.inv_def, Ring.inverse_eq_inv', Matrix.smul_apply, smul_eq_mul, mul_inv_cancel_left₀ h]

/-- With the same stress at all Gauss points the force on a node is the stress times the node area. -/
theorem uniform_force {σ : Type} {p : ℕ} {e : ElementType}
    {co cn : List Comp} (hp : getProblemTypeParameters p = .ok (e.dim, co, cn))
    {nGauss : ℕ} {rule : GaussRule e.dim} {mat : Material σ} {old : GpDict σ}
    {X : Fin e.nNode → Fin e.dim → ℝ} {u : Tensor} {r : IFState σ}
    (h : computeElementInternalForces .infinitesimal p e nGauss rule mat old X u = .ok r)
    {S : T2 e.dim} (hS : ∀ g < nGauss, ∀ new t, r.state (g + 1) = some (some new) →
      getTensorFromMf (mat.stressMf new) e.dim co true = .ok t → tens2 e.dim t = S)
    (a : Fin e.nNode) (q : Fin e.dim) :
    r.forces.val [a * e.dim + q] = ∑ l, S q l * nodeArea e nGauss rule X a l := by
  have hco := (problemType_orders_complete hp).1
  obtain ⟨-, c, w, d, det, s, new, stress, b, hd, ho, hst, hsh, hq⟩ := internalForces_ok hp h
  rw [hq]
  simp only [nodeArea, Finset.mul_sum]
  rw [Finset.sum_comm]
  refine Finset.sum_congr rfl fun g hg => ?_
  have hg := Finset.mem_range.1 hg
  obtain ⟨si, ni, -, hni, hdone⟩ := hd g hg
  obtain ⟨J, hJ⟩ := hdone.deriv
  obtain ⟨hJ0, hdet, hds, hdv⟩ := evalShapefunDeriv_inv hJ
  obtain ⟨_, sv, _, _, hsv, _⟩ := hdone.force
  have hsy := vgetTensorFromMf_isSym hco hdone.stressOk hsv
  obtain ⟨t1, ht1, hts1⟩ := fromMf_of_v hco hdone.stressOk hsv
  have h1 := hS g hg ni t1 (by
    rw [hst, if_pos (by omega), Nat.add_sub_cancel, hni]) ht1
  rw [SameTensor_tens2 hts1 hsy.1] at h1
  rw [gp_force hco hdone hds hsy a q, h1, Finset.mul_sum]
  refine Finset.sum_congr rfl fun l _ => ?_
  rw [hdone.point, Option.map_some, Option.getD_some, hdv, hdet]
  simp only [← det_inv_adjugate hJ0, Finset.mul_sum]
  refine Finset.sum_congr rfl fun k _ => by ring

/-! ## Plane edges -/

/-- Share of the node in position `i` in the edge through the points `p`, before the quarter turn. -/
def edgeShare (p : List (ℕ → ℝ)) (i l : ℕ) : ℝ :=
  match p, i with
  | [a, b], 0 => (b l - a l) / 2
  | [a, b], 1 => (b l - a l) / 2
  | [a, m, b], 0 => -(1 / 2) * a l + 2 / 3 * m l - 1 / 6 * b l
  | [a, _, b], 1 => 2 / 3 * (b l - a l)
  | [a, m, b], 2 => 1 / 6 * a l - 2 / 3 * m l + 1 / 2 * b l
  | _, _ => 0

/-- The shares of the node `n` in the edge `E`. -/
def nodeShare (share : List (ℕ → ℝ) → ℕ → ℕ → ℝ) (x : ℕ → ℕ → ℝ) (E : List ℕ) (n l : ℕ) : ℝ :=
  ∑ i ∈ Finset.range E.length, if E.getD i 0 = n then share (E.map x) i l else 0

theorem edge_reverse (x : ℕ → ℕ → ℝ) (E : List ℕ) (hE : E.length = 2 ∨ E.length = 3) (n l : ℕ) :
    nodeShare edgeShare x E.reverse n l = -nodeShare edgeShare x E n l := by
  rcases hE with h | h
  · obtain ⟨a, b, rfl⟩ := List.length_eq_two.1 h
    simp only [nodeShare, List.reverse_cons, List.reverse_nil, List.nil_append, List.cons_append,
      List.length_cons, List.length_nil, Finset.sum_range_succ, Finset.sum_range_zero, List.map_cons,
      List.map_nil, List.getD_cons_zero, List.getD_cons_succ, edgeShare, zero_add]
    split_ifs <;> ring
  · obtain ⟨a, b, c, rfl⟩ := List.length_eq_three.1 h
    simp only [nodeShare, List.reverse_cons, List.reverse_nil, List.nil_append, List.cons_append,
      List.length_cons, List.length_nil, Finset.sum_range_succ, Finset.sum_range_zero, List.map_cons,
      List.map_nil, List.getD_cons_zero, List.getD_cons_succ, edgeShare, zero_add, Nat.reduceAdd]
    split_ifs <;> ring

theorem nodeShare_notMem {share : List (ℕ → ℝ) → ℕ → ℕ → ℝ} {x : ℕ → ℕ → ℝ} {E : List ℕ} {n l : ℕ}
    (h : n ∉ E) : nodeShare share x E n l = 0 := by
  refine Finset.sum_eq_zero fun i hi => if_neg fun he => h ?_
  have hi := Finset.mem_range.1 hi
  rw [List.getD_eq_getElem?_getD, List.getElem?_eq_getElem hi, Option.getD_some] at he
  exact he ▸ List.getElem_mem hi

theorem sum_filter_mem {share : List (ℕ → ℝ) → ℕ → ℕ → ℝ} {x : ℕ → ℕ → ℝ} (Es : List (List ℕ)) (n l : ℕ) :
    (Es.map fun E => nodeShare share x E n l).sum =
      ((Es.filter (n ∈ ·)).map fun E => nodeShare share x E n l).sum := by
  induction Es with
  | nil => rfl
  | cons E Es ih =>
    by_cases h : n ∈ E
    · rw [List.filter_cons_of_pos (by simpa using h), List.map_cons, List.map_cons, List.sum_cons,
        List.sum_cons, ih]
    · rw [List.filter_cons_of_neg (by simpa using h), List.map_cons, List.sum_cons, ih,
        nodeShare_notMem h, zero_add]

/-- Shares in a facet of an element, added up over the nodes of the element with label `n`. -/
theorem share_labels (share : List (ℕ → ℝ) → ℕ → ℕ → ℝ) (x : ℕ → ℕ → ℝ) (L : ℕ → ℕ) (N : ℕ) (E : List ℕ)
    (hE : ∀ i ∈ E, i < N) (n l : ℕ) :
    ∑ a ∈ Finset.range N, (if L a = n then nodeShare share (fun a => x (L a)) E a l else 0) =
      nodeShare share x (E.map L) n l := by
  simp only [nodeShare, List.length_map, List.map_map]
  have h1 : ∀ a, (if L a = n then ∑ i ∈ Finset.range E.length,
      (if E.getD i 0 = a then share (E.map fun a => x (L a)) i l else 0) else 0) =
      ∑ i ∈ Finset.range E.length, if L a = n ∧ E.getD i 0 = a then share (E.map fun a => x (L a)) i l
        else 0 := by
    intro a
    by_cases h : L a = n <;> simp [h]
  simp only [h1]
  rw [Finset.sum_comm]
  refine Finset.sum_congr rfl fun i hi => ?_
  have hi := Finset.mem_range.1 hi
  have e1 : E.getD i 0 = E[i] := by
    rw [List.getD_eq_getElem?_getD, List.getElem?_eq_getElem hi, Option.getD_some]
  have e2 : (E.map L).getD i 0 = L E[i] := by
    rw [List.getD_eq_getElem?_getD, List.getElem?_map, List.getElem?_eq_getElem hi, Option.map_some,
      Option.getD_some]
  rw [Finset.sum_eq_single E[i], e1, e2]
  · simp only [and_true]
    rfl
  · intro a _ ha
    rw [if_neg]
    rintro ⟨-, h⟩
    exact ha (by rw [← h, e1])
  · intro h
    exact absurd (Finset.mem_range.2 (hE _ (List.getElem_mem hi))) h

/-! ## The plane elements -/

/-- `∑ w (∂₀Nₐ ∂₁N_b - ∂₁Nₐ ∂₀N_b)` over the Gauss points. -/
def edgeMatrix (N : ℕ) (dN : (Fin 2 → ℝ) → Fin N → Fin 2 → ℝ) (rule : GaussRule 2) (a b : Fin N) : ℝ :=
  (rule.map fun cw => cw.2 * (dN cw.1 a 0 * dN cw.1 b 1 - dN cw.1 a 1 * dN cw.1 b 0)).sum

theorem sum_getD_rule {d : ℕ} (rule : GaussRule d) (f : (Fin d → ℝ) × ℝ → ℝ) :
    ∑ g ∈ Finset.range rule.length, (rule[g]?.map f).getD 0 = (rule.map f).sum := by
  induction rule with
  | nil => rfl
  | cons c rule ih =>
    rw [List.length_cons, Finset.sum_range_succ', List.map_cons, List.sum_cons, ← ih, add_comm]
    simp

theorem edgeMatrix_sum {N : ℕ} (dN : (Fin 2 → ℝ) → Fin N → Fin 2 → ℝ) (rule : GaussRule 2)
    (a : Fin N) (y : Fin N → ℝ) :
    ∑ b, edgeMatrix N dN rule a b * y b =
      (rule.map fun cw => cw.2 * (dN cw.1 a 0 * ∑ b, dN cw.1 b 1 * y b
        - dN cw.1 a 1 * ∑ b, dN cw.1 b 0 * y b)).sum := by
  induction rule with
  | nil => simp [edgeMatrix]
  | cons c rule ih =>
    rw [List.map_cons, List.sum_cons, ← ih]
    simp only [edgeMatrix, List.map_cons, List.sum_cons, add_mul, Finset.sum_add_distrib, Finset.mul_sum,
      ← Finset.sum_sub_distrib]
    congr 1
    refine Finset.sum_congr rfl fun b _ => by ring

theorem sum_map_neg_list {α : Type} (L : List α) (f : α → ℝ) :
    -(L.map f).sum = (L.map fun x => -f x).sum := by
  induction L with
  | nil => simp
  | cons x L ih => rw [List.map_cons, List.map_cons, List.sum_cons, List.sum_cons, ← ih, neg_add]

theorem plane_area {N : ℕ} (dN : (Fin 2 → ℝ) → Fin N → Fin 2 → ℝ) (rule : GaussRule 2)
    (X : Fin N → Fin 2 → ℝ) (a : Fin N) (l : Fin 2) :
    ∑ g ∈ Finset.range rule.length, (rule[g]?.map fun cw => cw.2 * ∑ k,
      ((Matrix.of (dN cw.1)).transpose * Matrix.of X).adjugate l k * dN cw.1 a k).getD 0 =
      ![∑ b, edgeMatrix N dN rule a b * X b 1, -∑ b, edgeMatrix N dN rule a b * X b 0] l := by
  rw [sum_getD_rule]
  simp only [edgeMatrix_sum, Matrix.adjugate_fin_two, Fin.sum_univ_two]
  fin_cases l
  · simp only [Fin.zero_eta, Matrix.of_apply, Matrix.cons_val_zero, Matrix.cons_val_one,
      Matrix.mul_apply, Matrix.transpose_apply]
    congr 1
    refine List.map_congr_left fun cw _ => by ring
  · simp only [Fin.mk_one, Matrix.of_apply, Matrix.cons_val_zero, Matrix.cons_val_one,
      Matrix.mul_apply, Matrix.transpose_apply]
    rw [sum_map_neg_list]
    congr 1
    refine List.map_congr_left fun cw _ => by ring

/-- Boundary integrals `∮ Nₐ dN_b` of the element. -/
def tri3Edges : Fin 3 → Fin 3 → ℝ := ![
  ![0, 1 / 2, -1 / 2],
  ![-1 / 2, 0, 1 / 2],
  ![1 / 2, -1 / 2, 0]]

/-- Boundary integrals `∮ Nₐ dN_b` of the element. -/
def tri6Edges : Fin 6 → Fin 6 → ℝ := ![
  ![0, -1 / 6, 1 / 6, 2 / 3, 0, -2 / 3],
  ![1 / 6, 0, -1 / 6, -2 / 3, 2 / 3, 0],
  ![-1 / 6, 1 / 6, 0, 0, -2 / 3, 2 / 3],
  ![-2 / 3, 2 / 3, 0, 0, 0, 0],
  ![0, -2 / 3, 2 / 3, 0, 0, 0],
  ![2 / 3, 0, -2 / 3, 0, 0, 0]]

/-- Boundary integrals `∮ Nₐ dN_b` of the element. -/
def quad4Edges : Fin 4 → Fin 4 → ℝ := ![
  ![0, 1 / 2, 0, -1 / 2],
  ![-1 / 2, 0, 1 / 2, 0],
  ![0, -1 / 2, 0, 1 / 2],
  ![1 / 2, 0, -1 / 2, 0]]

/-- Boundary integrals `∮ Nₐ dN_b` of the element. -/
def quad8Edges : Fin 8 → Fin 8 → ℝ := ![
  ![0, -1 / 6, 0, 1 / 6, 2 / 3, 0, 0, -2 / 3],
  ![1 / 6, 0, -1 / 6, 0, -2 / 3, 2 / 3, 0, 0],
  ![0, 1 / 6, 0, -1 / 6, 0, -2 / 3, 2 / 3, 0],
  ![-1 / 6, 0, 1 / 6, 0, 0, 0, -2 / 3, 2 / 3],
  ![-2 / 3, 2 / 3, 0, 0, 0, 0, 0, 0],
  ![0, -2 / 3, 2 / 3, 0, 0, 0, 0, 0],
  ![0, 0, -2 / 3, 2 / 3, 0, 0, 0, 0],
  ![2 / 3, 0, 0, -2 / 3, 0, 0, 0, 0]]


theorem tri3_matrix {rule : GaussRule 2} (h : gaussTriangular 1 = .ok rule) :
    edgeMatrix 3 tri3LocalDeriv rule = tri3Edges := by
  simp only [gaussTriangular, if_true] at h
  cases h
  funext a b
  fin_cases a <;> fin_cases b <;>
    norm_num [edgeMatrix, tri3LocalDeriv, tri3Edges]

theorem tri6_matrix {rule : GaussRule 2} (h : gaussTriangular 3 = .ok rule) :
    edgeMatrix 6 tri6LocalDeriv rule = tri6Edges := by
  simp only [gaussTriangular] at h
  norm_num at h
  cases h
  funext a b
  fin_cases a <;> fin_cases b <;>
    norm_num [edgeMatrix, tri6LocalDeriv, tri6Edges]

theorem quad4_matrix1 {rule : GaussRule 2} (h : gaussQuadrilateral 1 = .ok rule) :
    edgeMatrix 4 quad4LocalDeriv rule = quad4Edges := by
  simp only [gaussQuadrilateral, if_true, uniformGridQuadrature, gaussQuadrature1d] at h
  cases h
  funext a b
  fin_cases a <;> fin_cases b <;>
    norm_num [edgeMatrix, quad4LocalDeriv, quad4Edges]

theorem grid4 {rule : GaussRule 2} (h : gaussQuadrilateral 4 = .ok rule) :
    ∃ s : ℝ, s ^ 2 = 1 / 3 ∧ rule =
      [(![-s, -s], 1), (![s, -s], 1), (![-s, s], 1), (![s, s], 1)] := by
  refine ⟨1 / √3, by rw [div_pow, Real.sq_sqrt (by norm_num)]; norm_num, ?_⟩
  simp only [gaussQuadrilateral, uniformGridQuadrature, gaussQuadrature1d] at h
  norm_num [bind, Except.bind, pure, Except.pure] at h
  rw [← h]
  simp only [List.range_succ, List.range_zero, List.map_append, List.map_cons, List.map_nil,
    List.nil_append, List.cons_append]
  norm_num
  refine ⟨?_, ?_, ?_, ?_⟩ <;> funext i <;> fin_cases i <;> norm_num <;> ring

theorem quad4_matrix4 {rule : GaussRule 2} (h : gaussQuadrilateral 4 = .ok rule) :
    edgeMatrix 4 quad4LocalDeriv rule = quad4Edges := by
  obtain ⟨s, hs, rfl⟩ := grid4 h
  funext a b
  fin_cases a <;> fin_cases b <;>
    (simp [edgeMatrix, quad4LocalDeriv, quad4Edges] <;> ring)

theorem grid9 {rule : GaussRule 2} (h : gaussQuadrilateral 9 = .ok rule) :
    ∃ s : ℝ, s ^ 2 = 3 / 5 ∧ rule =
      [(![-s, -s], 25 / 81), (![0, -s], 40 / 81), (![s, -s], 25 / 81),
       (![-s, 0], 40 / 81), (![0, 0], 64 / 81), (![s, 0], 40 / 81),
       (![-s, s], 25 / 81), (![0, s], 40 / 81), (![s, s], 25 / 81)] := by
  refine ⟨√(3 / 5), Real.sq_sqrt (by norm_num), ?_⟩
  simp only [gaussQuadrilateral, uniformGridQuadrature, gaussQuadrature1d] at h
  norm_num [bind, Except.bind, pure, Except.pure, -Real.sqrt_div] at h
  rw [← h]
  simp only [List.range_succ, List.range_zero, List.map_append, List.map_cons, List.map_nil,
    List.nil_append, List.cons_append]
  norm_num [-Real.sqrt_div]
  refine ⟨?_, ?_, ?_, ?_, ?_, ?_, ?_, ?_, ?_⟩ <;> funext i <;> fin_cases i <;> norm_num

set_option maxHeartbeats 4000000 in
theorem quad8_matrix4 {rule : GaussRule 2} (h : gaussQuadrilateral 4 = .ok rule) :
    edgeMatrix 8 quad8LocalDeriv rule = quad8Edges := by
  obtain ⟨s, hs, rfl⟩ := grid4 h
  have h3 : s ^ 3 = s * (1 / 3) := by rw [pow_succ', hs]
  have h4 : s ^ 4 = 1 / 9 := by rw [show s ^ 4 = (s ^ 2) ^ 2 by ring, hs]; norm_num
  funext a b
  fin_cases a <;> fin_cases b <;>
    (simp [edgeMatrix, quad8LocalDeriv, quad8Edges] <;> ring_nf <;>
      simp only [hs, h3, h4] <;> ring)

set_option maxHeartbeats 4000000 in
theorem quad8_matrix9 {rule : GaussRule 2} (h : gaussQuadrilateral 9 = .ok rule) :
    edgeMatrix 8 quad8LocalDeriv rule = quad8Edges := by
  obtain ⟨s, hs, rfl⟩ := grid9 h
  have h3 : s ^ 3 = s * (3 / 5) := by rw [pow_succ', hs]
  have h4 : s ^ 4 = 9 / 25 := by rw [show s ^ 4 = (s ^ 2) ^ 2 by ring, hs]; norm_num
  funext a b
  fin_cases a <;> fin_cases b <;>
    (simp [edgeMatrix, quad8LocalDeriv, quad8Edges] <;> ring_nf <;>
      simp only [hs, h3, h4] <;> ring)

end Hooke
