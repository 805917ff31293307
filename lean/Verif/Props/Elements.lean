import Verif.Lemmas.Elements
import Verif.Lemmas.Quadrature

/-!
# C11-C14: shape functions and Gauss rules of the eight elements
-/

noncomputable section

namespace Hooke

open Spec

/-- C11: shape function `i` at node `j` is 1 if `i = j` and 0 otherwise. -/
theorem C11_kronecker (e : ElementType) (i j : Fin e.nNode) :
    e.shapefun (e.nodes j) i = if i = j then 1 else 0 := by
  cases e
  · exact tri3_delta i j
  · exact tri6_delta i j
  · exact quad4_delta i j
  · exact quad8_delta i j
  · exact tetra4_delta i j
  · exact tetra10_delta i j
  · exact hexa8_delta i j
  · exact hexa20_delta i j

/-- Consequence used for every nodal field: interpolation returns the nodal value
at each node. -/
theorem C11_interpolates (e : ElementType) (v : Fin e.nNode → ℝ) (j : Fin e.nNode) :
    ∑ i, e.shapefun (e.nodes j) i * v i = v j := by
  simp [C11_kronecker]

example : ElementType.hexa20.shapefun (ElementType.hexa20.nodes (8 : Fin 20)) (8 : Fin 20) = 1 ∧
    ElementType.hexa20.shapefun (ElementType.hexa20.nodes (8 : Fin 20)) (0 : Fin 20) = 0 := by
  constructor
  · exact (C11_kronecker .hexa20 (8 : Fin 20) (8 : Fin 20)).trans (if_pos rfl)
  · exact (C11_kronecker .hexa20 (0 : Fin 20) (8 : Fin 20)).trans
      (if_neg (show ¬(0 : Fin 20) = 8 by decide))

/-- C12a: the shape functions sum to one at every local point. -/
theorem C12_partition_of_unity (e : ElementType) (c : Fin e.dim → ℝ) :
    ∑ i, e.shapefun c i = 1 := by
  cases e
  · exact tri3_part c
  · exact tri6_part c
  · exact quad4_part c
  · exact quad8_part c
  · exact tetra4_part c
  · exact tetra10_part c
  · exact hexa8_part c
  · exact hexa20_part c

/-- Interpolating the node coordinates returns the local point. -/
theorem shapefun_nodes (e : ElementType) (c : Fin e.dim → ℝ) (d : Fin e.dim) :
    ∑ i, e.shapefun c i * e.nodes i d = c d := by
  cases e
  · exact tri3_lin c d
  · exact tri6_lin c d
  · exact quad4_lin c d
  · exact quad8_lin c d
  · exact tetra4_lin c d
  · exact tetra10_lin c d
  · exact hexa8_lin c d
  · exact hexa20_lin c d

/-- C12b: interpolating the nodal values of an affine field `a + Σ_d g_d x_d`
returns the field at every local point (inside or outside the element). -/
theorem C12_affine (e : ElementType) (a : ℝ) (g : Fin e.dim → ℝ) (c : Fin e.dim → ℝ) :
    ∑ i, e.shapefun c i * (a + ∑ d, g d * e.nodes i d) = a + ∑ d, g d * c d := by
  simp only [mul_add, Finset.sum_add_distrib]
  rw [← Finset.sum_mul, C12_partition_of_unity, one_mul]
  congr 1
  simp only [Finset.mul_sum]
  rw [Finset.sum_comm]
  refine Finset.sum_congr rfl fun d _ => ?_
  rw [← shapefun_nodes e c d, Finset.mul_sum]
  refine Finset.sum_congr rfl fun i _ => by ring

example : ∑ i, ElementType.quad8.shapefun ![1 / 3, -2] i *
    (5 + ∑ d, ![7, 11] d * ElementType.quad8.nodes i d) = 5 + ∑ d : Fin 2, ![7, 11] d * ![1 / 3, -2] d :=
  C12_affine .quad8 5 ![7, 11] ![1 / 3, -2]

/-- C13a: the coded local derivatives are the partial derivatives of the shape
functions, at every local point. -/
theorem C13_derivatives (e : ElementType) (c : Fin e.dim → ℝ) (i : Fin e.nNode) (d : Fin e.dim) :
    HasDerivAt (fun t => e.shapefun (Function.update c d t) i) (e.localDeriv c i d) (c d) := by
  cases e
  · exact tri3_deriv c i d
  · exact tri6_deriv c i d
  · exact quad4_deriv c i d
  · exact quad8_deriv c i d
  · exact tetra4_deriv c i d
  · exact tetra10_deriv c i d
  · exact hexa8_deriv c i d
  · exact hexa20_deriv c i d

/-- C13b: the derivatives sum to zero over the nodes. -/
theorem C13_sum_zero (e : ElementType) (c : Fin e.dim → ℝ) (d : Fin e.dim) :
    ∑ i, e.localDeriv c i d = 0 := by
  have h := HasDerivAt.fun_sum (u := Finset.univ) fun i _ => C13_derivatives e c i d
  simp only [C12_partition_of_unity] at h
  exact h.unique (hasDerivAt_const _ _)

/-- C13c: the derivative of the interpolated node coordinates is the identity
(the Jacobian of the reference element). -/
theorem C13_nodes (e : ElementType) (c : Fin e.dim → ℝ) (d k : Fin e.dim) :
    ∑ i, e.localDeriv c i d * e.nodes i k = if k = d then 1 else 0 := by
  have h := HasDerivAt.fun_sum (u := Finset.univ)
    fun i _ => (C13_derivatives e c i d).mul_const (e.nodes i k)
  simp only [shapefun_nodes] at h
  by_cases hk : k = d
  · subst hk
    simp only [Function.update_self] at h
    rw [if_pos rfl]
    exact h.unique (hasDerivAt_id _)
  · simp only [Function.update_of_ne hk] at h
    rw [if_neg hk]
    exact h.unique (hasDerivAt_const _ _)

example : HasDerivAt
    (fun t => ElementType.quad4.shapefun (Function.update ![3, 5] (0 : Fin 2) t) (2 : Fin 4))
    (3 / 2) 3 := by
  have h := C13_derivatives .quad4 ![3, 5] (2 : Fin 4) (0 : Fin 2)
  refine h.congr_deriv ?_
  change quad4LocalDeriv ![3, 5] 2 0 = 3 / 2
  change 0.25 * (1 + (5 : ℝ)) = 3 / 2
  norm_num

/-- The number of Gauss points available for each integration domain. -/
def Spec.available : Domain → List ℕ
  | .linear => [1, 2, 3]
  | .quadrilateral => [1, 4, 9]
  | .triangular => [1, 3]
  | .hexahedral => [1, 8, 27]
  | .tetrahedral => [1, 4]
  | .other => []

theorem gaussQuadrilateral_cases {n : ℕ} {r} (h : gaussQuadrilateral n = .ok r) :
    ∃ m, 1 ≤ m ∧ m ≤ 3 ∧ m ^ 2 = n ∧ r = gridRule 2 m := by
  simp only [gaussQuadrilateral] at h
  split_ifs at h with h1 h2 h3
  · subst h1; exact ⟨1, le_refl _, by norm_num, rfl,
      ((Except.ok.inj ((uniformGrid_eq (d := 2) (n := 1) (by norm_num) (by norm_num)).symm.trans
        h))).symm⟩
  · subst h2; exact ⟨2, by norm_num, by norm_num, rfl,
      ((Except.ok.inj ((uniformGrid_eq (d := 2) (n := 2) (by norm_num) (by norm_num)).symm.trans
        h))).symm⟩
  · subst h3; exact ⟨3, by norm_num, by norm_num, rfl,
      ((Except.ok.inj ((uniformGrid_eq (d := 2) (n := 3) (by norm_num) (by norm_num)).symm.trans
        h))).symm⟩

theorem gaussHexahedral_cases {n : ℕ} {r} (h : gaussHexahedral n = .ok r) :
    ∃ m, 1 ≤ m ∧ m ≤ 3 ∧ m ^ 3 = n ∧ r = gridRule 3 m := by
  simp only [gaussHexahedral] at h
  split_ifs at h with h1 h2 h3
  · subst h1; exact ⟨1, le_refl _, by norm_num, rfl,
      ((Except.ok.inj ((uniformGrid_eq (d := 3) (n := 1) (by norm_num) (by norm_num)).symm.trans
        h))).symm⟩
  · subst h2; exact ⟨2, by norm_num, by norm_num, rfl,
      ((Except.ok.inj ((uniformGrid_eq (d := 3) (n := 2) (by norm_num) (by norm_num)).symm.trans
        h))).symm⟩
  · subst h3; exact ⟨3, by norm_num, by norm_num, rfl,
      ((Except.ok.inj ((uniformGrid_eq (d := 3) (n := 3) (by norm_num) (by norm_num)).symm.trans
        h))).symm⟩

theorem gaussLinear_cases {n : ℕ} {r} (h : gaussQuadrature1d n = .ok r) :
    1 ≤ n ∧ n ≤ 3 ∧ r = (pts1 n).map fun p => (![p.1], p.2) := by
  have hn : 1 ≤ n ∧ n ≤ 3 := by
    by_contra hc
    have h1 : n ≠ 1 := by omega
    have h2 : n ≠ 2 := by omega
    have h3 : n ≠ 3 := by omega
    simp [gaussQuadrature1d, h1, h2, h3] at h
  exact ⟨hn.1, hn.2, (Except.ok.inj ((gauss1d_eq hn.1 hn.2).symm.trans h)).symm⟩

theorem totalDegree_two {p : MvPolynomial (Fin 2) ℝ} {m} (hm : m ∈ p.support) {k : ℕ}
    (h : p.totalDegree ≤ k) : m 0 + m 1 ≤ k := by
  have := MvPolynomial.le_totalDegree hm
  rw [Finsupp.sum_fintype _ _ (by simp)] at this
  simp only [Fin.sum_univ_two] at this
  omega

theorem totalDegree_three {p : MvPolynomial (Fin 3) ℝ} {m} (hm : m ∈ p.support) {k : ℕ}
    (h : p.totalDegree ≤ k) : m 0 + m 1 + m 2 ≤ k := by
  have := MvPolynomial.le_totalDegree hm
  rw [Finsupp.sum_fintype _ _ (by simp)] at this
  simp only [Fin.sum_univ_three] at this
  omega

theorem linear_exact {n : ℕ} {r : GaussRule 1} (hr : gaussQuadrature1d n = .ok r)
    (p : MvPolynomial (Fin 1) ℝ) (hp : ∀ i, p.degreeOf i + 1 ≤ 2 * n) :
    quad r (fun x => MvPolynomial.eval x p) = intLine (fun x => MvPolynomial.eval x p) := by
  rw [quad_eval, intLine_eval]
  obtain ⟨h1, h3, rfl⟩ := gaussLinear_cases hr
  refine Finset.sum_congr rfl fun m hm => ?_
  have hk : m 0 + 1 ≤ 2 * n :=
    (Nat.add_le_add_right (MvPolynomial.monomial_le_degreeOf 0 hm) 1).trans (hp 0)
  rw [← pts1_mom h1 h3 hk]
  simp [quad, Function.comp_def]

theorem quadrilateral_exact {n : ℕ} {r : GaussRule 2} (hr : gaussQuadrilateral n = .ok r)
    (p : MvPolynomial (Fin 2) ℝ) (hp : ∃ m, m ^ 2 = n ∧ ∀ i, p.degreeOf i + 1 ≤ 2 * m) :
    quad r (fun x => MvPolynomial.eval x p) = intSquare (fun x => MvPolynomial.eval x p) := by
  rw [quad_eval, intSquare_eval]
  obtain ⟨m', h1, h3, hmn, rfl⟩ := gaussQuadrilateral_cases hr
  obtain ⟨m'', hm2, hp⟩ := hp
  obtain rfl : m'' = m' := Nat.pow_left_injective (by norm_num : 2 ≠ 0) (hm2.trans hmn.symm)
  refine Finset.sum_congr rfl fun m hm => ?_
  have hk : ∀ i, m i + 1 ≤ 2 * m'' := fun i =>
    (Nat.add_le_add_right (MvPolynomial.monomial_le_degreeOf i hm) 1).trans (hp i)
  rw [← pts1_mom h1 h3 (hk 0), ← pts1_mom h1 h3 (hk 1), ← grid2_quad h1 h3]
  simp only [Fin.prod_univ_two]

theorem hexahedral_exact {n : ℕ} {r : GaussRule 3} (hr : gaussHexahedral n = .ok r)
    (p : MvPolynomial (Fin 3) ℝ) (hp : ∃ m, m ^ 3 = n ∧ ∀ i, p.degreeOf i + 1 ≤ 2 * m) :
    quad r (fun x => MvPolynomial.eval x p) = intCube (fun x => MvPolynomial.eval x p) := by
  rw [quad_eval, intCube_eval]
  obtain ⟨m', h1, h3, hmn, rfl⟩ := gaussHexahedral_cases hr
  obtain ⟨m'', hm2, hp⟩ := hp
  obtain rfl : m'' = m' := Nat.pow_left_injective (by norm_num : 3 ≠ 0) (hm2.trans hmn.symm)
  refine Finset.sum_congr rfl fun m hm => ?_
  have hk : ∀ i, m i + 1 ≤ 2 * m'' := fun i =>
    (Nat.add_le_add_right (MvPolynomial.monomial_le_degreeOf i hm) 1).trans (hp i)
  rw [← pts1_mom h1 h3 (hk 0), ← pts1_mom h1 h3 (hk 1), ← pts1_mom h1 h3 (hk 2),
    ← grid3_quad h1 h3]
  simp only [Fin.prod_univ_three]

theorem triangular_exact {n : ℕ} {r : GaussRule 2} (hr : gaussTriangular n = .ok r)
    (p : MvPolynomial (Fin 2) ℝ) (hp : p.totalDegree ≤ if n = 1 then 1 else 2) :
    quad r (fun x => MvPolynomial.eval x p) = intTriangle (fun x => MvPolynomial.eval x p) := by
  rw [quad_eval, intTriangle_eval]
  refine Finset.sum_congr rfl fun m hm => ?_
  have hd := totalDegree_two hm hp
  congr 1
  simp only [Fin.prod_univ_two]
  generalize m 0 = a at hd ⊢
  generalize m 1 = b at hd ⊢
  simp only [gaussTriangular] at hr
  split_ifs at hr with h1 h2
  · rw [if_pos h1] at hd
    obtain rfl := Except.ok.inj hr
    have ha : a ≤ 1 := by omega
    have hb : b ≤ 1 := by omega
    interval_cases a <;> interval_cases b <;> first | (exfalso; omega) |
      norm_num [quad, bet_zero, bet_one, bet_two]
  · rw [if_neg h1] at hd
    obtain rfl := Except.ok.inj hr
    have ha : a ≤ 2 := by omega
    have hb : b ≤ 2 := by omega
    interval_cases a <;> interval_cases b <;> first | (exfalso; omega) |
      norm_num [quad, bet_zero, bet_one, bet_two]

theorem tetrahedral_exact {n : ℕ} {r : GaussRule 3} (hr : gaussTetrahedral n = .ok r)
    (p : MvPolynomial (Fin 3) ℝ) (hp : p.totalDegree ≤ if n = 1 then 1 else 2) :
    quad r (fun x => MvPolynomial.eval x p) = intTetra (fun x => MvPolynomial.eval x p) := by
  rw [quad_eval, intTetra_eval]
  refine Finset.sum_congr rfl fun m hm => ?_
  have hd := totalDegree_three hm hp
  congr 1
  simp only [Fin.prod_univ_three]
  generalize m 0 = a at hd ⊢
  generalize m 1 = b at hd ⊢
  generalize m 2 = c at hd ⊢
  have s5 : √5 ^ 2 = (5 : ℝ) := Real.sq_sqrt (by norm_num)
  simp only [gaussTetrahedral] at hr
  split_ifs at hr with h1 h2
  · rw [if_pos h1] at hd
    obtain rfl := Except.ok.inj hr
    have ha : a ≤ 1 := by omega
    have hb : b ≤ 1 := by omega
    have hc : c ≤ 1 := by omega
    interval_cases a <;> interval_cases b <;> interval_cases c <;> first | (exfalso; omega) |
      norm_num [quad, bet_zero, bet_one, bet_two, vec3_2]
  · rw [if_neg h1] at hd
    obtain rfl := Except.ok.inj hr
    have ha : a ≤ 2 := by omega
    have hb : b ≤ 2 := by omega
    have hc : c ≤ 2 := by omega
    interval_cases a <;> interval_cases b <;> interval_cases c <;> first | (exfalso; omega) |
      (simp only [quad, bet_zero, bet_one, bet_two, List.map_cons, List.map_nil, List.sum_cons,
        List.sum_nil, Matrix.cons_val_zero, Matrix.cons_val_one, vec3_2]
       push_cast
       ring_nf
       try rw [s5]
       try norm_num)

/-- C14a: every rule returned by `gauss_quadrature` integrates exactly, over the
reference domain, every polynomial up to its degree. -/
theorem C14_exact (D : Domain) (n : ℕ) (r : GaussRule D.dim)
    (hr : gaussQuadrature n D = .ok r) (p : MvPolynomial (Fin D.dim) ℝ) (hp : exactFor n D p) :
    quad r (fun x => MvPolynomial.eval x p) = refIntegral D (fun x => MvPolynomial.eval x p) := by
  cases D with
  | other => exact hp.elim
  | linear => exact linear_exact hr p hp
  | quadrilateral => exact quadrilateral_exact hr p hp
  | hexahedral => exact hexahedral_exact hr p hp
  | triangular => exact triangular_exact hr p hp
  | tetrahedral => exact tetrahedral_exact hr p hp

/-- C14b: exactly the documented numbers of points are available; anything else
raises `RuntimeError`. -/
theorem C14_available (D : Domain) (n : ℕ) :
    (n ∈ available D → ∃ r, gaussQuadrature n D = .ok r) ∧
    (n ∉ available D → gaussQuadrature n D = .error .runtimeError) := by
  cases D <;> simp only [available, gaussQuadrature, gaussQuadrature1d, gaussQuadrilateral,
    gaussTriangular, gaussHexahedral, gaussTetrahedral, uniformGridQuadrature]
  all_goals
    refine ⟨fun h => ?_, fun h => ?_⟩
    · simp only [List.mem_cons, List.not_mem_nil, or_false] at h
      try (rcases h with rfl | rfl | rfl)
      all_goals try (rcases h with rfl | rfl)
      all_goals (simp [pure, Except.pure, bind, Except.bind]; try exact ⟨_, rfl⟩)
    · simp only [List.mem_cons, List.not_mem_nil, or_false, not_or] at h
      try simp [h]

theorem pts1_good {n : ℕ} (h1 : 1 ≤ n) (h3 : n ≤ 3) :
    ∀ p ∈ pts1 n, 0 < p.2 ∧ -1 ≤ p.1 ∧ p.1 ≤ 1 := by
  have s3 : (1 : ℝ) ≤ √3 := by rw [Real.one_le_sqrt]; norm_num
  have s5 : √(3 / 5 : ℝ) ≤ 1 := by rw [Real.sqrt_le_one]; norm_num
  have s5' := Real.sqrt_nonneg (3 / 5 : ℝ)
  have s3p : (0 : ℝ) < √3 := by linarith
  have e1 : -1 ≤ -1 / √3 := by rw [le_div_iff₀ s3p]; linarith
  have e2 : 1 / √3 ≤ 1 := by rw [div_le_one s3p]; exact s3
  have e3 : 0 < 1 / √3 := by positivity
  have e4 : -1 / √3 < 0 := by rw [neg_div]; linarith
  interval_cases n <;> simp only [pts1, List.mem_cons, List.not_mem_nil, or_false]
  · rintro p rfl; norm_num
  · rintro p (rfl | rfl)
    · exact ⟨one_pos, e1, by linarith⟩
    · exact ⟨one_pos, by linarith, e2⟩
  · rintro p (rfl | rfl | rfl)
    · exact ⟨by norm_num, by linarith, by linarith⟩
    · norm_num
    · exact ⟨by norm_num, by linarith, by linarith⟩

theorem gridRule_good {d n : ℕ} (h1 : 1 ≤ n) (h3 : n ≤ 3) :
    (gridRule d n).length = n ^ d ∧
    ∀ g ∈ gridRule d n, 0 < g.2 ∧ ∀ i, -1 ≤ g.1 i ∧ g.1 i ≤ 1 := by
  refine ⟨by simp [gridRule], ?_⟩
  intro g hg
  have hl : (pts1 n).length = n := by interval_cases n <;> rfl
  have hmem : ∀ k, (pts1 n).getD (k % n) (0, 0) ∈ pts1 n := by
    intro k
    have : k % n < (pts1 n).length := by rw [hl]; exact Nat.mod_lt _ (by omega)
    simp [List.getD_eq_getElem?_getD, this]
  simp only [gridRule, List.mem_map] at hg
  obtain ⟨j, _, rfl⟩ := hg
  exact ⟨Finset.prod_pos (s := Finset.univ)
      (f := fun i : Fin d => ((pts1 n).getD (j / n ^ (i : ℕ) % n) (0, 0)).2)
      fun i _ => (pts1_good h1 h3 _ (hmem _)).1,
    fun i => (pts1_good h1 h3 _ (hmem _)).2⟩

theorem mom_zero : mom 0 = 2 := by simp [mom]; norm_num

/-- C14c: each available rule has exactly `n` points, all inside the reference
domain, with positive weights summing to the reference volume. -/
theorem C14_points (D : Domain) (n : ℕ) (r : GaussRule D.dim)
    (hr : gaussQuadrature n D = .ok r) :
    r.length = n ∧ (∀ g ∈ r, 0 < g.2 ∧ inDomain D g.1) ∧ (r.map (·.2)).sum = refVolume D := by
  cases D with
  | other => simp [gaussQuadrature] at hr
  | linear =>
    obtain ⟨h1, h3, rfl⟩ := gaussLinear_cases hr
    have hl : (pts1 n).length = n := by interval_cases n <;> rfl
    refine ⟨by simpa using hl, ?_, ?_⟩
    · intro g hg
      obtain ⟨p, hp, rfl⟩ := List.mem_map.mp hg
      have := pts1_good h1 h3 p hp
      refine ⟨this.1, fun i => ?_⟩
      have hi : i = (0 : Fin 1) := Subsingleton.elim (α := Fin 1) _ _
      subst hi
      exact this.2
    · have := pts1_mom h1 h3 (k := 0) (by omega)
      simp only [pow_zero, mul_one, mom_zero] at this
      rw [List.map_map]
      exact this
  | quadrilateral =>
    obtain ⟨m, h1, h3, hmn, rfl⟩ := gaussQuadrilateral_cases hr
    refine ⟨hmn ▸ (gridRule_good h1 h3).1, (gridRule_good (d := 2) h1 h3).2, ?_⟩
    have := grid2_quad h1 h3 0 0
    simp only [quad, pow_zero, mul_one] at this
    have h0 := pts1_mom h1 h3 (k := 0) (by omega)
    simp only [pow_zero, mul_one, mom_zero] at h0
    rw [h0] at this
    exact this.trans (by norm_num [refVolume])
  | hexahedral =>
    obtain ⟨m, h1, h3, hmn, rfl⟩ := gaussHexahedral_cases hr
    refine ⟨hmn ▸ (gridRule_good h1 h3).1, (gridRule_good (d := 3) h1 h3).2, ?_⟩
    have := grid3_quad h1 h3 0 0 0
    simp only [quad, pow_zero, mul_one] at this
    have h0 := pts1_mom h1 h3 (k := 0) (by omega)
    simp only [pow_zero, mul_one, mom_zero] at h0
    rw [h0] at this
    exact this.trans (by norm_num [refVolume])
  | triangular =>
    have hr' : gaussTriangular n = .ok r := hr
    simp only [gaussTriangular] at hr'
    change r.length = n ∧ (∀ g ∈ r, 0 < g.2 ∧ ((∀ i : Fin 2, 0 ≤ g.1 i) ∧ ∑ i : Fin 2, g.1 i ≤ 1)) ∧
      (r.map (·.2)).sum = 1 / 2
    split_ifs at hr' with h1 h2 <;> obtain rfl := Except.ok.inj hr' <;>
      refine ⟨by simp [*], ?_, by norm_num⟩ <;>
      simp [Fin.forall_fin_two, Fin.sum_univ_two] <;> norm_num
  | tetrahedral =>
    have hr' : gaussTetrahedral n = .ok r := hr
    simp only [gaussTetrahedral] at hr'
    have s5 : √5 < (5 : ℝ) := by rw [Real.sqrt_lt' (by norm_num)]; norm_num
    have s50 := Real.sqrt_nonneg (5 : ℝ)
    change r.length = n ∧ (∀ g ∈ r, 0 < g.2 ∧ ((∀ i : Fin 3, 0 ≤ g.1 i) ∧ ∑ i : Fin 3, g.1 i ≤ 1)) ∧
      (r.map (·.2)).sum = 1 / 6
    have f3 : ∀ (P : Fin 3 → Prop), (∀ i, P i) ↔ P 0 ∧ P 1 ∧ P 2 := by
      intro P; simp [Fin.forall_fin_succ]
    split_ifs at hr' with h1 h2 <;> obtain rfl := Except.ok.inj hr' <;>
      refine ⟨by simp [*], ?_, by norm_num⟩
    · simp only [List.mem_cons, List.not_mem_nil, or_false]
      rintro g rfl
      simp only [f3, Fin.sum_univ_three, Matrix.cons_val_zero, Matrix.cons_val_one, vec3_2]
      norm_num
    · simp only [List.mem_cons, List.not_mem_nil, or_false]
      rintro g (rfl | rfl | rfl | rfl) <;>
      simp only [f3, Fin.sum_univ_three, Matrix.cons_val_zero, Matrix.cons_val_one, vec3_2] <;>
      refine ⟨by norm_num, ⟨?_, ?_, ?_⟩, ?_⟩ <;> linarith

/-- C14d: an element accepts exactly its admissible numbers of Gauss points, and
then holds that many points. -/
theorem C14_element_init (e : ElementType) (n : ℕ) :
    (n ∈ e.admissibleGauss → ∃ r, e.init n = .ok r ∧ r.length = n) ∧
    (n ∉ e.admissibleGauss → e.init n = .error .runtimeError) := by
  refine ⟨fun h => ?_, fun h => by simp [ElementType.init, h]⟩
  have hi : e.init n = e.gaussRule n := by simp [ElementType.init, h]
  rw [hi]
  have key : ∀ D : Domain, n ∈ available D → ∃ r, gaussQuadrature n D = .ok r ∧ r.length = n := by
    intro D hD
    obtain ⟨r, hr⟩ := (C14_available D n).1 hD
    exact ⟨r, hr, (C14_points D n r hr).1⟩
  cases e
  case tri3 | tri6 => exact key .triangular (by revert h; simp [ElementType.admissibleGauss, available]; try tauto)
  case quad4 | quad8 => exact key .quadrilateral (by revert h; simp [ElementType.admissibleGauss, available]; try tauto)
  case tetra4 | tetra10 => exact key .tetrahedral (by revert h; simp [ElementType.admissibleGauss, available]; try tauto)
  case hexa8 | hexa20 => exact key .hexahedral (by revert h; simp [ElementType.admissibleGauss, available]; try tauto)

example : ∃ r, ElementType.hexa20.init 27 = .ok r ∧ r.length = 27 :=
  (C14_element_init .hexa20 27).1 (by decide)

/-- Non-vacuity of C14a: `x²y²` is within the degree of the four-point square rule. -/
example : exactFor 4 .quadrilateral
    (MvPolynomial.X (0 : Fin 2) ^ 2 * MvPolynomial.X (1 : Fin 2) ^ 2 : MvPolynomial (Fin 2) ℝ) := by
  refine ⟨2, rfl, fun i => ?_⟩
  have h := MvPolynomial.degreeOf_mul_le i
    (MvPolynomial.X (0 : Fin 2) ^ 2 : MvPolynomial (Fin 2) ℝ) (MvPolynomial.X (1 : Fin 2) ^ 2)
  have a := MvPolynomial.degreeOf_pow_le i (MvPolynomial.X (0 : Fin 2) : MvPolynomial (Fin 2) ℝ) 2
  have b := MvPolynomial.degreeOf_pow_le i (MvPolynomial.X (1 : Fin 2) : MvPolynomial (Fin 2) ℝ) 2
  rw [MvPolynomial.degreeOf_X] at a b
  have hi : i = (0 : Fin 2) ∨ i = (1 : Fin 2) := by
    have : ∀ j : Fin 2, j = 0 ∨ j = 1 := by decide
    exact this i
  rcases hi with rfl | rfl
  · rw [if_pos rfl] at a; rw [if_neg (by decide)] at b; omega
  · rw [if_neg (by decide)] at a; rw [if_pos rfl] at b; omega

end Hooke
