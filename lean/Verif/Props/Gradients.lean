import Verif.Lemmas.Gradients
import Verif.Props.Kelvin
import Verif.Props.Elements

namespace Hooke

open Spec

/-! ## C15, C16 gradient operators -/

/-- C15: for every shape function derivatives table `d` (any number of nodes, any
dimension), every complete symmetric order and all nodal displacements `u`, the product
of the discrete symmetric gradient with the flattened displacements is the engineering
Voigt vector of the strain of the interpolated field. -/
theorem C15_sym_gradient {m n : ℕ} {co : List Comp} (h : CompleteSym n co) {d u : Tensor}
    (hd : d.shape = [m, n]) (hu : u.shape = [m, n]) :
    ∃ g v, buildDiscreteSymGradient d co = .ok g ∧ computeInfinitesimalStrain g u = .ok v ∧
      IsEngVoigt co (strainTensor m n d u) v := by
  obtain ⟨g, h1, h2, h3⟩ := buildSym_spec h.toValidPairs h.two_length hd
  obtain ⟨v, h4, h5, h6⟩ := matVec_flatten h2 hu
  refine ⟨g, v, h1, h4, h5, ?_⟩
  intro k a b hk
  obtain ⟨a', b', ha1, ha2, hb1, hb2, he⟩ := h.pair _ (List.mem_of_getElem? hk)
  obtain ⟨rfl, rfl⟩ : a = a' ∧ b = b' := by simpa using he
  rw [h6]
  have hrow : ∀ j < m, ∑ p ∈ Finset.range n, g.val [k, j * n + p] * u.val [j, p] =
      if a = b then u.val [j, a - 1] * d.val [j, a - 1]
      else u.val [j, a - 1] * d.val [j, b - 1] + u.val [j, b - 1] * d.val [j, a - 1] := by
    intro j hj
    have e1 : ∀ p ∈ Finset.range n, g.val [k, j * n + p] * u.val [j, p] =
        (if p = a - 1 then u.val [j, p] * d.val [j, b - 1] else 0) +
        (if p = b - 1 then (if a = b then 0 else u.val [j, p] * d.val [j, a - 1]) else 0) := by
      intro p hp
      rw [h3 k _ hk j hj p (Finset.mem_range.1 hp), symEntry]
      simp only [Comp.i, Comp.j, List.getD_cons_zero, List.getD_cons_succ]
      by_cases q1 : p = a - 1
      · by_cases q2 : p = b - 1
        · have : a = b := by omega
          rw [if_pos q1, if_pos q1, if_pos q2, if_pos this]; ring
        · rw [if_pos q1, if_pos q1, if_neg q2]; ring
      · by_cases q2 : p = b - 1
        · have : a ≠ b := by omega
          rw [if_neg q1, if_neg q1, if_pos q2, if_pos q2, if_neg this]; ring
        · rw [if_neg q1, if_neg q1, if_neg q2, if_neg q2]; ring
    rw [Finset.sum_congr rfl e1, Finset.sum_add_distrib, Finset.sum_ite_eq', Finset.sum_ite_eq',
      if_pos (Finset.mem_range.2 (by omega)), if_pos (Finset.mem_range.2 (by omega))]
    by_cases e : a = b
    · subst e; simp
    · rw [if_neg e, if_neg e]
  rw [Finset.sum_congr rfl fun j hj => hrow j (Finset.mem_range.1 hj)]
  simp only [strainTensor, dispGrad, List.getD_cons_zero, List.getD_cons_succ]
  by_cases e : a = b
  · subst e; simp
  · simp only [if_neg e, Finset.sum_add_distrib]
    ring

/-- C15b: the product of the full discrete gradient with the flattened displacements
lists the displacement gradient `∂u_a/∂x_b` component by component. -/
theorem C15_gradient {m n : ℕ} {co : List Comp} (h : CompleteFull n co) {d u : Tensor}
    (hd : d.shape = [m, n]) (hu : u.shape = [m, n]) :
    ∃ g v, buildDiscreteGradient d (some co) = .ok g ∧ computeInfinitesimalStrain g u = .ok v ∧
      v.shape = [co.length] ∧
      ∀ k a b, co[k]? = some [a, b] → v.val [k] = dispGrad m d u (a - 1) (b - 1) := by
  obtain ⟨g, h1, h2, h3⟩ := buildNsym_spec h.toValidPairs h.length_eq hd
  obtain ⟨v, h4, h5, h6⟩ := matVec_flatten h2 hu
  refine ⟨g, v, h1, h4, h5, ?_⟩
  intro k a b hk
  obtain ⟨a', b', ha1, ha2, hb1, hb2, he⟩ := h.pair _ (List.mem_of_getElem? hk)
  obtain ⟨rfl, rfl⟩ : a = a' ∧ b = b' := by simpa using he
  rw [h6, dispGrad]
  refine Finset.sum_congr rfl fun j hj => ?_
  have e1 : ∀ p ∈ Finset.range n, g.val [k, j * n + p] * u.val [j, p] =
      if p = a - 1 then u.val [j, p] * d.val [j, b - 1] else 0 := by
    intro p hp
    rw [h3 k _ hk j (Finset.mem_range.1 hj) p (Finset.mem_range.1 hp)]
    simp only [Comp.i, Comp.j, List.getD_cons_zero, List.getD_cons_succ]
    split_ifs <;> ring
  rw [Finset.sum_congr rfl e1, Finset.sum_ite_eq', if_pos (Finset.mem_range.2 (by omega))]

/-- C15c: the default order of the full gradient is the complete order of the problem
type for 2 and 3 dimensions; in any other dimension the call without order raises. -/
theorem C15_default_order (d : Tensor) (m n : ℕ) (hd : d.shape = [m, n]) :
    (n = 2 → buildDiscreteGradient d none = buildDiscreteGradient d (some nsym2d)) ∧
    (n = 3 → buildDiscreteGradient d none = buildDiscreteGradient d (some nsym3d)) ∧
    (n ≠ 2 ∧ n ≠ 3 → buildDiscreteGradient d none = .error .runtimeError ∧
      vbuildDiscreteGradient d none = .error .runtimeError) := by
  refine ⟨?_, ?_, ?_⟩
  · rintro rfl; simp [buildDiscreteGradient, hd, defaultNsym, nsym2d]
  · rintro rfl; simp [buildDiscreteGradient, hd, defaultNsym, nsym3d]
  · rintro ⟨h2, h3⟩
    have : (9 : ℕ) ≠ n ^ 2 := by
      intro h
      have : n = 3 := by nlinarith [Nat.lt_or_ge n 4, sq_nonneg (n : ℤ)]
      exact h3 this
    simp [buildDiscreteGradient, vbuildDiscreteGradient, hd, defaultNsym, h2, this, throw, throwThe,
      MonadExceptOf.throw]

/-- C16: loop and vectorised builders return the same matrix, for every derivative
table and every complete order. -/
theorem C16_sym {m n : ℕ} {co : List Comp} (h : CompleteSym n co) {d : Tensor}
    (hd : d.shape = [m, n]) :
    ∃ g g', buildDiscreteSymGradient d co = .ok g ∧ vbuildDiscreteSymGradient d co = .ok g' ∧
      SameTensor g g' := by
  obtain ⟨g, h1, h2, h3⟩ := buildSym_spec h.toValidPairs h.two_length hd
  obtain ⟨g', h4, h5, h6⟩ := vbuildSym_spec h.toValidPairs h.two_length hd
  refine ⟨g, g', h1, h4, same_two h2 h5 ?_⟩
  intro k hk q hq
  have hn : 0 < n := Nat.pos_of_ne_zero (by rintro rfl; simp at hq)
  have hq' : q = q / n * n + q % n := by rw [mul_comm]; exact (Nat.div_add_mod q n).symm
  rw [hq', h3 k _ (List.getElem?_eq_getElem hk) _ (Nat.div_lt_of_lt_mul (by rwa [mul_comm])) _ (Nat.mod_lt _ hn),
    h6 k _ (List.getElem?_eq_getElem hk) _ (Nat.div_lt_of_lt_mul (by rwa [mul_comm])) _ (Nat.mod_lt _ hn)]

/-- C16b: likewise for the full gradient. -/
theorem C16_nsym {m n : ℕ} {co : List Comp} (h : CompleteFull n co) {d : Tensor}
    (hd : d.shape = [m, n]) :
    ∃ g g', buildDiscreteGradient d (some co) = .ok g ∧
      vbuildDiscreteGradient d (some co) = .ok g' ∧ SameTensor g g' := by
  obtain ⟨g, h1, h2, h3⟩ := buildNsym_spec h.toValidPairs h.length_eq hd
  obtain ⟨g', h4, h5, h6⟩ := vbuildNsym_spec h.toValidPairs h.length_eq hd
  refine ⟨g, g', h1, h4, same_two h2 h5 ?_⟩
  intro k hk q hq
  have hn : 0 < n := Nat.pos_of_ne_zero (by rintro rfl; simp at hq)
  have hq' : q = q / n * n + q % n := by rw [mul_comm]; exact (Nat.div_add_mod q n).symm
  rw [hq', h3 k _ (List.getElem?_eq_getElem hk) _ (Nat.div_lt_of_lt_mul (by rwa [mul_comm])) _ (Nat.mod_lt _ hn),
    h6 k _ (List.getElem?_eq_getElem hk) _ (Nat.div_lt_of_lt_mul (by rwa [mul_comm])) _ (Nat.mod_lt _ hn)]

/-- C16c: both symmetric builders reject an order with the wrong number of components. -/
theorem C16_rejects {m n : ℕ} {co : List Comp} {d : Tensor} (hd : d.shape = [m, n])
    (hl : 2 * co.length ≠ n * (n + 1)) :
    buildDiscreteSymGradient d co = .error .runtimeError ∧
      vbuildDiscreteSymGradient d co = .error .runtimeError := by
  simp [buildDiscreteSymGradient, vbuildDiscreteSymGradient, hd, hl, throw, throwThe,
    MonadExceptOf.throw]

example : CompleteSym 3 sym3d ∧ CompleteFull 3 nsym3d ∧
    (⟨[8, 3], fun _ => 1⟩ : Tensor).shape = [8, 3] := ⟨sym3d_complete, nsym3d_complete, rfl⟩

/-! ## C17 patch test -/

/-- C17: for every element type, every nodal coordinates `X` and local point `c` with
nonsingular Jacobian, the nodal values of an affine displacement field `a + G x` have
displacement gradient exactly `G`: the discrete strain is the symmetric part of `G`, and
zero for a rigid motion (`G` skew). -/
theorem C17_patch (e : ElementType) {co : List Comp} (h : CompleteSym e.dim co)
    (X : Fin e.nNode → Fin e.dim → ℝ) (c : Fin e.dim → ℝ) (hJ : (e.jacobian X c).det ≠ 0)
    (a : Fin e.dim → ℝ) (G : Fin e.dim → Fin e.dim → ℝ) :
    let u := Tensor.ofFin2 fun n i => a i + ∑ j, G i j * X n j
    ∃ d J det g v, e.evalShapefunDeriv X c = .ok (d, J, det) ∧
      buildDiscreteSymGradient d co = .ok g ∧ computeInfinitesimalStrain g u = .ok v ∧
      IsEngVoigt co (Tensor.ofFin2 fun i j => (G i j + G j i) / 2) v ∧
      ((∀ i j, G i j = - G j i) → ∀ k < co.length, v.val [k] = 0) := by
  intro u
  obtain ⟨d, hd, hds, hdv⟩ := evalShapefunDeriv_ok e X c hJ
  obtain ⟨g, v, h1, h2, h3⟩ := C15_sym_gradient h hds (show u.shape = _ from rfl)
  have hg : ∀ i j : Fin e.dim, dispGrad e.nNode d u i j = G i j := fun i j =>
    affine_gradient e X c hJ a G hds hdv i j
  have hE : ∀ k a b, co[k]? = some [a, b] → v.val [k] =
      if a = b then (Tensor.ofFin2 fun i j => (G i j + G j i) / 2).val [a - 1, b - 1]
      else 2 * (Tensor.ofFin2 fun i j => (G i j + G j i) / 2).val [a - 1, b - 1] := by
    intro k a b hk
    rw [h3.2 k a b hk]
    obtain ⟨a', b', ha1, ha2, hb1, hb2, he⟩ := h.pair _ (List.mem_of_getElem? hk)
    obtain ⟨rfl, rfl⟩ : a = a' ∧ b = b' := by simpa using he
    have : (strainTensor e.nNode e.dim d u).val [a - 1, b - 1] =
        (Tensor.ofFin2 fun i j => (G i j + G j i) / 2).val [a - 1, b - 1] := by
      have e1 := hg ⟨a - 1, by omega⟩ ⟨b - 1, by omega⟩
      have e2 := hg ⟨b - 1, by omega⟩ ⟨a - 1, by omega⟩
      have hlt : a - 1 < e.dim ∧ b - 1 < e.dim := by omega
      simp only [strainTensor, List.getD_cons_zero, List.getD_cons_succ, Tensor.ofFin2, hlt,
        and_self, dite_true] at e1 e2 ⊢
      rw [e1, e2]
    rw [this]
  refine ⟨d, _, _, g, v, hd, h1, h2, ⟨h3.1, hE⟩, ?_⟩
  intro hs k hk
  obtain ⟨a, b, ha1, ha2, hb1, hb2, he⟩ := h.pair _ (List.getElem_mem hk)
  have hk' : co[k]? = some [a, b] := by rw [List.getElem?_eq_getElem hk, he]
  rw [hE k a b hk']
  have hlt : a - 1 < e.dim ∧ b - 1 < e.dim := by omega
  have : (Tensor.ofFin2 fun i j => (G i j + G j i) / 2).val [a - 1, b - 1] = 0 := by
    simp only [Tensor.ofFin2, List.getD_cons_zero, List.getD_cons_succ, hlt, and_self, dite_true]
    rw [hs ⟨a - 1, hlt.1⟩ ⟨b - 1, hlt.2⟩]
    ring
  rw [this]; simp

/-- The hypotheses of C17 are met by every reference element at every local point. -/
theorem reference_jacobian (e : ElementType) (c : Fin e.dim → ℝ) : (e.jacobian e.nodes c).det ≠ 0 := by
  have : e.jacobian e.nodes c = 1 := by
    ext i j
    rw [ElementType.jacobian, Matrix.mul_apply]
    simp only [Matrix.transpose_apply, Matrix.of_apply]
    rw [C13_nodes e c i j, Matrix.one_apply]
    simp [eq_comm]
  rw [this]; simp

/-- C17b: a singular Jacobian raises instead of returning derivatives. -/
theorem C17_singular_raises (e : ElementType) (X : Fin e.nNode → Fin e.dim → ℝ)
    (c : Fin e.dim → ℝ) (hJ : (e.jacobian X c).det = 0) :
    e.evalShapefunDeriv X c = .error .runtimeError := by
  simp [ElementType.evalShapefunDeriv, ElementType.evalJacobian, hJ, bind, Except.bind, throw,
    throwThe, MonadExceptOf.throw]

/-- C17c: with the determinant check requested `eval_jacobian` succeeds exactly for
positive determinants. -/
theorem C17_det_check (e : ElementType) (X : Fin e.nNode → Fin e.dim → ℝ) (c : Fin e.dim → ℝ) :
    (∃ r, e.evalJacobian X c true = .ok r) ↔ 0 < (e.jacobian X c).det := by
  simp only [ElementType.evalJacobian]
  by_cases h : (e.jacobian X c).det ≤ 0
  · simp [h]
  · simp [h]; exact not_le.1 h

end Hooke
