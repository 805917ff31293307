import Verif.Lemmas.InternalForces

namespace Hooke

open Spec

/-! ## C18, C19 element internal forces -/

/-- Dot product of a flattened element vector with a nodal field. -/
noncomputable def Spec.nodalDot (nNode n : ℕ) (f u : Tensor) : ℝ :=
  ∑ a ∈ Finset.range nNode, ∑ q ∈ Finset.range n, f.val [a * n + q] * u.val [a, q]

/-- C18: if the internal force computation of an element returns, then for some table
of Gauss point data - derivative tables `d g` evaluated at the element's Gauss points,
weights `w g`, Jacobian determinants `det g`, and the stress tensors `stress g` of the
returned states - the work of the forces on every nodal displacement field is the
quadrature sum of stress times strain. -/
theorem C18_virtual_work {σ : Type} {sf : StrainFormulation} {p : ℕ} {e : ElementType}
    {co cn : List Comp} (hp : getProblemTypeParameters p = .ok (e.dim, co, cn))
    {nGauss : ℕ} {rule : GaussRule e.dim} {mat : Material σ} {old : GpDict σ}
    {X : Fin e.nNode → Fin e.dim → ℝ} {uinc : Tensor} {r : IFState σ}
    (h : computeElementInternalForces sf p e nGauss rule mat old X uinc = .ok r) :
    r.forces.shape = [e.nNode * e.dim] ∧
    ∃ (w det : ℕ → ℝ) (d stress : ℕ → Tensor),
      (∀ g < nGauss, ∃ c J new t, rule[g]? = some (c, w g) ∧
        e.evalShapefunDeriv X c = .ok (d g, J, det g) ∧ det g = (e.jacobian X c).det ∧
        r.state (g + 1) = some (some new) ∧
        getTensorFromMf (mat.stressMf new) e.dim co true = .ok t ∧ SameTensor t (stress g)) ∧
      ∀ u : Tensor, u.shape = [e.nNode, e.dim] →
        nodalDot e.nNode e.dim r.forces u =
          ∑ g ∈ Finset.range nGauss, w g * det g *
            ∑ i ∈ Finset.range e.dim, ∑ j ∈ Finset.range e.dim,
              (stress g).val [i, j] * (strainTensor e.nNode e.dim (d g) u).val [i, j] := by
  have hco := (problemType_orders_complete hp).1
  obtain ⟨-, c, w, d, det, s, new, stress, b, hd, ho, hst, hsh, hq⟩ := internalForces_ok hp h
  refine ⟨hsh, w, det, d, stress, ?_, ?_⟩
  · intro g hg
    obtain ⟨si, ni, -, hn, hdone⟩ := hd g hg
    obtain ⟨J, hJ⟩ := hdone.deriv
    obtain ⟨_, sv, _, _, hsv, _⟩ := hdone.force
    obtain ⟨t, ht, hts⟩ := fromMf_of_v hco hdone.stressOk hsv
    refine ⟨c g, J, ni, t, hdone.point, hJ, (evalShapefunDeriv_inv hJ).2.1, ?_, ht, hts⟩
    rw [hst, if_pos (by omega)]
    simp [hn]
  · intro u hu
    have e1 : nodalDot e.nNode e.dim r.forces u = ∑ g ∈ Finset.range nGauss,
        ∑ a ∈ Finset.range e.nNode, ∑ q ∈ Finset.range e.dim,
          b g (a * e.dim + q) * u.val [a, q] := by
      rw [nodalDot, Finset.sum_comm]
      have : ∀ a q, r.forces.val [a * e.dim + q] * u.val [a, q] =
          ∑ g ∈ Finset.range nGauss, b g (a * e.dim + q) * u.val [a, q] := by
        intro a q
        rw [hq, Finset.sum_mul]
      simp only [this]
      rw [Finset.sum_comm, Finset.sum_comm (s := Finset.range nGauss)]
      refine Finset.sum_congr rfl fun a _ => ?_
      rw [Finset.sum_comm]
    rw [e1]
    refine Finset.sum_congr rfl fun g hg => ?_
    obtain ⟨si, ni, -, hn, hdone⟩ := hd g (Finset.mem_range.1 hg)
    obtain ⟨J, hJ⟩ := hdone.deriv
    obtain ⟨hJ0, -, hds, -⟩ := evalShapefunDeriv_inv hJ
    obtain ⟨_, sv, _, _, hsv, _⟩ := hdone.force
    exact gp_virtual_work hco hdone hds (vgetTensorFromMf_isSym hco hdone.stressOk hsv) hu

/-- C18b: no work on rigid motions: for every translation `t` and every skew `W`, the
forces do no work on the nodal field `t + W x`; in particular they sum to zero in every
direction. -/
theorem C18_self_equilibrated {σ : Type} {sf : StrainFormulation} {p : ℕ} {e : ElementType}
    {co cn : List Comp} (hp : getProblemTypeParameters p = .ok (e.dim, co, cn))
    {nGauss : ℕ} {rule : GaussRule e.dim} {mat : Material σ} {old : GpDict σ}
    {X : Fin e.nNode → Fin e.dim → ℝ} {uinc : Tensor} {r : IFState σ}
    (h : computeElementInternalForces sf p e nGauss rule mat old X uinc = .ok r) :
    (∀ (t : Fin e.dim → ℝ) (W : Fin e.dim → Fin e.dim → ℝ), (∀ i j, W i j = - W j i) →
      nodalDot e.nNode e.dim r.forces
        (Tensor.ofFin2 fun n i => t i + ∑ j, W i j * X n j) = 0) ∧
    ∀ q < e.dim, ∑ a ∈ Finset.range e.nNode, r.forces.val [a * e.dim + q] = 0 := by
  have hrigid : ∀ (t : Fin e.dim → ℝ) (W : Fin e.dim → Fin e.dim → ℝ), (∀ i j, W i j = - W j i) →
      nodalDot e.nNode e.dim r.forces
        (Tensor.ofFin2 fun n i => t i + ∑ j, W i j * X n j) = 0 := by
    intro t W hW
    obtain ⟨-, w, det, d, stress, hg, hvw⟩ := C18_virtual_work hp h
    rw [hvw _ rfl]
    refine Finset.sum_eq_zero fun g hgm => ?_
    obtain ⟨c, J, -, -, -, hJ, -⟩ := hg g (Finset.mem_range.1 hgm)
    obtain ⟨hJ0, -, hds, hdv⟩ := evalShapefunDeriv_inv hJ
    rw [Finset.sum_eq_zero, mul_zero]
    intro i hi
    refine Finset.sum_eq_zero fun j hj => ?_
    have hi' := Finset.mem_range.1 hi
    have hj' := Finset.mem_range.1 hj
    have e1 := affine_gradient e X c hJ0 t W hds hdv ⟨i, hi'⟩ ⟨j, hj'⟩
    have e2 := affine_gradient e X c hJ0 t W hds hdv ⟨j, hj'⟩ ⟨i, hi'⟩
    simp only [strainTensor, List.getD_cons_zero, List.getD_cons_succ]
    simp only at e1 e2
    rw [e1, e2, hW ⟨i, hi'⟩ ⟨j, hj'⟩]
    ring
  refine ⟨hrigid, ?_⟩
  intro q hq
  have := hrigid (fun i => if i = ⟨q, hq⟩ then 1 else 0) (fun _ _ => 0) (by simp)
  rw [nodalDot] at this
  rw [← this]
  refine Finset.sum_congr rfl fun a ha => ?_
  have ha' := Finset.mem_range.1 ha
  have e1 : ∀ k ∈ Finset.range e.dim, r.forces.val [a * e.dim + k] *
      (Tensor.ofFin2 fun (n : Fin e.nNode) i => (if i = (⟨q, hq⟩ : Fin e.dim) then (1 : ℝ) else 0) +
        ∑ j, 0 * X n j).val [a, k] = if k = q then r.forces.val [a * e.dim + k] else 0 := by
    intro k hk
    have hk' := Finset.mem_range.1 hk
    simp [Tensor.ofFin2, ha', hk']
  rw [Finset.sum_congr rfl e1, Finset.sum_ite_eq', if_pos (Finset.mem_range.2 hq)]

/-- C19: if the computation returns, the caller's dictionary of old states is unchanged;
the returned state of each Gauss point is what the material returned from the old state
of that point and the strain increment of that point (the strain of the interpolated
incremental displacements), whatever the material did to the copy it was given; entries
of `element_state_old` that are no Gauss point are returned as `None`. -/
theorem C19_states {σ : Type} {sf : StrainFormulation} {p : ℕ} {e : ElementType}
    {co cn : List Comp} (hp : getProblemTypeParameters p = .ok (e.dim, co, cn))
    {nGauss : ℕ} {rule : GaussRule e.dim} {mat : Material σ} {old : GpDict σ}
    {X : Fin e.nNode → Fin e.dim → ℝ} {uinc : Tensor} (hu : uinc.shape = [e.nNode, e.dim])
    {r : IFState σ}
    (h : computeElementInternalForces sf p e nGauss rule mat old X uinc = .ok r) :
    r.old = old ∧
    (∀ g < nGauss, ∃ c w d J det s inc new rest, rule[g]? = some (c, w) ∧
      e.evalShapefunDeriv X c = .ok (d, J, det) ∧
      SameTensor inc (strainTensor e.nNode e.dim d uinc) ∧
      old (g + 1) = some s ∧ mat.stateUpdate inc s = .ok (new, rest) ∧
      r.state (g + 1) = some (some new)) ∧
    ∀ k, (k = 0 ∨ nGauss < k) → r.state k = (old k).map fun _ => none := by
  have hco := (problemType_orders_complete hp).1
  obtain ⟨-, c, w, d, det, s, new, stress, b, hd, ho, hst, hsh, hq⟩ := internalForces_ok hp h
  refine ⟨ho, ?_, ?_⟩
  · intro g hg
    obtain ⟨si, ni, -, hn, hdone⟩ := hd g hg
    obtain ⟨J, hJ⟩ := hdone.deriv
    obtain ⟨gr, v, inc, rest, hgr, hv, hinc, hup⟩ := hdone.update
    obtain ⟨hJ0, -, hds, -⟩ := evalShapefunDeriv_inv hJ
    refine ⟨c g, w g, d g, _, _, si, inc, ni, rest, hdone.point, hJ, ?_, hdone.oldState, hup, ?_⟩
    · exact incStrain_same hco hds hu hgr hv hinc
    · rw [hst, if_pos (by omega)]
      simp [hn]
  · intro k hk
    rw [hst, if_neg (by omega)]

/-- C19b: an unsupported strain formulation, or an element whose dimension is not that of
the problem, raises (as soon as there is a Gauss point with nonsingular Jacobian). -/
theorem C19_unsupported_raises {σ : Type} {sf : StrainFormulation} {p n : ℕ} {e : ElementType}
    {co cn : List Comp} (hp : getProblemTypeParameters p = .ok (n, co, cn))
    (hbad : sf ≠ .infinitesimal ∨ n ≠ e.dim)
    {nGauss : ℕ} (hg : 0 < nGauss) (rule : GaussRule e.dim) (mat : Material σ) (old : GpDict σ)
    (X : Fin e.nNode → Fin e.dim → ℝ) (uinc : Tensor) :
    ∃ err, computeElementInternalForces sf p e nGauss rule mat old X uinc = .error err := by
  cases hr : computeElementInternalForces sf p e nGauss rule mat old X uinc with
  | error err => exact ⟨err, rfl⟩
  | ok r =>
    exfalso
    obtain ⟨hsf, c, w, d, det, s, new, stress, b, hd, -⟩ := internalForces_ok hp hr
    rcases hbad with hbad | hbad
    · exact hbad (hsf hg)
    · obtain ⟨si, ni, -, -, hdone⟩ := hd 0 hg
      obtain ⟨J, hJ⟩ := hdone.deriv
      obtain ⟨gr, -, -, -, hgr, -⟩ := hdone.update
      obtain ⟨hJ0, -, hds, -⟩ := evalShapefunDeriv_inv hJ
      have hl := (problemType_orders_complete hp).1.two_length
      have hne : 2 * co.length ≠ e.dim * (e.dim + 1) := by
        rw [hl]
        intro h
        rcases Nat.lt_trichotomy n e.dim with h1 | h1 | h1
        · nlinarith
        · exact hbad h1
        · nlinarith
      rw [(C16_rejects hds hne).2] at hgr
      simp at hgr

/-- C19c: the computation returns whenever the Jacobian is nonsingular at every Gauss
point, every Gauss point has an old state, and the material always returns a state whose
stress has one entry per component. -/
theorem C19_returns {σ : Type} {p : ℕ} {e : ElementType}
    {co cn : List Comp} (hp : getProblemTypeParameters p = .ok (e.dim, co, cn))
    {rule : GaussRule e.dim} {mat : Material σ} {old : GpDict σ}
    {X : Fin e.nNode → Fin e.dim → ℝ} {uinc : Tensor} (hu : uinc.shape = [e.nNode, e.dim])
    (hJ : ∀ c w, (c, w) ∈ rule → (e.jacobian X c).det ≠ 0)
    (hold : ∀ g < rule.length, (old (g + 1)).isSome)
    (hmat : ∀ inc s, ∃ new rest, mat.stateUpdate inc s = .ok (new, rest) ∧
      (mat.stressMf new).shape = [co.length]) :
    ∃ r, computeElementInternalForces .infinitesimal p e rule.length rule mat old X uinc =
      .ok r := by
  have hco := (problemType_orders_complete hp).1
  have key : ∀ m ≤ rule.length, ∃ r : IFState σ, (List.range m).foldlM
      (gaussStep .infinitesimal p e.dim co e rule mat X uinc)
      { forces := Tensor.zeros [e.nNode * e.dim]
        state := fun k => (old k).map fun _ => none
        old := old } = .ok r ∧ r.old = old ∧ r.forces.shape = [e.nNode * e.dim] := by
    intro m hm
    induction m with
    | zero => exact ⟨_, rfl, rfl, rfl⟩
    | succ m ih =>
      obtain ⟨acc, h1, h2, h3⟩ := ih (by omega)
      rw [foldlM_range_succ, h1]
      change ∃ r, gaussStep _ _ _ _ _ _ _ _ _ acc m = .ok r ∧ _
      obtain ⟨⟨c, w⟩, hcw⟩ : ∃ x, rule[m]? = some x := ⟨_, List.getElem?_eq_getElem (by omega)⟩
      obtain ⟨d, hd, hds, -⟩ := evalShapefunDeriv_ok e X c (hJ c w (List.mem_of_getElem? hcw))
      obtain ⟨g, hg, hgs, -⟩ := vbuildSym_spec hco.toValidPairs hco.two_length hds
      obtain ⟨v, hv, hvs, -⟩ := matVec_flatten hgs hu
      obtain ⟨inc, hinc, -⟩ := vgetStrainFromVmf_sym hco hvs
      obtain ⟨s, hs⟩ := Option.isSome_iff_exists.1 (hold m (by omega))
      obtain ⟨new, rest, hn, hns⟩ := hmat inc s
      obtain ⟨t, ht, hts, -⟩ := vgetTensorFromMf_sym hco true hns
      obtain ⟨sv, hsv, hsvs, -⟩ := vgetStressVmf_two hco.toValidPairs hts
      have hstep : ∀ b : Tensor, g.transpose.matVec sv = .ok b → b.shape = [e.nNode * e.dim] →
          ∃ r, gaussStep .infinitesimal p e.dim co e rule mat X uinc acc m = .ok r ∧
            r.old = old ∧ r.forces.shape = [e.nNode * e.dim] := by
        intro b hb hbs
        refine ⟨⟨⟨acc.forces.shape, fun idx => acc.forces.val idx + w * b.val idx *
          (e.jacobian X c).det⟩, Function.update acc.state (m + 1) (some (some new)), acc.old⟩,
          ?_, h2, h3⟩
        simp only [gaussStep, hcw, orRaise, bind, Except.bind, hd, hg, incStrain, if_true, hv, hinc,
          h2, hs, materialStateUpdate, hp, hn, ht, hsv, hb, Tensor.addVec, h3, hbs, reduceCtorEq,
          false_and, if_false, ne_eq, not_true_eq_false, pure, Except.pure]
      refine hstep ⟨[e.nNode * e.dim], fun idx => ∑ k ∈ Finset.range co.length,
        g.transpose.val [idx.getD 0 0, k] * sv.val [k]⟩ ?_ rfl
      simp [Tensor.matVec, Tensor.transpose, hgs, hsvs]
  obtain ⟨r, hr, -⟩ := key rule.length le_rfl
  refine ⟨r, ?_⟩
  unfold computeElementInternalForces
  rw [hp]
  exact hr

/-- A linear spring-like material: the state is the strain, the stress is the strain in
matricial form scaled by 3; it clears the dictionary it is given.  Used to show that the
hypotheses of C18 and C19 are met by a computation with nonzero forces. -/
noncomputable def demoMaterial : Material Tensor where
  stateUpdate inc old := .ok (⟨[3], fun idx => old.val idx +
    3 * inc.val (if idx = [0] then [0, 0] else if idx = [1] then [1, 1] else [0, 1])⟩,
    Tensor.zeros [])
  stressMf s := s
  isFiniteKinext := false

example (uinc : Tensor) (hu : uinc.shape = [4, 2]) :
    ∃ rule r, ElementType.quad4.init 4 = .ok rule ∧
      computeElementInternalForces .infinitesimal 1 .quad4 rule.length rule demoMaterial
        (fun _ => some (Tensor.zeros [3])) ElementType.quad4.nodes uinc = .ok r := by
  obtain ⟨rule, hr, -⟩ := (C14_element_init .quad4 4).1 (by simp [ElementType.admissibleGauss])
  obtain ⟨r, h⟩ := C19_returns (p := 1) (e := .quad4) (co := [[1,1],[2,2],[1,2]])
    (mat := demoMaterial) (old := fun _ => some (Tensor.zeros [3])) (X := ElementType.quad4.nodes)
    (rule := rule) (by rfl) hu (fun c _ _ => reference_jacobian .quad4 c) (fun _ _ => rfl)
    (fun inc s => ⟨_, _, rfl, rfl⟩)
  exact ⟨rule, r, hr, h⟩

end Hooke
