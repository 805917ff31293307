import Verif.Spec.FrameForces
import Verif.Props.InternalForces
import Verif.Props.Mesh
import Verif.Props.ForceEquilibrium
import Verif.Props.Objectivity

/-!
# C145: internal forces and the loss do not depend on the axes or on the numbering of the nodes
-/

noncomputable section

namespace Hooke

open Spec

/-! ## One element -/

theorem jacobian_moved (e : ElementType) (Q : T2 e.dim) (t : Fin e.dim → ℝ)
    (X : Fin e.nNode → Fin e.dim → ℝ) (c : Fin e.dim → ℝ) :
    e.jacobian (moved Q t X) c = e.jacobian X c * (Matrix.of Q).transpose := by
  ext k i
  simp only [ElementType.jacobian, Matrix.mul_apply, Matrix.transpose_apply, Matrix.of_apply, moved]
  have e1 : ∀ a, e.localDeriv c a k * (t i + ∑ j, Q i j * X a j) =
      e.localDeriv c a k * t i + ∑ j, e.localDeriv c a k * X a j * Q i j := by
    intro a
    rw [mul_add, Finset.mul_sum]
    congr 1
    refine Finset.sum_congr rfl fun j _ => by ring
  simp only [e1, Finset.sum_add_distrib]
  rw [← Finset.sum_mul, C13_sum_zero, zero_mul, zero_add, Finset.sum_comm]
  simp only [Finset.sum_mul]

theorem jacobian_moved_det (e : ElementType) {Q : T2 e.dim} (hQ : IsRotation Q) (t : Fin e.dim → ℝ)
    (X : Fin e.nNode → Fin e.dim → ℝ) (c : Fin e.dim → ℝ) :
    (e.jacobian (moved Q t X) c).det = (e.jacobian X c).det := by
  rw [jacobian_moved, Matrix.det_mul, Matrix.det_transpose, hQ.det_one, mul_one]

theorem jacobian_moved_inv (e : ElementType) {Q : T2 e.dim} (hQ : IsRotation Q) (t : Fin e.dim → ℝ)
    (X : Fin e.nNode → Fin e.dim → ℝ) (c : Fin e.dim → ℝ) :
    (e.jacobian (moved Q t X) c)⁻¹ = Matrix.of Q * (e.jacobian X c)⁻¹ := by
  rw [jacobian_moved, Matrix.mul_inv_rev]
  congr 1
  exact Matrix.inv_eq_right_inv (orthogonal_matrix' hQ.orthogonal)

/-- The derivative table of the moved element. -/
theorem deriv_moved {e : ElementType} {Q : T2 e.dim} (hQ : IsRotation Q) {t : Fin e.dim → ℝ}
    {X : Fin e.nNode → Fin e.dim → ℝ} {c : Fin e.dim → ℝ} {d d' : Tensor} {J J' det det'}
    (h : e.evalShapefunDeriv X c = .ok (d, J, det))
    (h' : e.evalShapefunDeriv (moved Q t X) c = .ok (d', J', det')) :
    det' = det ∧ TurnedNodal e.nNode Q d d' := by
  obtain ⟨-, h1, -, h2⟩ := evalShapefunDeriv_inv h
  obtain ⟨-, h1', -, h2'⟩ := evalShapefunDeriv_inv h'
  refine ⟨by rw [h1, h1', jacobian_moved_det e hQ], fun a i => ?_⟩
  rw [h2', jacobian_moved_inv e hQ]
  simp only [h2, Matrix.mul_apply, Matrix.of_apply, Finset.sum_mul, Finset.mul_sum]
  rw [Finset.sum_comm]
  refine Finset.sum_congr rfl fun j _ => Finset.sum_congr rfl fun k _ => by ring

theorem dispGrad_turned {m n : ℕ} {Q : T2 n} {d d' u u' : Tensor} (hd : TurnedNodal m Q d d')
    (hu : TurnedNodal m Q u u') (i j : Fin n) :
    dispGrad m d' u' i j = ∑ k : Fin n, ∑ l : Fin n, Q i k * dispGrad m d u k l * Q j l := by
  simp only [dispGrad, Finset.sum_range]
  have e1 : ∀ a : Fin m, u'.val [a, i] * d'.val [a, j] =
      ∑ k : Fin n, ∑ l : Fin n, Q i k * (u.val [a, k] * d.val [a, l]) * Q j l := by
    intro a
    rw [hu a i, hd a j, Finset.sum_mul]
    refine Finset.sum_congr rfl fun k _ => ?_
    rw [Finset.mul_sum]
    refine Finset.sum_congr rfl fun l _ => by ring
  simp only [e1, Finset.mul_sum, Finset.sum_mul]
  rw [Finset.sum_comm]
  refine Finset.sum_congr rfl fun k _ => ?_
  rw [Finset.sum_comm]

theorem strain_turned {m n : ℕ} {Q : T2 n} {d d' u u' : Tensor} (hd : TurnedNodal m Q d d')
    (hu : TurnedNodal m Q u u') :
    tens2 n (strainTensor m n d' u') = rotate Q (tens2 n (strainTensor m n d u)) := by
  funext i j
  simp only [tens2, rotate, strainTensor, List.getD_cons_zero, List.getD_cons_succ]
  have hc : ∑ k : Fin n, ∑ l : Fin n, Q j k * dispGrad m d u k l * Q i l =
      ∑ k : Fin n, ∑ l : Fin n, Q j l * dispGrad m d u l k * Q i k := Finset.sum_comm
  rw [dispGrad_turned hd hu, dispGrad_turned hd hu j i, hc, ← Finset.sum_add_distrib, Finset.sum_div]
  refine Finset.sum_congr rfl fun k _ => ?_
  rw [← Finset.sum_add_distrib, Finset.sum_div]
  refine Finset.sum_congr rfl fun l _ => by ring

theorem strainTensor_isSym (m n : ℕ) (d u : Tensor) : IsSym2 n (strainTensor m n d u) := by
  refine ⟨rfl, fun i _ j _ => ?_⟩
  simp only [strainTensor, List.getD_cons_zero, List.getD_cons_succ]
  ring

theorem SameTensor_tens2 {n : ℕ} {a b : Tensor} (h : SameTensor a b) (hb : b.shape = [n, n]) :
    tens2 n a = tens2 n b := by
  funext i j
  exact h.2 _ (by rw [h.1, hb]; exact .cons i.2 (.cons j.2 .nil))

theorem SameTensor_isSym2 {n : ℕ} {a b : Tensor} (h : SameTensor a b) (hb : IsSym2 n b) : IsSym2 n a := by
  refine ⟨by rw [h.1, hb.1], fun i hi j hj => ?_⟩
  rw [h.2 [i, j] (by rw [h.1, hb.1]; exact .cons hi (.cons hj .nil)),
    h.2 [j, i] (by rw [h.1, hb.1]; exact .cons hj (.cons hi .nil))]
  exact hb.2 i hi j hj

/-- Force of one Gauss point on one node. -/
theorem gp_force {σ : Type} {p : ℕ} {co : List Comp} {e : ElementType}
    (hco : CompleteSym e.dim co) {rule : GaussRule e.dim} {mat : Material σ}
    {X : Fin e.nNode → Fin e.dim → ℝ} {uinc : Tensor} {old : GpDict σ} {i : ℕ}
    {c : Fin e.dim → ℝ} {w : ℝ} {d : Tensor} {det : ℝ} {s new : σ} {stress : Tensor} {b : ℕ → ℝ}
    (h : GpDone p e.dim co e rule mat X uinc old i c w d det s new stress b)
    (hds : d.shape = [e.nNode, e.dim])
    (hstress : IsSym2 e.dim stress) (a : Fin e.nNode) (q : Fin e.dim) :
    b (a * e.dim + q) = w * det * ∑ l : Fin e.dim, tens2 e.dim stress q l * d.val [a, l] := by
  have key := gp_virtual_work hco h hds hstress
    (du := ⟨[e.nNode, e.dim], fun idx => if idx = [(a : ℕ), (q : ℕ)] then 1 else 0⟩) rfl
  have hl : ∑ a' ∈ Finset.range e.nNode, ∑ q' ∈ Finset.range e.dim, b (a' * e.dim + q') *
      (if [a', q'] = [(a : ℕ), (q : ℕ)] then (1 : ℝ) else 0) = b (a * e.dim + q) := by
    rw [Finset.sum_eq_single (a : ℕ), Finset.sum_eq_single (q : ℕ)]
    · simp
    · intro q' _ hq
      rw [if_neg (by simp [hq]), mul_zero]
    · intro hq
      exact absurd (Finset.mem_range.2 q.2) hq
    · intro a' _ ha
      refine Finset.sum_eq_zero fun q' _ => ?_
      rw [if_neg (by simp [ha]), mul_zero]
    · intro ha
      exact absurd (Finset.mem_range.2 a.2) ha
  rw [hl] at key
  rw [key]
  congr 1
  have hg : ∀ k l, dispGrad e.nNode d ⟨[e.nNode, e.dim],
      fun idx => if idx = [(a : ℕ), (q : ℕ)] then 1 else 0⟩ k l = if k = q then d.val [a, l] else 0 := by
    intro k l
    simp only [dispGrad]
    rw [Finset.sum_eq_single (a : ℕ)]
    · by_cases hk : k = q
      · simp [hk]
      · simp [hk]
    · intro a' _ ha
      rw [if_neg (by simp [ha]), zero_mul]
    · intro ha
      exact absurd (Finset.mem_range.2 a.2) ha
  simp only [strainTensor, List.getD_cons_zero, List.getD_cons_succ, hg]
  have hs : ∑ k ∈ Finset.range e.dim, ∑ l ∈ Finset.range e.dim, stress.val [k, l] *
      (((if k = q then d.val [a, l] else 0) + if l = q then d.val [a, k] else 0) / 2) =
      (∑ l ∈ Finset.range e.dim, stress.val [q, l] * d.val [a, l]) / 2 +
        (∑ k ∈ Finset.range e.dim, stress.val [k, q] * d.val [a, k]) / 2 := by
    have e1 : ∀ k l, stress.val [k, l] *
        (((if k = (q : ℕ) then d.val [a, l] else 0) + if l = (q : ℕ) then d.val [a, k] else 0) / 2) =
        (if k = (q : ℕ) then stress.val [k, l] * d.val [a, l] / 2 else 0) +
          if l = (q : ℕ) then stress.val [k, l] * d.val [a, k] / 2 else 0 := by
      intro k l
      split_ifs <;> ring
    simp only [e1, Finset.sum_add_distrib]
    rw [Finset.sum_comm]
    simp only [Finset.sum_ite_eq', Finset.mem_range, q.2, if_true, Finset.sum_div]
  rw [hs]
  have hsym : ∑ k ∈ Finset.range e.dim, stress.val [k, q] * d.val [a, k] =
      ∑ l ∈ Finset.range e.dim, stress.val [q, l] * d.val [a, l] := by
    refine Finset.sum_congr rfl fun k hk => ?_
    rw [hstress.2 k (Finset.mem_range.1 hk) q q.2]
  rw [hsym, add_halves, Finset.sum_range]
  rfl

/-- The computation returns when every Gauss point can be computed. -/
theorem internalForces_exist {σ : Type} {p : ℕ} {e : ElementType}
    {co cn : List Comp} (hp : getProblemTypeParameters p = .ok (e.dim, co, cn))
    {rule : GaussRule e.dim} {mat : Material σ} {old : GpDict σ} {nGauss : ℕ}
    {X : Fin e.nNode → Fin e.dim → ℝ} {uinc : Tensor} (hu : uinc.shape = [e.nNode, e.dim])
    (hpt : ∀ g < nGauss, ∃ c w s, rule[g]? = some (c, w) ∧ (e.jacobian X c).det ≠ 0 ∧
      old (g + 1) = some s ∧ ∀ d J det inc, e.evalShapefunDeriv X c = .ok (d, J, det) →
        SameTensor inc (strainTensor e.nNode e.dim d uinc) →
        ∃ new rest, mat.stateUpdate inc s = .ok (new, rest) ∧ (mat.stressMf new).shape = [co.length]) :
    ∃ r, computeElementInternalForces .infinitesimal p e nGauss rule mat old X uinc = .ok r := by
  have hco := (problemType_orders_complete hp).1
  have key : ∀ m ≤ nGauss, ∃ r : IFState σ, (List.range m).foldlM
      (gaussStep .infinitesimal p e.dim co e rule mat X uinc)
      { forces := Tensor.zeros [e.nNode * e.dim]
        state := fun k => (old k).map fun _ => none
        old := old } = .ok r ∧ r.old = old ∧ r.forces.shape = [e.nNode * e.dim] := by
    intro m hm
    induction m with
    | zero => exact ⟨_, rfl, rfl, rfl⟩
    | succ m ih =>
      obtain ⟨acc, h1, h2, h3⟩ := ih (by omega)
      rw [foldlM_range_succ, h1]
      change ∃ r, gaussStep _ _ _ _ _ _ _ _ _ acc m = .ok r ∧ _
      obtain ⟨c, w, s, hcw, hJ, hs, hmat⟩ := hpt m (by omega)
      obtain ⟨d, hd, hds, -⟩ := evalShapefunDeriv_ok e X c hJ
      obtain ⟨g, hg, hgs, -⟩ := vbuildSym_spec hco.toValidPairs hco.two_length hds
      obtain ⟨v, hv, hvs, -⟩ := matVec_flatten hgs hu
      obtain ⟨inc, hinc, -⟩ := vgetStrainFromVmf_sym hco hvs
      obtain ⟨new, rest, hn, hns⟩ := hmat d _ _ inc hd (incStrain_same hco hds hu hg hv hinc)
      obtain ⟨t, ht, hts, -⟩ := vgetTensorFromMf_sym hco true hns
      obtain ⟨sv, hsv, hsvs, -⟩ := vgetStressVmf_two hco.toValidPairs hts
      have hstep : ∀ b : Tensor, g.transpose.matVec sv = .ok b → b.shape = [e.nNode * e.dim] →
          ∃ r, gaussStep .infinitesimal p e.dim co e rule mat X uinc acc m = .ok r ∧
            r.old = old ∧ r.forces.shape = [e.nNode * e.dim] := by
        intro b hb hbs
        refine ⟨⟨⟨acc.forces.shape, fun idx => acc.forces.val idx + w * b.val idx *
          (e.jacobian X c).det⟩, Function.update acc.state (m + 1) (some (some new)), acc.old⟩,
          ?_, h2, h3⟩
        simp only [gaussStep, hcw, orRaise, bind, Except.bind, hd, hg, incStrain, if_true, hv, hinc,
          h2, hs, materialStateUpdate, hp, hn, ht, hsv, hb, Tensor.addVec, h3, hbs, reduceCtorEq,
          false_and, if_false, ne_eq, not_true_eq_false, pure, Except.pure]
      refine hstep ⟨[e.nNode * e.dim], fun idx => ∑ k ∈ Finset.range co.length,
        g.transpose.val [idx.getD 0 0, k] * sv.val [k]⟩ ?_ rfl
      simp [Tensor.matVec, Tensor.transpose, hgs, hsvs]
  obtain ⟨r, hr, -⟩ := key nGauss le_rfl
  refine ⟨r, ?_⟩
  unfold computeElementInternalForces
  rw [hp]
  exact hr

theorem stressMf_shape {n : ℕ} {co : List Comp} {m t sv : Tensor}
    (ht : vgetTensorFromMf m n co = .ok t) (hs : vgetStressVmf t n co = .ok sv) : m.shape = [co.length] := by
  by_contra hm
  unfold vgetTensorFromMf at ht
  split at ht
  · rename_i m' hm'
    obtain ⟨k, -, ht⟩ := bind_ok ht
    have hl : m' ≠ co.length := fun hl => hm (by rw [hm', hl])
    split_ifs at ht <;> cases ht
  · obtain ⟨k, -, ht⟩ := bind_ok ht
    split_ifs at ht <;> simp [throw, throwThe, MonadExceptOf.throw, pure, Except.pure] at ht
    subst ht
    simp [vgetStressVmf, throw, throwThe, MonadExceptOf.throw] at hs
  · simp [throw, throwThe, MonadExceptOf.throw] at ht

theorem turned_force {n : ℕ} {Q S : T2 n} (hQ : IsOrthogonal Q) (x : Fin n → ℝ) (i : Fin n) :
    ∑ l, rotate Q S i l * ∑ j, Q l j * x j = ∑ k, Q i k * ∑ l, S k l * x l := by
  have h1 : ∑ l, rotate Q S i l * ∑ j, Q l j * x j =
      ((Matrix.of (rotate Q S)).mulVec ((Matrix.of Q).mulVec x)) i := rfl
  have h2 : ∑ k, Q i k * ∑ l, S k l * x l = ((Matrix.of Q).mulVec ((Matrix.of S).mulVec x)) i := rfl
  rw [h1, h2, rotate_matrix, Matrix.mulVec_mulVec, Matrix.mulVec_mulVec, Matrix.mul_assoc,
    orthogonal_matrix' hQ, Matrix.mul_one]

/-- **C145.** Turn and move the nodes of an element, turn its displacement increments and its old states:
with a material without preferred directions the computation returns as well, the new states are the
turned states and the force on every node is the turned force. -/
theorem C145_element_forces {σ : Type} {p : ℕ} {e : ElementType}
    {co cn : List Comp} (hp : getProblemTypeParameters p = .ok (e.dim, co, cn))
    {nGauss : ℕ} {rule : GaussRule e.dim} {mat : Material σ} {old old' : GpDict σ}
    {X : Fin e.nNode → Fin e.dim → ℝ} {u u' : Tensor} (hu : u.shape = [e.nNode, e.dim])
    (hu' : u'.shape = [e.nNode, e.dim]) {Q : T2 e.dim} (hQ : IsRotation Q) (t : Fin e.dim → ℝ)
    {turn : σ → σ → Prop} (hmat : Isotropic mat e.dim co Q turn) (hut : TurnedNodal e.nNode Q u u')
    (hold : ∀ k, Option.Rel turn (old k) (old' k)) {r : IFState σ}
    (h : computeElementInternalForces .infinitesimal p e nGauss rule mat old X u = .ok r) :
    ∃ r', computeElementInternalForces .infinitesimal p e nGauss rule mat old' (moved Q t X) u' = .ok r' ∧
      (∀ k, Option.Rel (Option.Rel turn) (r.state k) (r'.state k)) ∧
      ∀ (a : Fin e.nNode) (i : Fin e.dim), r'.forces.val [a * e.dim + i] =
        ∑ j : Fin e.dim, Q i j * r.forces.val [a * e.dim + j] := by
  have hco := (problemType_orders_complete hp).1
  obtain ⟨-, c, w, d, det, s, new, stress, b, hd, ho, hst, hsh, hq⟩ := internalForces_ok hp h
  have hup : ∀ g < nGauss, ∃ s s', old (g + 1) = some s ∧ old' (g + 1) = some s' ∧ turn s s' ∧
      ∀ d' J det inc', e.evalShapefunDeriv (moved Q t X) (c g) = .ok (d', J, det) →
        SameTensor inc' (strainTensor e.nNode e.dim d' u') → ∃ ni new' rest, new g = some ni ∧
          mat.stateUpdate inc' s' = .ok (new', rest) ∧ turn ni new' ∧
          (mat.stressMf new').shape = [co.length] := by
    intro g hg
    obtain ⟨si, ni, -, hni, hdone⟩ := hd g hg
    have hk := hold (g + 1)
    rw [hdone.oldState] at hk
    obtain ⟨s', hs', ht⟩ : ∃ s', old' (g + 1) = some s' ∧ turn si s' := by
      generalize old' (g + 1) = o' at hk ⊢
      cases hk with
      | some hk => exact ⟨_, rfl, hk⟩
    refine ⟨si, s', hdone.oldState, hs', ht, fun d' J' det' inc' hd' hinc' => ?_⟩
    obtain ⟨J, hJ⟩ := hdone.deriv
    obtain ⟨gr, v, inc, rest, hgr, hv, hinc, hup⟩ := hdone.update
    obtain ⟨hJ0, -, hds, -⟩ := evalShapefunDeriv_inv hJ
    obtain ⟨_, sv, _, _, hsv, _⟩ := hdone.force
    have hsame := incStrain_same hco hds hu hgr hv hinc
    obtain ⟨-, hdt⟩ := deriv_moved hQ hJ hd'
    obtain ⟨new', rest', h1, h2⟩ := hmat.update inc inc' si s' ni rest
      (SameTensor_isSym2 hsame (strainTensor_isSym _ _ _ _))
      (SameTensor_isSym2 hinc' (strainTensor_isSym _ _ _ _))
      (by rw [SameTensor_tens2 hsame rfl, SameTensor_tens2 hinc' rfl, strain_turned hdt hut]) ht hup
    exact ⟨ni, new', rest', hni, h1, h2,
      by rw [hmat.shape _ _ h2]; exact stressMf_shape hdone.stressOk hsv⟩
  obtain ⟨r', hr'⟩ := internalForces_exist (nGauss := nGauss) hp (mat := mat) (old := old') (rule := rule)
    (X := moved Q t X) hu' (by
      intro g hg
      obtain ⟨si, ni, -, -, hdone⟩ := hd g hg
      obtain ⟨J, hJ⟩ := hdone.deriv
      obtain ⟨hJ0, -⟩ := evalShapefunDeriv_inv hJ
      obtain ⟨s, s', -, hs', -, hrest⟩ := hup g hg
      refine ⟨c g, w g, s', hdone.point, by rw [jacobian_moved_det e hQ]; exact hJ0, hs', ?_⟩
      intro d' J' det' inc' h1 h2
      obtain ⟨_, new', rest, -, h3, -, h4⟩ := hrest d' J' det' inc' h1 h2
      exact ⟨new', rest, h3, h4⟩)
  refine ⟨r', hr', ?_⟩
  obtain ⟨-, c', w', d', det', s', new', stress', b', hd', ho', hst', hsh', hq'⟩ := internalForces_ok hp hr'
  have hnew : ∀ g < nGauss, Option.Rel turn (new g) (new' g) ∧ ∀ (a : Fin e.nNode) (i : Fin e.dim),
      b' g (a * e.dim + i) = ∑ j : Fin e.dim, Q i j * b g (a * e.dim + j) := by
    intro g hg
    obtain ⟨si, ni, -, hni, hdone⟩ := hd g hg
    obtain ⟨si', ni', -, hni', hdone'⟩ := hd' g hg
    obtain ⟨J, hJ⟩ := hdone.deriv
    obtain ⟨J', hJ'⟩ := hdone'.deriv
    have hpt := hdone.point.symm.trans hdone'.point
    simp only [Option.some.injEq, Prod.mk.injEq] at hpt
    obtain ⟨hc, hw⟩ := hpt
    rw [← hc] at hJ'
    obtain ⟨hdet, hdt⟩ := deriv_moved hQ hJ hJ'
    obtain ⟨hJ0, -, hds, -⟩ := evalShapefunDeriv_inv hJ
    obtain ⟨-, -, hds', -⟩ := evalShapefunDeriv_inv hJ'
    obtain ⟨gr, v, inc, rest, hgr, hv, hinc, hupd⟩ := hdone'.update
    obtain ⟨s1, s2, -, hs2, -, hrest⟩ := hup g hg
    have hs2' := hs2.symm.trans hdone'.oldState
    cases hs2'
    obtain ⟨ni2, new2, rest2, hni2, hu2, htn, -⟩ :=
      hrest _ _ _ inc hJ' (incStrain_same hco hds' hu' hgr hv hinc)
    rw [hni] at hni2
    cases hni2
    have := hu2.symm.trans hupd
    cases this
    refine ⟨by rw [hni, hni']; exact .some htn, fun a i => ?_⟩
    obtain ⟨_, sv, _, _, hsv, _⟩ := hdone.force
    obtain ⟨_, sv', _, _, hsv', _⟩ := hdone'.force
    have hsy := vgetTensorFromMf_isSym hco hdone.stressOk hsv
    have hsy' := vgetTensorFromMf_isSym hco hdone'.stressOk hsv'
    obtain ⟨t1, ht1, hts1⟩ := fromMf_of_v hco hdone.stressOk hsv
    obtain ⟨t2, ht2, hts2⟩ := fromMf_of_v hco hdone'.stressOk hsv'
    have hstress := hmat.stress _ _ _ _ htn ht1 ht2
    rw [SameTensor_tens2 hts1 hsy.1, SameTensor_tens2 hts2 hsy'.1] at hstress
    rw [gp_force hco hdone' hds' hsy' a i, hstress, hdet, ← hw]
    simp only [gp_force hco hdone hds hsy a, hdt a]
    rw [turned_force hQ.orthogonal, Finset.mul_sum]
    refine Finset.sum_congr rfl fun k _ => by ring
  constructor
  · intro k
    rw [hst, hst']
    by_cases hk : 1 ≤ k ∧ k ≤ nGauss
    · rw [if_pos hk, if_pos hk]
      exact .some (hnew (k - 1) (by omega)).1
    · rw [if_neg hk, if_neg hk]
      have := hold k
      generalize old k = o at this ⊢
      generalize old' k = o' at this ⊢
      cases this with
      | some _ => exact .some .none
      | none => exact .none
  · intro a i
    rw [hq']
    simp only [hq, Finset.mul_sum]
    rw [Finset.sum_comm]
    refine Finset.sum_congr rfl fun g hg => (hnew g (Finset.mem_range.1 hg)).2 a i

/-! ## Materials of the library -/

/-- A vector of stress components as an array. -/
def vmfTensor (p : PType) (x : Vmf p) : Tensor :=
  ⟨[p.len], fun idx => if h : idx.getD 0 0 < p.len then x ⟨idx.getD 0 0, h⟩ else 0⟩

/-- Components of the symmetric tensors of a problem type. -/
def kelvinOrder : PType → List Comp
  | .plane => [[1, 1], [2, 2], [1, 2]]
  | .solid => [[1, 1], [2, 2], [3, 3], [1, 2], [2, 3], [1, 3]]

/-- A constitutive model of the library seen through the interface used by the internal forces; a failed
update, after which all stresses are NaN, is an error here. -/
def libraryMaterial {S : Type} (p : PType) (step : T2 p.dim → S → Option S) (stress : S → Vmf p) :
    Material S where
  stateUpdate inc s := (orRaise (step (tens2 p.dim inc) s) .valueError).map fun new => (new, s)
  stressMf s := vmfTensor p (stress s)
  isFiniteKinext := false

/-- The successful updates of the von Mises model. -/
def vmGood (p : PType) (E v : ℝ) (law : HardLaw) (inc : T2 p.dim) (s : VMState p) : Option (VMState p) :=
  match (vmUpdate p E v law inc s).1 with
  | .good s => some s
  | .nan _ => none

/-- The successful updates of the model with mixed hardening. -/
def mixGood (p : PType) (E v : ℝ) (law kin : HardLaw) (inc : T2 p.dim) (s : MixState p) :
    Option (MixState p) :=
  match (mixUpdate p E v law kin inc s).1 with
  | .good s => some s
  | .nan _ => none

/-- The successful updates of the Drucker-Prager model. -/
def dpGood (p : PType) (m : DPParams) (law : HardLaw) (inc : T2 p.dim) (s : DPState p) :
    Option (DPState p) :=
  match (dpUpdate p m law inc s).1 with
  | .good s => some s
  | .nan _ => none

theorem vmfTensor_tensor (p : PType) (x : Vmf p) {t : Tensor}
    (h : getTensorFromMf (vmfTensor p x) p.dim (kelvinOrder p) true = .ok t) :
    tens2 p.dim t = unmf p x := by
  cases p with
  | plane =>
    obtain ⟨t', h1, -, h3⟩ := getTensorFromMf_sym' sym2d_complete (m := vmfTensor .plane x) rfl
    rw [show getTensorFromMf (vmfTensor .plane x) 2 sym2d true = .ok t from h] at h1
    cases h1
    have e00 : t.val [0, 0] = x 0 := by
      rw [h3 [1, 1] (by decide) 0 0 (Or.inl ⟨rfl, rfl⟩), show (vmfTensor .plane x).val [List.idxOf [1, 1] sym2d] = x 0 from rfl]
      simp [kFactor, Comp.i, Comp.j]
    have e01 : t.val [0, 1] = x 2 / √2 := by
      rw [h3 [1, 2] (by decide) 0 1 (Or.inl ⟨rfl, rfl⟩), show (vmfTensor .plane x).val [List.idxOf [1, 2] sym2d] = x 2 from rfl]
      simp [kFactor, Comp.i, Comp.j, div_eq_inv_mul]
    have e10 : t.val [1, 0] = x 2 / √2 := by
      rw [h3 [1, 2] (by decide) 1 0 (Or.inr ⟨rfl, rfl⟩), show (vmfTensor .plane x).val [List.idxOf [1, 2] sym2d] = x 2 from rfl]
      simp [kFactor, Comp.i, Comp.j, div_eq_inv_mul]
    have e11 : t.val [1, 1] = x 1 := by
      rw [h3 [2, 2] (by decide) 1 1 (Or.inl ⟨rfl, rfl⟩), show (vmfTensor .plane x).val [List.idxOf [2, 2] sym2d] = x 1 from rfl]
      simp [kFactor, Comp.i, Comp.j]
    funext i j
    fin_cases i <;> fin_cases j
    · exact e00
    · exact e01
    · exact e10
    · exact e11
  | solid =>
    obtain ⟨t', h1, -, h3⟩ := getTensorFromMf_sym' sym3d_complete (m := vmfTensor .solid x) rfl
    rw [show getTensorFromMf (vmfTensor .solid x) 3 sym3d true = .ok t from h] at h1
    cases h1
    have e00 : t.val [0, 0] = x 0 := by
      rw [h3 [1, 1] (by decide) 0 0 (Or.inl ⟨rfl, rfl⟩), show (vmfTensor .solid x).val [List.idxOf [1, 1] sym3d] = x 0 from rfl]
      simp [kFactor, Comp.i, Comp.j]
    have e11 : t.val [1, 1] = x 1 := by
      rw [h3 [2, 2] (by decide) 1 1 (Or.inl ⟨rfl, rfl⟩), show (vmfTensor .solid x).val [List.idxOf [2, 2] sym3d] = x 1 from rfl]
      simp [kFactor, Comp.i, Comp.j]
    have e22 : t.val [2, 2] = x 2 := by
      rw [h3 [3, 3] (by decide) 2 2 (Or.inl ⟨rfl, rfl⟩), show (vmfTensor .solid x).val [List.idxOf [3, 3] sym3d] = x 2 from rfl]
      simp [kFactor, Comp.i, Comp.j]
    have e01 : t.val [0, 1] = x 3 / √2 := by
      rw [h3 [1, 2] (by decide) 0 1 (Or.inl ⟨rfl, rfl⟩), show (vmfTensor .solid x).val [List.idxOf [1, 2] sym3d] = x 3 from rfl]
      simp [kFactor, Comp.i, Comp.j, div_eq_inv_mul]
    have e10 : t.val [1, 0] = x 3 / √2 := by
      rw [h3 [1, 2] (by decide) 1 0 (Or.inr ⟨rfl, rfl⟩), show (vmfTensor .solid x).val [List.idxOf [1, 2] sym3d] = x 3 from rfl]
      simp [kFactor, Comp.i, Comp.j, div_eq_inv_mul]
    have e12 : t.val [1, 2] = x 4 / √2 := by
      rw [h3 [2, 3] (by decide) 1 2 (Or.inl ⟨rfl, rfl⟩), show (vmfTensor .solid x).val [List.idxOf [2, 3] sym3d] = x 4 from rfl]
      simp [kFactor, Comp.i, Comp.j, div_eq_inv_mul]
    have e21 : t.val [2, 1] = x 4 / √2 := by
      rw [h3 [2, 3] (by decide) 2 1 (Or.inr ⟨rfl, rfl⟩), show (vmfTensor .solid x).val [List.idxOf [2, 3] sym3d] = x 4 from rfl]
      simp [kFactor, Comp.i, Comp.j, div_eq_inv_mul]
    have e02 : t.val [0, 2] = x 5 / √2 := by
      rw [h3 [1, 3] (by decide) 0 2 (Or.inl ⟨rfl, rfl⟩), show (vmfTensor .solid x).val [List.idxOf [1, 3] sym3d] = x 5 from rfl]
      simp [kFactor, Comp.i, Comp.j, div_eq_inv_mul]
    have e20 : t.val [2, 0] = x 5 / √2 := by
      rw [h3 [1, 3] (by decide) 2 0 (Or.inr ⟨rfl, rfl⟩), show (vmfTensor .solid x).val [List.idxOf [1, 3] sym3d] = x 5 from rfl]
      simp [kFactor, Comp.i, Comp.j, div_eq_inv_mul]
    have e : ∀ i j : Fin 3, unmf .solid x i j = unkel6 x i j := fun i j => rfl
    funext i j
    rw [e]
    fin_cases i <;> fin_cases j
    · exact e00.trans (by simp [unkel6, pos6, kf]; try ring)
    · exact e01.trans (by simp [unkel6, pos6, kf]; try ring)
    · exact e02.trans (by simp [unkel6, pos6, kf]; try ring)
    · exact e10.trans (by simp [unkel6, pos6, kf]; try ring)
    · exact e11.trans (by simp [unkel6, pos6, kf]; try ring)
    · exact e12.trans (by simp [unkel6, pos6, kf]; try ring)
    · exact e20.trans (by simp [unkel6, pos6, kf]; try ring)
    · exact e21.trans (by simp [unkel6, pos6, kf]; try ring)
    · exact e22.trans (by simp [unkel6, pos6, kf]; try ring)

theorem library_isotropic {S : Type} {p : PType} {Q : T2 p.dim} {step : T2 p.dim → S → Option S}
    {stress : S → Vmf p} {turn : S → S}
    (hstep : ∀ inc s, IsSymP p inc → step (rotate Q inc) (turn s) = (step inc s).map turn)
    (hstress : ∀ s, stress (turn s) = rotMf p Q (stress s)) :
    Isotropic (libraryMaterial p step stress) p.dim (kelvinOrder p) Q fun s s' => s' = turn s where
  update := by
    rintro inc inc' s s' new rest hi hi' ht rfl h
    have hsym : IsSymP p (tens2 p.dim inc) := fun i j => hi.2 i i.2 j j.2
    simp only [libraryMaterial] at h ⊢
    rw [ht, hstep _ _ hsym]
    cases hst : step (tens2 p.dim inc) s with
    | none =>
      rw [hst] at h
      cases h
    | some n =>
      rw [hst] at h
      cases h
      exact ⟨turn new, turn s, rfl, rfl⟩
  stress := by
    rintro s s' t t' rfl h h'
    rw [vmfTensor_tensor p _ h, vmfTensor_tensor p _ h', hstress]
    exact unmf_mf p (rotate_isSym (unmf_isSym p _))
  shape := by
    rintro s s' rfl
    rfl

/-- **C145.** The von Mises, mixed hardening and Drucker-Prager models are materials without preferred
directions in the sense of `C145_element_forces`, in two and three dimensions. -/
theorem C145_plasticity {p : PType} {Q : T2 p.dim} (h : IsOrthogonal Q) (E v : ℝ) (m : DPParams)
    (law kin : HardLaw) :
    Isotropic (libraryMaterial p (vmGood p E v law) VMState.stress) p.dim (kelvinOrder p) Q
      (fun s s' => s' = rotVM p Q s) ∧
    Isotropic (libraryMaterial p (mixGood p E v law kin) fun s => s.stress) p.dim (kelvinOrder p) Q
      (fun s s' => s' = rotMix p Q s) ∧
    Isotropic (libraryMaterial p (dpGood p m law) fun s => s.stress) p.dim (kelvinOrder p) Q
      (fun s s' => s' = rotDP p Q s) := by
  refine ⟨library_isotropic (fun inc s hi => ?_) fun s => rfl,
    library_isotropic (fun inc s hi => ?_) fun s => rfl, library_isotropic (fun inc s hi => ?_) fun s => rfl⟩
  · unfold vmGood
    rw [(vmUpdate_rot h E v law hi s).1]
    cases (vmUpdate p E v law inc s).1 <;> rfl
  · unfold mixGood
    rw [(mixUpdate_rot h E v law kin hi s).1]
    cases (mixUpdate p E v law kin inc s).1 <;> rfl
  · unfold dpGood
    rw [(dpUpdate_rot h m law hi s).1]
    cases (dpUpdate p m law inc s).1 <;> rfl

/-- The successful updates of the isotropic elastic model. -/
def elasticGood (p : PType) (d : Props) (inc : T2 p.dim) (s : ElasticState p) : Option (ElasticState p) :=
  match elasticStateUpdate p d .isotropic inc s with
  | .ok (s, _) => some s
  | .error _ => none

/-- **C145.** So is the isotropic elastic model with given `E` and `v`. -/
theorem C145_elastic {p : PType} {Q : T2 p.dim} (h : IsOrthogonal Q) {d : Props} {E v : ℝ}
    (hE : d .E = some E) (hv : d .v = some v) :
    Isotropic (libraryMaterial p (elasticGood p d) ElasticState.stress) p.dim (kelvinOrder p) Q
      (fun s s' => s' = rotElastic p Q s) := by
  refine library_isotropic (fun inc s hi => ?_) fun s => rfl
  have hT : elasticTangentModulus d .isotropic = .ok (kel66 (isoTensor (lamOf E v) (miuOf E v))) := by
    simp only [elasticTangentModulus, requiredModuli, if_true, hE, hv]
  unfold elasticGood elasticStateUpdate
  rw [hT]
  show some _ = some _
  simp only [rotElastic, trial_rot p Q hi]
  simp only [mv6_iso, rotKel_hooke (rot3_orthogonal h), to2D_rot, get33_rot]

/-! ## Numbering -/

theorem relabelledMesh_valid {m : MeshTopology} (hm : ValidMesh m) {ren : ℕ → ℕ} (hr : IsRenumbering m.nNode ren) :
    ValidMesh (relabelledMesh m ren) := by
  refine ⟨hm.1, fun c hc => ?_⟩
  obtain ⟨c0, hc0, rfl⟩ := List.mem_map.1 hc
  obtain ⟨h1, h2⟩ := hm.2 c0 hc0
  refine ⟨by simpa using h1, fun x hx => ?_⟩
  obtain ⟨y, hy, rfl⟩ := List.mem_map.1 hx
  exact hr.range y (h2 y hy).1 (h2 y hy).2

theorem nodes_relabelledMesh (m : MeshTopology) (ren : ℕ → ℕ) (k : ℕ) :
    nodes (relabelledMesh m ren) k = (nodes m k).map ren := by
  simp only [nodes, relabelledMesh, List.getD_eq_getElem?_getD, List.getElem?_map]
  cases m.conn[k - 1]? <;> rfl

/-- **C145.** In a mesh with renumbered nodes the assembled forces are the same forces, stored at the new
numbers. -/
theorem C145_assembly {m : MeshTopology} (hm : ValidMesh m) {ren : ℕ → ℕ} (hr : IsRenumbering m.nNode ren)
    {nd : ℕ} {elems : List (ℕ × Arr)} (he : ElementArrays m nd elems) :
    ∃ out out', elementAssembler m elems = .ok out ∧
      elementAssembler (relabelledMesh m ren) elems = .ok out' ∧ out'.len = out.len ∧
      ∀ l d, 1 ≤ l → l ≤ m.nNode → d < nd →
        out'.val ((ren l - 1) * nd + d) = out.val ((l - 1) * nd + d) := by
  have he' : ElementArrays (relabelledMesh m ren) nd elems := by
    refine ⟨he.1, fun ka hka => ?_⟩
    obtain ⟨h1, h2⟩ := he.2 ka hka
    refine ⟨⟨h1.1, by simpa [relabelledMesh] using h1.2⟩, ?_⟩
    rw [nodes_relabelledMesh, List.length_map]
    exact h2
  obtain ⟨out, h1, h2, h3⟩ := C20_assembly hm he
  obtain ⟨out', h1', h2', h3'⟩ := C20_assembly (relabelledMesh_valid hm hr) he'
  refine ⟨out, out', h1, h1', h2'.trans h2.symm, fun l d hl hl' hd => ?_⟩
  have hrl := hr.range l hl hl'
  rw [h3 l d hl hl' hd, h3' (ren l) d hrl.1 hrl.2 hd]
  congr 1
  refine List.map_congr_left fun ka hka => ?_
  simp only [contribution, nodes_relabelledMesh, List.length_map]
  refine Finset.sum_congr rfl fun i hi => ?_
  have hi' := Finset.mem_range.1 hi
  have hx : (nodes m ka.1).getD i 0 = (nodes m ka.1)[i] := by simp [hi']
  have hx' : ((nodes m ka.1).map ren).getD i 0 = ren (nodes m ka.1)[i] := by simp [hi']
  rw [hx, hx']
  have hmem : (nodes m ka.1)[i] ∈ nodes m ka.1 := List.getElem_mem hi'
  have hk := (he.2 ka hka).1
  have hc : nodes m ka.1 ∈ m.conn := by
    have : ka.1 - 1 < m.conn.length := by have := hk.1; have := hk.2; omega
    simp only [nodes, List.getD_eq_getElem?_getD, List.getElem?_eq_getElem this, Option.getD_some]
    exact List.getElem_mem this
  obtain ⟨g1, g2⟩ := (hm.2 _ hc).2 _ hmem
  by_cases hl2 : (nodes m ka.1)[i] = l
  · rw [if_pos hl2, if_pos (by rw [hl2])]
  · rw [if_neg hl2, if_neg fun h => hl2 (hr.inj _ _ g1 g2 hl hl' h)]

/-- **C145.** The equilibrium loss, of either kind and with or without normalised forces, does not depend on
the numbering of the nodes. -/
theorem C145_loss_numbering {N n : ℕ} (cfg : LossConfig n) (Fi Fe R : NodeMat N n ℝ) (bc : NodeMat N n ℤ)
    (ren : Equiv.Perm (Fin N)) :
    vLoss cfg (fun i => Fi (ren i)) (fun i => Fe (ren i)) (fun i => R (ren i)) (fun i => bc (ren i)) =
      vLoss cfg Fi Fe R bc := by
  have hnorm : ∀ F : NodeMat N n ℝ, normForces cfg (fun i => F (ren i)) = fun i => normForces cfg F (ren i) := by
    intro F
    unfold normForces
    cases cfg.scaler <;> rfl
  have hlab : uniqueLabels (fun i => bc (ren i)) = uniqueLabels bc := by
    unfold uniqueLabels
    congr 1
    ext x
    simp only [Finset.mem_image, Finset.mem_univ, true_and, Prod.exists]
    constructor
    · rintro ⟨i, j, h⟩
      exact ⟨ren i, j, h⟩
    · rintro ⟨i, j, h⟩
      exact ⟨ren.symm i, j, by simpa using h⟩
  have hhot : ∀ i j s, oneHot (fun i => bc (ren i)) i j s = oneHot bc (ren i) j s := by
    intro i j s
    unfold oneHot
    rw [hlab]
  have hres : ∀ (Fi Fe R : NodeMat N n ℝ) i j, setResidual (fun i => Fi (ren i)) (fun i => Fe (ren i))
      (fun i => R (ren i)) (fun i => bc (ren i)) i j = setResidual Fi Fe R bc (ren i) j := by
    intro Fi Fe R i j
    unfold setResidual
    rw [hhot]
  unfold vLoss
  simp only [hnorm, hlab]
  have hp : ∀ Fi Fe R : NodeMat N n ℝ, pointwiseLoss (fun i => Fi (ren i)) (fun i => Fe (ren i))
      (fun i => R (ren i)) (fun i => bc (ren i)) = pointwiseLoss Fi Fe R bc := by
    intro Fi Fe R
    unfold pointwiseLoss
    exact Equiv.sum_comp ren fun i => ∑ j, (Fi i j - Fe i j - if bc i j = 1 then R i j else 0) ^ 2
  have hf : ∀ Fi Fe R : NodeMat N n ℝ, freeLoss (fun i => Fi (ren i)) (fun i => Fe (ren i))
      (fun i => R (ren i)) (fun i => bc (ren i)) = freeLoss Fi Fe R bc := by
    intro Fi Fe R
    unfold freeLoss
    simp only [hres, hhot]
    exact Equiv.sum_comp ren fun i => ∑ j, (setResidual Fi Fe R bc i j * oneHot bc i j 0) ^ 2
  have hs : ∀ Fi Fe R : NodeMat N n ℝ, setsLoss (fun i => Fi (ren i)) (fun i => Fe (ren i))
      (fun i => R (ren i)) (fun i => bc (ren i)) = setsLoss Fi Fe R bc := by
    intro Fi Fe R
    unfold setsLoss
    simp only [hres, hhot, hlab]
    refine Finset.sum_congr rfl fun s _ => ?_
    congr 1
    exact Equiv.sum_comp ren fun i => ∑ j, setResidual Fi Fe R bc i j * oneHot bc i j (s + 1)
  simp only [hp, hf, hs]

theorem rotate_norm {n : ℕ} {Q : T2 n} (h : IsOrthogonal Q) (x : Fin n → ℝ) :
    ∑ i, (∑ j, Q i j * x j) ^ 2 = ∑ i, x i ^ 2 := by
  have h1 : ∑ i, (∑ j, Q i j * x j) ^ 2 =
      dotProduct ((Matrix.of Q).mulVec x) ((Matrix.of Q).mulVec x) := by
    simp only [dotProduct, Matrix.mulVec, Matrix.of_apply, sq]
  have h2 : ∑ i, x i ^ 2 = dotProduct x x := by
    simp only [dotProduct, sq]
  rw [h1, h2, Matrix.dotProduct_mulVec, Matrix.vecMul_mulVec, orthogonal_matrix' h, Matrix.vecMul_one]

/-- **C145.** With nodes that are either held in all directions or free, the pointwise loss of forces that
are not normalised does not depend on the axes: turning all forces leaves it unchanged. -/
theorem C145_loss_axes {N n : ℕ} (cfg : LossConfig n) (hc : cfg.lossType = .pointwise)
    (hs : cfg.scaler = none) {Q : T2 n} (hQ : IsOrthogonal Q) (Fi Fe R : NodeMat N n ℝ)
    (held : Fin N → Bool) :
    vLoss cfg (fun a i => ∑ j, Q i j * Fi a j) (fun a i => ∑ j, Q i j * Fe a j)
        (fun a i => ∑ j, Q i j * R a j) (fun a _ => if held a then 1 else 0) =
      vLoss cfg Fi Fe R fun a _ => if held a then 1 else 0 := by
  unfold vLoss
  simp only [hc, normForces, hs]
  congr 1
  unfold pointwiseLoss
  refine Finset.sum_congr rfl fun a _ => ?_
  rw [← rotate_norm hQ fun j => Fi a j - Fe a j - if (if held a then (1 : ℤ) else 0) = 1 then R a j else 0]
  refine Finset.sum_congr rfl fun i _ => ?_
  congr 1
  cases hh : held a
  · simp only [hh]
    simp only [Bool.false_eq_true, if_false, zero_ne_one, sub_zero, ← Finset.sum_sub_distrib, mul_sub]
  · simp only [hh]
    simp only [if_true, ← Finset.sum_sub_distrib, mul_sub]

/-- A quarter turn. -/
def quarterTurn : T2 2 := ![![0, -1], ![1, 0]]

theorem quarterTurn_rotation : IsRotation quarterTurn where
  orthogonal := by
    intro i j
    fin_cases i <;> fin_cases j <;> simp [quarterTurn]
  det_one := by
    rw [Matrix.det_fin_two]
    simp [quarterTurn]

/-- A four-node element of elastic material, given any displacements, is turned and moved. -/
example (u : Tensor) (hu : u.shape = [4, 2]) :
    ∃ rule r r', ElementType.quad4.init 4 = .ok rule ∧
      computeElementInternalForces .infinitesimal 1 .quad4 rule.length rule
        (libraryMaterial .plane (elasticGood .plane fun k => if k = .E then some 100 else some 0.3)
          ElasticState.stress) (fun _ => some (elasticInitState .plane)) ElementType.quad4.nodes u = .ok r ∧
      computeElementInternalForces .infinitesimal 1 .quad4 rule.length rule
        (libraryMaterial .plane (elasticGood .plane fun k => if k = .E then some 100 else some 0.3)
          ElasticState.stress) (fun _ => some (elasticInitState .plane))
        (moved quarterTurn ![5, 7] ElementType.quad4.nodes)
        ⟨[4, 2], fun idx => if idx.getD 1 0 = 0 then -u.val [idx.getD 0 0, 1]
          else u.val [idx.getD 0 0, 0]⟩ = .ok r' ∧
      ∀ a : Fin 4, r'.forces.val [(a : ℕ) * 2] = -r.forces.val [(a : ℕ) * 2 + 1] ∧
        r'.forces.val [(a : ℕ) * 2 + 1] = r.forces.val [(a : ℕ) * 2] := by
  obtain ⟨rule, hr, -⟩ := (C14_element_init .quad4 4).1 (by simp [ElementType.admissibleGauss])
  obtain ⟨r, h⟩ := C19_returns (p := 1) (e := .quad4) (co := [[1,1],[2,2],[1,2]])
    (mat := libraryMaterial .plane (elasticGood .plane fun k => if k = .E then some 100 else some 0.3)
      ElasticState.stress) (old := fun _ => some (elasticInitState .plane)) (X := ElementType.quad4.nodes)
    (rule := rule) (by rfl) hu (fun c _ _ => reference_jacobian .quad4 c) (fun _ _ => rfl)
    (fun inc s => ⟨_, _, rfl, rfl⟩)
  obtain ⟨r', h', -, hf⟩ := C145_element_forces (e := .quad4) (p := 1) (by rfl) hu (u' := ⟨[4, 2], fun idx =>
      if idx.getD 1 0 = 0 then -u.val [idx.getD 0 0, 1] else u.val [idx.getD 0 0, 0]⟩) rfl
    quarterTurn_rotation ![5, 7] (C145_elastic (p := .plane) quarterTurn_rotation.orthogonal (E := 100) (v := 0.3) rfl rfl) (by
      intro a i
      fin_cases i
      · refine ((Fin.sum_univ_two _).trans ?_).symm
        show 0 * u.val [a, 0] + -1 * u.val [a, 1] = -u.val [a, 1]
        ring
      · refine ((Fin.sum_univ_two _).trans ?_).symm
        show 1 * u.val [a, 0] + 0 * u.val [a, 1] = u.val [a, 0]
        ring)
    (old' := fun _ => some (elasticInitState .plane)) (fun _ => .some (by
      simp only [rotElastic, elasticInitState, rotMf_zero])) h
  refine ⟨rule, r, r', hr, h, h', fun a => ⟨?_, ?_⟩⟩
  · have := hf a (0 : Fin 2)
    exact this.trans ((Fin.sum_univ_two _).trans (by simp [quarterTurn, ElementType.dim]))
  · have := hf a (1 : Fin 2)
    exact this.trans ((Fin.sum_univ_two _).trans (by simp [quarterTurn, ElementType.dim]))

/-- Two elements sharing a node, numbered in two ways. -/
example : ∃ out out',
    elementAssembler ⟨3, [[1, 2], [2, 3]]⟩ [(1, ⟨2, fun i => i + 1⟩), (2, ⟨2, fun i => i + 5⟩)] = .ok out ∧
    elementAssembler ⟨3, [[3, 2], [2, 1]]⟩ [(1, ⟨2, fun i => i + 1⟩), (2, ⟨2, fun i => i + 5⟩)] = .ok out' ∧
    out'.val 2 = out.val 0 ∧ out'.val 1 = out.val 1 ∧ out'.val 0 = out.val 2 := by
  obtain ⟨out, out', h1, h2, -, h3⟩ := C145_assembly (m := ⟨3, [[1, 2], [2, 3]]⟩) (nd := 1)
    (ren := fun l => 4 - l) (elems := [(1, ⟨2, fun i => i + 1⟩), (2, ⟨2, fun i => i + 5⟩)])
    ⟨by decide, by decide⟩ ⟨fun l h1 h2 => by dsimp only at h2 ⊢; omega, fun l l' _ _ _ _ h => by
      simp only at *; omega⟩
    ⟨by simp, by simp [IsElement, nodes]⟩
  refine ⟨out, out', h1, h2, ?_, ?_, ?_⟩
  · simpa using h3 1 0 le_rfl (by decide) one_pos
  · simpa using h3 2 0 (by decide) (by decide) one_pos
  · simpa using h3 3 0 (by decide) (by decide) one_pos

/-- A force that is not balanced has the same loss in the turned axes. -/
example : vLoss (N := 1) (n := 2) ⟨.pointwise, none⟩ (fun _ => ![3, 4]) 0 0 0 = .ok 25 ∧
    vLoss (N := 1) (n := 2) ⟨.pointwise, none⟩ (fun _ i => ∑ j, quarterTurn i j * (![3, 4] : Fin 2 → ℝ) j)
      0 0 0 = .ok 25 := by
  have h0 : vLoss (N := 1) (n := 2) ⟨.pointwise, none⟩ (fun _ => ![3, 4]) 0 0 0 = .ok 25 := by
    simp only [vLoss, pointwiseLoss, normForces]
    norm_num
  refine ⟨h0, ?_⟩
  have := C145_loss_axes (N := 1) (n := 2) ⟨.pointwise, none⟩ rfl rfl quarterTurn_rotation.orthogonal
    (fun _ => ![3, 4]) 0 0 fun _ => false
  simp only [Pi.zero_apply, mul_zero, Finset.sum_const_zero, Bool.false_eq_true, if_false] at this
  exact this.trans h0

end Hooke
