import Verif.Model.InternalForces
import Verif.Props.Gradients
import Verif.Props.Voigt
import Verif.Lemmas.Py

namespace Hooke

open Spec

/-- What one successful Gauss point iteration did. -/
structure GpDone {σ : Type} (p n : ℕ) (co : List Comp) (e : ElementType) (rule : GaussRule e.dim)
    (mat : Material σ) (X : Fin e.nNode → Fin e.dim → ℝ) (uinc : Tensor) (old : GpDict σ) (i : ℕ)
    (c : Fin e.dim → ℝ) (w : ℝ) (d : Tensor) (det : ℝ) (s new : σ) (stress : Tensor)
    (b : ℕ → ℝ) : Prop where
  point : rule[i]? = some (c, w)
  deriv : ∃ J, e.evalShapefunDeriv X c = .ok (d, J, det)
  oldState : old (i + 1) = some s
  update : ∃ g v inc rest, vbuildDiscreteSymGradient d co = .ok g ∧
    computeInfinitesimalStrain g uinc = .ok v ∧ vgetStrainFromVmf v n co = .ok inc ∧
    mat.stateUpdate inc s = .ok (new, rest)
  stressOk : vgetTensorFromMf (mat.stressMf new) n co = .ok stress
  force : ∃ g sv r, vbuildDiscreteSymGradient d co = .ok g ∧ vgetStressVmf stress n co = .ok sv ∧
    g.transpose.matVec sv = .ok r ∧ r.shape = [e.nNode * e.dim] ∧
    ∀ q, b q = w * r.val [q] * det

theorem gaussStep_ok {σ : Type} {sf : StrainFormulation} {p n : ℕ} {co : List Comp}
    {e : ElementType} {rule : GaussRule e.dim} {mat : Material σ}
    {X : Fin e.nNode → Fin e.dim → ℝ} {uinc : Tensor} {acc acc' : IFState σ} {i : ℕ}
    (hsh : acc.forces.shape = [e.nNode * e.dim])
    (h : gaussStep sf p n co e rule mat X uinc acc i = .ok acc') :
    sf = .infinitesimal ∧ ∃ c w d det s new stress b,
      GpDone p n co e rule mat X uinc acc.old i c w d det s new stress b ∧
      acc'.old = acc.old ∧ acc'.state = Function.update acc.state (i + 1) (some (some new)) ∧
      acc'.forces.shape = [e.nNode * e.dim] ∧
      ∀ q, acc'.forces.val [q] = acc.forces.val [q] + b q := by
  unfold gaussStep at h
  obtain ⟨⟨c, w⟩, h1, h⟩ := bind_ok h
  obtain ⟨⟨d, J, det⟩, h2, h⟩ := bind_ok h
  obtain ⟨g, h3, h⟩ := bind_ok h
  obtain ⟨inc, h4, h⟩ := bind_ok h
  obtain ⟨s, h5, h⟩ := bind_ok h
  obtain ⟨⟨new, rest⟩, h6, h⟩ := bind_ok h
  obtain ⟨stress, h7, h⟩ := bind_ok h
  obtain ⟨sv, h8, h⟩ := bind_ok h
  obtain ⟨r, h9, h⟩ := bind_ok h
  obtain ⟨forces, h10, h⟩ := bind_ok h
  have hp : rule[i]? = some (c, w) := orRaise_ok.1 h1
  have ho : acc.old (i + 1) = some s := orRaise_ok.1 h5
  by_cases hsf : sf = .infinitesimal
  swap
  · simp [incStrain, hsf] at h4
  refine ⟨hsf, c, w, d, det, s, new, stress, fun q => w * r.val [q] * det, ?_⟩
  rw [incStrain, if_pos hsf] at h4
  obtain ⟨v, h4a, h4b⟩ := bind_ok h4
  have hup : mat.stateUpdate inc s = .ok (new, rest) := by
    unfold materialStateUpdate at h6
    obtain ⟨x, -, h6⟩ := bind_ok h6
    split at h6
    · simp [throw, throwThe, MonadExceptOf.throw] at h6
    · exact h6
  have hf := h10
  unfold Tensor.addVec at hf
  split at hf
  · simp at hf
  · rename_i hne
    have hne' : acc.forces.shape = r.shape := by simpa using hne
    have hf' := Except.ok.inj hf
    have h' := Except.ok.inj h
    subst hf'
    subst h'
    refine ⟨⟨hp, ⟨J, h2⟩, ho, ⟨g, v, inc, rest, h3, h4a, h4b, hup⟩, h7,
      ⟨g, sv, r, h3, h8, h9, by rw [← hne', hsh], fun q => rfl⟩⟩, rfl, rfl, hsh, fun q => rfl⟩

theorem internalForces_ok {σ : Type} {sf : StrainFormulation} {p n : ℕ} {co cn : List Comp}
    {e : ElementType} {rule : GaussRule e.dim} {mat : Material σ}
    {X : Fin e.nNode → Fin e.dim → ℝ} {uinc : Tensor} {old : GpDict σ} {nGauss : ℕ}
    (hp : getProblemTypeParameters p = .ok (n, co, cn)) {r : IFState σ}
    (h : computeElementInternalForces sf p e nGauss rule mat old X uinc = .ok r) :
    (0 < nGauss → sf = .infinitesimal) ∧
    ∃ (c : ℕ → Fin e.dim → ℝ) (w : ℕ → ℝ) (d : ℕ → Tensor) (det : ℕ → ℝ) (s new : ℕ → Option σ)
      (stress : ℕ → Tensor) (b : ℕ → ℕ → ℝ),
      (∀ i < nGauss, ∃ si ni, s i = some si ∧ new i = some ni ∧
        GpDone p n co e rule mat X uinc old i (c i) (w i) (d i) (det i) si ni (stress i) (b i)) ∧
      r.old = old ∧ (∀ k, r.state k = if 1 ≤ k ∧ k ≤ nGauss then some (new (k - 1))
        else (old k).map fun _ => none) ∧
      r.forces.shape = [e.nNode * e.dim] ∧
      ∀ q, r.forces.val [q] = ∑ i ∈ Finset.range nGauss, b i q := by
  unfold computeElementInternalForces at h
  rw [hp] at h
  change (List.range nGauss).foldlM _ _ = _ at h
  induction nGauss generalizing r with
  | zero =>
    have := Except.ok.inj h
    subst this
    refine ⟨by simp, fun _ => 0, fun _ => 0, fun _ => Tensor.zeros [], fun _ => 0, fun _ => none,
      fun _ => none, fun _ => Tensor.zeros [], fun _ _ => 0, by simp, rfl, ?_, rfl, ?_⟩
    · intro k
      rw [if_neg (by omega)]
    · intro q; simp [Tensor.zeros]
  | succ m ih =>
    rw [foldlM_range_succ] at h
    obtain ⟨acc, h1, h2⟩ := bind_ok h
    obtain ⟨-, c, w, d, det, s, new, stress, b, hd, ho, hst, hsh, hq⟩ := ih h1
    obtain ⟨hsf, c', w', d', det', s', new', stress', b', hd', ho', hst', hsh', hq'⟩ :=
      gaussStep_ok hsh h2
    refine ⟨fun _ => hsf, Function.update c m c', Function.update w m w', Function.update d m d',
      Function.update det m det', Function.update s m (some s'), Function.update new m (some new'),
      Function.update stress m stress', Function.update b m b', ?_, by rw [ho', ho], ?_, hsh', ?_⟩
    · intro i hi
      rcases Nat.lt_succ_iff_lt_or_eq.1 hi with hi | rfl
      · have : i ≠ m := by omega
        simpa [Function.update_of_ne this] using hd i hi
      · rw [ho] at hd'
        exact ⟨s', new', by simp, by simp, by simpa using hd'⟩
    · intro k
      rw [hst']
      by_cases hk : k = m + 1
      · subst hk
        simp
      · rw [Function.update_of_ne hk, hst]
        by_cases hk2 : 1 ≤ k ∧ k ≤ m
        · rw [if_pos hk2, if_pos (by omega), Function.update_of_ne (by omega)]
        · rw [if_neg hk2, if_neg (by omega)]
    · intro q
      rw [hq', hq, Finset.sum_range_succ]
      congr 1
      · refine Finset.sum_congr rfl fun i hi => ?_
        have : i ≠ m := by have := Finset.mem_range.1 hi; omega
        rw [Function.update_of_ne this]
      · rw [Function.update_self]

/-- Virtual work of one Gauss point contribution. -/
theorem gp_virtual_work {σ : Type} {p : ℕ} {co : List Comp} {e : ElementType}
    (hco : CompleteSym e.dim co) {rule : GaussRule e.dim} {mat : Material σ}
    {X : Fin e.nNode → Fin e.dim → ℝ} {uinc : Tensor} {old : GpDict σ} {i : ℕ}
    {c : Fin e.dim → ℝ} {w : ℝ} {d : Tensor} {det : ℝ} {s new : σ} {stress : Tensor} {b : ℕ → ℝ}
    (h : GpDone p e.dim co e rule mat X uinc old i c w d det s new stress b)
    (hds : d.shape = [e.nNode, e.dim])
    (hstress : IsSym2 e.dim stress) {du : Tensor} (hdu : du.shape = [e.nNode, e.dim]) :
    ∑ a ∈ Finset.range e.nNode, ∑ q ∈ Finset.range e.dim, b (a * e.dim + q) * du.val [a, q] =
      w * det * ∑ k ∈ Finset.range e.dim, ∑ l ∈ Finset.range e.dim,
        stress.val [k, l] * (strainTensor e.nNode e.dim d du).val [k, l] := by
  obtain ⟨g, sv, r, hg, hsv, hr, hrs, hb⟩ := h.force
  obtain ⟨g0, v, hg0, hv, hE⟩ := C15_sym_gradient hco hds hdu
  obtain ⟨g1, g2, hg1, hg2, hgg⟩ := C16_sym hco hds
  rw [hg] at hg2
  rw [hg0] at hg1
  cases hg1; cases hg2
  obtain ⟨m1, m2, hm1, hm2, hmm, -⟩ := C07_vget_stress hco hstress.1
  rw [hsv] at hm2
  cases hm2
  have hIs : IsSym2 e.dim (strainTensor e.nNode e.dim d du) := by
    refine ⟨rfl, fun i _ j _ => ?_⟩
    simp only [strainTensor, List.getD_cons_zero, List.getD_cons_succ]
    ring
  have hwc := C07_work_conjugate hco hstress hIs hm1 hE
  rw [← hwc]
  obtain ⟨g', hg', hgs, -⟩ := buildSym_spec hco.toValidPairs hco.two_length hds
  rw [hg0] at hg'
  cases hg'
  obtain ⟨v', hv', -, hvv⟩ := matVec_flatten hgs hdu
  rw [hv] at hv'
  cases hv'
  have hgs' : g.shape = [co.length, e.nNode * e.dim] := by rw [← hgg.1, hgs]
  have hms : sv.shape = [co.length] := by
    obtain ⟨m', hm', hs', -⟩ := vgetStressVmf_two hco.toValidPairs hstress.1
    rw [hsv] at hm'
    cases hm'
    exact hs'
  have hm1s : m1.shape = [co.length] := by rw [hmm.1, hms]
  have hrv : ∀ q < e.nNode * e.dim, r.val [q] =
      ∑ k ∈ Finset.range co.length, g0.val [k, q] * m1.val [k] := by
    intro q hq
    have hr' := hr
    simp only [Tensor.matVec, Tensor.transpose, hgs', hms, List.getD_cons_zero,
      List.getD_cons_succ, ne_eq, not_true_eq_false, if_false] at hr'
    have hr2 := Except.ok.inj hr'
    subst hr2
    simp only [List.getD_cons_zero, List.getD_cons_succ]
    refine Finset.sum_congr rfl fun k hk => ?_
    have hk' := Finset.mem_range.1 hk
    rw [hgg.2 [k, q] (by rw [hgs]; exact .cons hk' (.cons hq .nil)),
      hmm.2 [k] (by rw [hm1s]; exact .cons hk' .nil)]
  have hleft : ∀ a ∈ Finset.range e.nNode, ∀ q ∈ Finset.range e.dim,
      b (a * e.dim + q) * du.val [a, q] = w * det * ∑ k ∈ Finset.range co.length,
        m1.val [k] * (g0.val [k, a * e.dim + q] * du.val [a, q]) := by
    intro a ha q hq
    have hlt : a * e.dim + q < e.nNode * e.dim := by
      have h1 := Finset.mem_range.1 ha
      have h2 := Finset.mem_range.1 hq
      calc a * e.dim + q < a * e.dim + e.dim := by omega
        _ = (a + 1) * e.dim := by ring
        _ ≤ _ := Nat.mul_le_mul_right _ h1
    rw [hb, hrv _ hlt, Finset.mul_sum, Finset.mul_sum, Finset.sum_mul, Finset.sum_mul]
    refine Finset.sum_congr rfl fun k _ => by ring
  rw [Finset.sum_congr rfl fun a ha => Finset.sum_congr rfl fun q hq => hleft a ha q hq]
  simp only [← Finset.mul_sum]
  congr 1
  have : ∀ a ∈ Finset.range e.nNode, ∑ q ∈ Finset.range e.dim, ∑ k ∈ Finset.range co.length,
      m1.val [k] * (g0.val [k, a * e.dim + q] * du.val [a, q]) =
      ∑ k ∈ Finset.range co.length, m1.val [k] * ∑ q ∈ Finset.range e.dim,
        g0.val [k, a * e.dim + q] * du.val [a, q] := by
    intro a _
    rw [Finset.sum_comm]
    simp only [Finset.mul_sum]
  rw [Finset.sum_congr rfl this, Finset.sum_comm]
  simp only [← Finset.mul_sum, hvv]

theorem vgetTensorFromMf_isSym {n : ℕ} {co : List Comp} (h : CompleteSym n co) {m t sv : Tensor}
    (ht : vgetTensorFromMf m n co = .ok t) (hs : vgetStressVmf t n co = .ok sv) : IsSym2 n t := by
  by_cases hm : m.shape = [co.length]
  · obtain ⟨t', h1, h2, h3⟩ := vgetTensorFromMf_sym h true hm
    rw [ht] at h1
    cases h1
    refine ⟨h2, fun i hi j hj => ?_⟩
    obtain ⟨c, hc, hr⟩ := h.exists_rep hi hj
    rw [h3 c hc i j hr, h3 c hc j i hr.symm]
  · exfalso
    unfold vgetTensorFromMf at ht
    split at ht
    · rename_i m' hm'
      obtain ⟨k, -, ht⟩ := bind_ok ht
      split_ifs at ht <;> simp [throw, throwThe, MonadExceptOf.throw] at ht
      simp_all
    · obtain ⟨k, -, ht⟩ := bind_ok ht
      split_ifs at ht <;> simp [throw, throwThe, MonadExceptOf.throw, pure, Except.pure] at ht
      subst ht
      simp [vgetStressVmf, throw, throwThe, MonadExceptOf.throw] at hs
    · simp [throw, throwThe, MonadExceptOf.throw] at ht

theorem fromMf_of_v {n : ℕ} {co : List Comp} (h : CompleteSym n co) {m t sv : Tensor}
    (ht : vgetTensorFromMf m n co = .ok t) (hs : vgetStressVmf t n co = .ok sv) :
    ∃ t', getTensorFromMf m n co true = .ok t' ∧ SameTensor t' t := by
  by_cases hm : m.shape = [co.length]
  · obtain ⟨t1, t2, h1, h2, h3⟩ := C05_vget_tensor_from_mf_partial (Or.inl ⟨h, rfl⟩) (Or.inl hm)
    rw [ht] at h2
    cases h2
    exact ⟨t1, h1, h3⟩
  · exfalso
    unfold vgetTensorFromMf at ht
    split at ht
    · rename_i m' hm'
      obtain ⟨k, -, ht⟩ := bind_ok ht
      split_ifs at ht <;> simp [throw, throwThe, MonadExceptOf.throw] at ht
      simp_all
    · obtain ⟨k, -, ht⟩ := bind_ok ht
      split_ifs at ht <;> simp [throw, throwThe, MonadExceptOf.throw, pure, Except.pure] at ht
      subst ht
      simp [vgetStressVmf, throw, throwThe, MonadExceptOf.throw] at hs
    · simp [throw, throwThe, MonadExceptOf.throw] at ht

theorem evalShapefunDeriv_inv {e : ElementType} {X : Fin e.nNode → Fin e.dim → ℝ}
    {c : Fin e.dim → ℝ} {d : Tensor} {J det}
    (h : e.evalShapefunDeriv X c = .ok (d, J, det)) :
    (e.jacobian X c).det ≠ 0 ∧ det = (e.jacobian X c).det ∧ d.shape = [e.nNode, e.dim] ∧
      ∀ (a : Fin e.nNode) (j : Fin e.dim), d.val [a, j] =
        ∑ k, (e.jacobian X c)⁻¹ j k * e.localDeriv c a k := by
  have hJ0 : (e.jacobian X c).det ≠ 0 := by
    intro h0
    rw [C17_singular_raises e X _ h0] at h
    simp at h
  obtain ⟨d', hd', h1, h2⟩ := evalShapefunDeriv_ok e X c hJ0
  rw [h] at hd'
  have h3 := Except.ok.inj hd'
  simp only [Prod.mk.injEq] at h3
  obtain ⟨rfl, -, h4⟩ := h3
  exact ⟨hJ0, h4, h1, h2⟩

theorem incStrain_same {m n : ℕ} {co : List Comp} (h : CompleteSym n co) {d u g v inc : Tensor}
    (hd : d.shape = [m, n]) (hu : u.shape = [m, n]) (hg : vbuildDiscreteSymGradient d co = .ok g)
    (hv : computeInfinitesimalStrain g u = .ok v) (hi : vgetStrainFromVmf v n co = .ok inc) :
    SameTensor inc (strainTensor m n d u) := by
  obtain ⟨g0, v0, hg0, hv0, hE⟩ := C15_sym_gradient h hd hu
  obtain ⟨g1, g2, hg1, hg2, hgg⟩ := C16_sym h hd
  rw [hg] at hg2
  rw [hg0] at hg1
  cases hg1; cases hg2
  obtain ⟨g', hg', hgs, -⟩ := buildSym_spec h.toValidPairs h.two_length hd
  rw [hg0] at hg'
  cases hg'
  have hgs' : g.shape = [co.length, m * n] := by rw [← hgg.1, hgs]
  obtain ⟨w0, hw0, hs0, hval0⟩ := matVec_flatten hgs hu
  rw [hv0] at hw0
  cases hw0
  obtain ⟨w1, hw1, hs1, hval1⟩ := matVec_flatten hgs' hu
  rw [hv] at hw1
  cases hw1
  have hE' : IsEngVoigt co (strainTensor m n d u) v := by
    refine ⟨hs1, fun k a b hk => ?_⟩
    rw [← hE.2 k a b hk, hval0, hval1]
    have hk' : k < co.length := (List.getElem?_eq_some_iff.1 hk).1
    refine Finset.sum_congr rfl fun j hj => Finset.sum_congr rfl fun q hq => ?_
    have hlt : j * n + q < m * n := by
      have h1 := Finset.mem_range.1 hj
      have h2 := Finset.mem_range.1 hq
      calc j * n + q < j * n + n := by omega
        _ = (j + 1) * n := by ring
        _ ≤ _ := Nat.mul_le_mul_right _ h1
    rw [hgg.2 [k, j * n + q] (by rw [hgs]; exact .cons hk' (.cons hlt .nil))]
  obtain ⟨t, t', h1, h2, h3⟩ := C07_vget_strain h hs1
  rw [hi] at h2
  cases h2
  have hIs : IsSym2 n (strainTensor m n d u) := by
    refine ⟨rfl, fun i _ j _ => ?_⟩
    simp only [strainTensor, List.getD_cons_zero, List.getD_cons_succ]
    ring
  obtain ⟨t2, ht2, hsame⟩ := C07_strain_recovered h hIs hE'
  rw [h1] at ht2
  cases ht2
  refine ⟨by rw [← h3.1]; exact hsame.1, fun idx hidx => ?_⟩
  rw [← h3.1] at hidx
  rw [← h3.2 idx hidx, hsame.2 idx hidx]

end Hooke
