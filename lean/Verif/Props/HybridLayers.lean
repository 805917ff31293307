import Verif.Model.HybridLayers
import Verif.Spec.HybridLayers
import Verif.Props.Elastic
import Verif.Props.Hybrid

/-! # C82: layers of hybrid models -/

noncomputable section

namespace Hooke

open Spec Finset

/-! ## Elastic layer -/

theorem row_elastic_solid {D : M6} {s : T2 3 → T2 3}
    (hD : ∀ e, IsSym e → mv6 D (kel6 e) = kel6 (s e)) {t : T2 3} (ht : IsSym t) :
    (List.ofFn fun i : Fin 6 => 1 / kelvinMatrix .solid i *
      ∑ j : Fin 6, D i j * (kelvinMatrix .solid j * (featuresOf .solid t).getD j 0)) =
      featuresOf .solid (s t) := by
  have h := hD _ ht
  have h0 := congrFun h 0
  have h1 := congrFun h 1
  have h3 := congrFun h 3
  have h2' := congrFun h 2
  have h4 := congrFun h 4
  have h5 := congrFun h 5
  simp only [mv6, kel6, Fin.sum_univ_six, ci, cj, kf] at h0 h1 h3 h2' h4 h5
  simp at h0 h1 h2' h3 h4 h5
  simp [List.ofFn_succ, Fin.sum_univ_six, kelvinMatrix, layerOrder, featuresOf]
  have h2 := sqrt2_ne
  refine ⟨?_, ?_, ?_, ?_, ?_, ?_⟩
  · linarith
  · linarith
  · linarith
  · field_simp; linarith
  · field_simp; linarith
  · field_simp; linarith

theorem row_elastic (p : PType) {D : M6} {s : T2 3 → T2 3}
    (hD : ∀ e, IsSym e → mv6 D (kel6 e) = kel6 (s e)) {t : T2 p.dim} (ht : IsSymP p t) :
    (List.ofFn fun i => 1 / kelvinMatrix p i *
      ∑ j, to2DM p D i j * (kelvinMatrix p j * (featuresOf p t).getD j 0)) =
      featuresOf p (stressOf p s t) := by
  cases p
  · have hs : IsSym (embed .plane t) := by
      intro i j
      have := ht 0 1
      fin_cases i <;> fin_cases j <;> simp [embed, this]
    have h := hD _ hs
    have h0 := congrFun h 0
    have h1 := congrFun h 1
    have h3 := congrFun h 3
    simp only [mv6, kel6, Fin.sum_univ_six, ci, cj, kf, embed] at h0 h1 h3
    simp at h0 h1 h3
    simp [List.ofFn_succ, Fin.sum_univ_three, to2DM, kelvinMatrix, layerOrder, featuresOf, stressOf,
      inPlane, embed]
    refine ⟨?_, ?_, ?_⟩
    · linarith
    · linarith
    · have h2 := sqrt2_ne
      field_simp
      linarith
  · exact row_elastic_solid hD ht

theorem isSymP_sub {p : PType} {a b : T2 p.dim} (ha : IsSymP p a) (hb : IsSymP p b) :
    IsSymP p (a - b) := fun i j => by simp [ha i j, hb i j]

theorem featuresOf_sub (p : PType) (a b : T2 p.dim) :
    List.zipWith (· - ·) (featuresOf p a) (featuresOf p b) = featuresOf p (a - b) := by
  cases p <;> simp [featuresOf]

theorem featuresOf_length (p : PType) (a : T2 p.dim) : (featuresOf p a).length = p.len := by
  cases p <;> rfl

/-- The stress returned by both elastic layers for a 3D stress function `s`. -/
theorem elastic_layer {p : PType} {d : Props} (sym : ElSym) {D : M6} {s : T2 3 → T2 3}
    (h : elasticTangentModulus d .isotropic = .ok D)
    (hD : ∀ e, IsSym e → mv6 D (kel6 e) = kel6 (s e)) :
    ∃ D', batchedElasticInit p d sym = .ok D' ∧
      (∀ c, ∀ es : List (T2 p.dim), (∀ e ∈ es, IsSymP p e) →
        batchedElasticForward c p D' p.len (es.map (featuresOf p)) =
          .ok (es.map fun e => featuresOf p (stressOf p s e))) ∧
      (∀ l : List (T2 p.dim × T2 p.dim), (∀ q ∈ l, IsSymP p q.1 ∧ IsSymP p q.2) →
        batchedElasticForward .hybridizedLayers p D' (2 * p.len)
            (l.map fun q => featuresOf p q.1 ++ featuresOf p q.2) =
          .ok (l.map fun q => featuresOf p (stressOf p s (q.2 - q.1)))) ∧
      (∀ l : List (T2 p.dim × T2 p.dim), (∀ q ∈ l, IsSymP p q.1 ∧ IsSymP p q.2) →
        batchedElasticForward .transferLearning p D' (2 * p.len)
            (l.map fun q => featuresOf p q.1 ++ featuresOf p q.2) =
          .ok (l.map fun q => featuresOf p (stressOf p s (q.1 - q.2)))) := by
  have hlen : 2 * p.len ≠ p.len := by cases p <;> decide
  refine ⟨to2DM p D, by simp [batchedElasticInit, h, Except.map], fun c es hes => ?_, fun l hl => ?_,
    fun l hl => ?_⟩
  · simp only [batchedElasticForward, elasticStrainOf, if_true, bind, Except.bind, Except.ok.injEq,
      List.map_map]
    exact List.map_congr_left fun e he => row_elastic p hD (hes e he)
  · simp only [batchedElasticForward, elasticStrainOf, if_neg hlen, if_true, bind, Except.bind,
      Except.ok.injEq, List.map_map]
    refine List.map_congr_left fun q hq => ?_
    have := row_elastic p hD (isSymP_sub (hl q hq).2 (hl q hq).1)
    rw [← featuresOf_sub] at this
    simp only [Function.comp_apply]
    rw [List.drop_left' (featuresOf_length p q.1), List.take_left' (featuresOf_length p q.1)]
    exact this
  · simp only [batchedElasticForward, elasticStrainOf, if_neg hlen, if_true, bind, Except.bind,
      Except.ok.injEq, List.map_map]
    refine List.map_congr_left fun q hq => ?_
    have := row_elastic p hD (isSymP_sub (hl q hq).1 (hl q hq).2)
    rw [← featuresOf_sub] at this
    simp only [Function.comp_apply]
    rw [List.drop_left' (featuresOf_length p q.1), List.take_left' (featuresOf_length p q.1)]
    exact this

/-- **C82** (elastic layer). With Young's modulus and Poisson's ratio, the elastic layer returns the
stress of Hooke's law, under plane strain or in 3D, for elastic strains, for concatenated plastic and
total strains (`hybridized_layers.py`) and for concatenated total and plastic strains
(`transfer_learning.py`), at every position. -/
theorem C82_elastic (p : PType) {d : Props} {E v : ℝ} (hE : d .E = some E) (hv : d .v = some v) :
    ∃ D, batchedElasticInit p d .isotropic = .ok D ∧
      (∀ c, ∀ es : List (T2 p.dim), (∀ e ∈ es, IsSymP p e) →
        batchedElasticForward c p D p.len (es.map (featuresOf p)) =
          .ok (es.map fun e => featuresOf p (stressOf p (hooke (lame E v) (shear E v)) e))) ∧
      (∀ l : List (T2 p.dim × T2 p.dim), (∀ q ∈ l, IsSymP p q.1 ∧ IsSymP p q.2) →
        batchedElasticForward .hybridizedLayers p D (2 * p.len)
            (l.map fun (plastic, total) => featuresOf p plastic ++ featuresOf p total) =
          .ok (l.map fun (plastic, total) =>
            featuresOf p (stressOf p (hooke (lame E v) (shear E v)) (total - plastic)))) ∧
      (∀ l : List (T2 p.dim × T2 p.dim), (∀ q ∈ l, IsSymP p q.1 ∧ IsSymP p q.2) →
        batchedElasticForward .transferLearning p D (2 * p.len)
            (l.map fun (total, plastic) => featuresOf p total ++ featuresOf p plastic) =
          .ok (l.map fun (total, plastic) =>
            featuresOf p (stressOf p (hooke (lame E v) (shear E v)) (total - plastic)))) := by
  obtain ⟨D, h1, h2, -⟩ := C24_isotropic_tangent hE hv
  exact elastic_layer .isotropic h1 h2

/-- **C82** (elastic layer). The same with the moduli of an isotropic stiffness `C`: the stress is
`C : ε`. -/
theorem C82_elastic_moduli (p : PType) {d : Props} {C : T4 3} (hC : IsStiffness C)
    (hs : HasSymmetry .isotropic C) (hd : GivesModuli d .isotropic C) :
    ∃ D, batchedElasticInit p d .isotropic = .ok D ∧
      (∀ c, ∀ es : List (T2 p.dim), (∀ e ∈ es, IsSymP p e) →
        batchedElasticForward c p D p.len (es.map (featuresOf p)) =
          .ok (es.map fun e => featuresOf p (stressOf p (ddot42_1 C) e))) := by
  obtain ⟨D, h1, h2, -⟩ := C24_moduli hC hs hd
  obtain ⟨D', g1, g2, -⟩ := elastic_layer (p := p) .isotropic h1 h2
  exact ⟨D', g1, g2⟩

/-- **C82** (elastic layer). Any other number of features is rejected. -/
theorem C82_elastic_raises (c : ElasticClass) (p : PType) (D : Fin p.len → Fin p.len → ℝ) {nf : ℕ}
    (h1 : nf ≠ p.len) (h2 : nf ≠ 2 * p.len) (x : FeatTensor) :
    batchedElasticForward c p D nf x = .error .runtimeError := by
  simp [batchedElasticForward, elasticStrainOf, h1, h2, bind, Except.bind]

/-- The strain with only the component 22. -/
def unit22 : (p : PType) → T2 p.dim
  | .plane => ![![0, 0], ![0, 1]]
  | .solid => ![![0, 0, 0], ![0, 1, 0], ![0, 0, 0]]

/-- The isotropic stiffness with the moduli `E1111 = a` and `E1122 = b`. -/
def isoModuliStiffness (a b : ℝ) : T4 3 := fun i j k l =>
  (if i = j ∧ k = l then b else 0) + (if i = k ∧ j = l then (a - b) / 2 else 0)
    + (if i = l ∧ j = k then (a - b) / 2 else 0)

theorem isoModuliStiffness_ok (a b : ℝ) : IsStiffness (isoModuliStiffness a b) ∧
    HasSymmetry .isotropic (isoModuliStiffness a b) := by
  refine ⟨⟨?_, ?_, ?_⟩, ⟨b, (a - b) / 2, fun _ _ _ _ => rfl⟩⟩ <;> intro i j k l <;>
    unfold isoModuliStiffness <;> fin_cases i <;> fin_cases j <;> fin_cases k <;> fin_cases l <;> simp

/-- **C82** is violated for anisotropic materials: the elastic layers accept an elastic symmetry but
compute the tangent for an isotropic material. For every orthotropic stiffness with `E2222 ≠ E1111` the
layer is built and returns a wrong stress for the strain 22. -/
theorem C82_symmetry_violated (p : PType) {d : Props} {C : T4 3}
    (hd : GivesModuli d .orthotropic C) (hE : d .E = none) (hne : C 1 1 1 1 ≠ C 0 0 0 0) :
    ∃ D, batchedElasticInit p d .orthotropic = .ok D ∧
      ∀ c, ∃ row, batchedElasticForward c p D p.len [featuresOf p (unit22 p)] = .ok [row] ∧
        row ≠ featuresOf p (stressOf p (ddot42_1 C) (unit22 p)) := by
  have hd' : GivesModuli d .isotropic (isoModuliStiffness (C 0 0 0 0) (C 0 0 1 1)) := by
    refine ⟨fun req hreq m hm => ?_, fun _ => .inl hE⟩
    simp only [requiredModuli, Option.some.injEq] at hreq
    subst hreq
    have hp := hd.present _ rfl
    simp only [List.mem_cons, List.not_mem_nil, or_false] at hm
    rcases hm with rfl | rfl
    · rw [hp _ (by simp)]
      simp [entry, axis, isoModuliStiffness]
      ring
    · rw [hp _ (by simp)]
      simp [entry, axis, isoModuliStiffness]
  obtain ⟨hC, hs⟩ := isoModuliStiffness_ok (C 0 0 0 0) (C 0 0 1 1)
  obtain ⟨D, h1, h2, -⟩ := C24_moduli hC hs hd'
  obtain ⟨D', g1, g2, -⟩ := elastic_layer (p := p) .orthotropic h1 h2
  refine ⟨D', g1, fun c => ⟨_, g2 c [unit22 p] ?_, fun h => hne ?_⟩⟩
  · intro e he
    obtain rfl := List.mem_singleton.mp he
    intro i j
    cases p <;> fin_cases i <;> fin_cases j <;> rfl
  · have := congrArg (fun l => l.getD 1 0) h
    cases p
    · simp [featuresOf, stressOf, inPlane, embed, unit22, ddot42_1, isoModuliStiffness,
        Fin.sum_univ_three] at this
      linarith
    · simp [featuresOf, stressOf, inPlane, embed, unit22, ddot42_1, isoModuliStiffness,
        Fin.sum_univ_three] at this
      linarith

/-! ## Composition of volumetric and deviatoric parts -/

theorem volDevRow_eq (v : ℝ) (t : T2 3) :
    volDevRow (v :: featuresOf .solid t) = v :: featuresOf .solid (t + sphere v) := by
  simp [volDevRow, featuresOf, List.finRange_succ, layerOrder, sphere]
  rfl

/-- **C82** (composition layer). From a volumetric part `v` and a deviatoric tensor `t` the layer returns
the components of `t + v I`. -/
theorem C82_composition (l : List (ℝ × T2 3)) :
    ∃ after, volDevForward 7 (l.map fun (v, t) => v :: featuresOf .solid t) =
      .ok (l.map fun (v, t) => featuresOf .solid (t + sphere v), after) := by
  refine ⟨(l.map fun (v, t) => v :: featuresOf .solid t).map volDevRow, ?_⟩
  simp only [volDevForward, ne_eq, Nat.reduceAdd, not_true_eq_false, if_false, Except.ok.injEq,
    Prod.mk.injEq, and_true, List.map_map]
  refine List.map_congr_left fun q _ => ?_
  simp [volDevRow_eq]

/-- **C82** (composition layer). Any other number of features is rejected. -/
theorem C82_composition_raises {nf : ℕ} (h : nf ≠ 7) (x : FeatTensor) :
    volDevForward nf x = .error .runtimeError := by
  simp [volDevForward, h]

/-- **C82** is violated by the composition layer: it overwrites its input. If some volumetric part is not
zero, the input tensor is changed by the call and a second evaluation of the same tensor returns
`t + 2 v I`. -/
theorem C82_composition_violated (l : List (ℝ × T2 3)) (hl : ∃ q ∈ l, q.1 ≠ 0) :
    ∃ out after out' after',
      volDevForward 7 (l.map fun (v, t) => v :: featuresOf .solid t) = .ok (out, after) ∧
      after ≠ (l.map fun (v, t) => v :: featuresOf .solid t) ∧
      volDevForward 7 after = .ok (out', after') ∧
      out' = (l.map fun (v, t) => featuresOf .solid (t + sphere v + sphere v)) ∧ out' ≠ out := by
  have e1 : (l.map fun (v, t) => v :: featuresOf .solid t).map volDevRow =
      l.map fun (v, t) => v :: featuresOf .solid (t + sphere v) := by
    rw [List.map_map]
    exact List.map_congr_left fun q _ => volDevRow_eq _ _
  have e2 : (l.map fun (v, t) => v :: featuresOf .solid (t + sphere v)).map volDevRow =
      l.map fun (v, t) => v :: featuresOf .solid (t + sphere v + sphere v) := by
    rw [List.map_map]
    exact List.map_congr_left fun q _ => volDevRow_eq _ _
  refine ⟨_, _, _, _, rfl, ?_, rfl, ?_, ?_⟩
  · rw [e1]
    intro h
    obtain ⟨q, hq, h0⟩ := hl
    have := List.map_inj_left.mp h q hq
    simp [featuresOf, sphere] at this
    exact h0 this
  · rw [e1, e2]; simp [Function.comp_def]
  · rw [e1, e2]
    intro h
    obtain ⟨q, hq, h0⟩ := hl
    simp only [List.map_map] at h
    have := List.map_inj_left.mp h q hq
    simp [featuresOf, sphere] at this
    exact h0 this

/-! ## Polynomial regressor -/

theorem polyColumn_ok (m : PolyRegressor) {nf : ℕ} (x : FeatTensor) {i : ℕ} (hi : i < nf)
    (hk : m.nCoeff ≠ 0) : m.column nf x i = .ok (x.map fun r => (List.zipWith (· * ·)
      (m.weights.getD i []) ((List.range' m.iniDeg m.nCoeff).map fun deg => r.getD i 0 ^ deg)).sum) := by
  have : ¬ nf ≤ i := by omega
  simp [PolyRegressor.column, raiseIf, this, hk, bind, Except.bind]

theorem zipWith_range'_sum (w : List ℝ) (a : ℝ) (k : ℕ) :
    (List.zipWith (· * ·) w ((List.range' k w.length).map fun deg => a ^ deg)).sum =
      ∑ d ∈ range w.length, w.getD d 0 * a ^ (k + d) := by
  induction w generalizing k with
  | nil => simp
  | cons b bs ih =>
    rw [List.length_cons, List.range'_succ, List.map_cons, List.zipWith_cons_cons, List.sum_cons, ih,
      Finset.sum_range_succ']
    simp only [List.getD_cons_succ, List.getD_cons_zero, Nat.add_zero]
    rw [add_comm]
    congr 1
    exact Finset.sum_congr rfl fun d _ => by rw [show k + 1 + d = k + (d + 1) by omega]

theorem polyForward_ok (m : PolyRegressor) (hn : m.nIn ≠ 0) (hk : m.nCoeff ≠ 0) (x : FeatTensor) :
    m.forward m.nIn x = .ok (x.map fun r => (List.range m.nIn).map fun i => (List.zipWith (· * ·)
      (m.weights.getD i []) ((List.range' m.iniDeg m.nCoeff).map fun deg => r.getD i 0 ^ deg)).sum) := by
  have h1 := mapM_ok_map (g := m.column m.nIn x) (List.range m.nIn)
    fun i hi => polyColumn_ok m x (List.mem_range.mp hi) hk
  have h2 : ¬ (List.range m.nIn = []) := by simpa using hn
  simp only [PolyRegressor.forward, h1, bind, Except.bind, raiseIf, List.map_eq_nil_iff, h2, if_false,
    ne_eq, not_true_eq_false, Except.ok.injEq]
  refine List.ext_getElem (by simp) fun b hb _ => ?_
  simp only [List.length_map, List.length_range] at hb
  simp [List.getD_eq_getElem, hb, Function.comp_def]

/-- **C82** (polynomial regressor). Every output feature is the polynomial of the same input feature
whose coefficients are the weights of its layer: from degree zero on with bias, from degree one on
without. -/
theorem C82_polynomial (m : PolyRegressor) (hn : 0 < m.nIn) (hdeg : m.bias = true ∨ 0 < m.degree)
    (hw : ∀ i < m.nIn, (m.weights.getD i []).length = if m.bias then m.degree + 1 else m.degree)
    (x : FeatTensor) :
    m.forward m.nIn x = .ok (x.map fun r => (List.range m.nIn).map fun i =>
      if m.bias then ∑ d ∈ range (m.degree + 1), (m.weights.getD i []).getD d 0 * r.getD i 0 ^ d
      else ∑ d ∈ Icc 1 m.degree, (m.weights.getD i []).getD (d - 1) 0 * r.getD i 0 ^ d) := by
  have hk : m.nCoeff ≠ 0 := by
    unfold PolyRegressor.nCoeff
    rcases hdeg with h | h
    · simp [h]
    · split_ifs <;> omega
  rw [polyForward_ok m (by omega) hk]
  congr 1
  refine List.map_congr_left fun r _ => List.map_congr_left fun i hi => ?_
  have hlen : (m.weights.getD i []).length = m.nCoeff := hw i (List.mem_range.mp hi)
  rw [← hlen, zipWith_range'_sum, hlen]
  rcases hb : m.bias with _ | _
  · have e1 : m.nCoeff = m.degree := by simp [PolyRegressor.nCoeff, hb]
    have e2 : m.iniDeg = 1 := by simp [PolyRegressor.iniDeg, e1]
    rw [e1, e2, if_neg (by simp)]
    have := Finset.sum_Ico_add' (fun d => (m.weights.getD i []).getD (d - 1) 0 * r.getD i 0 ^ d)
      0 m.degree 1
    rw [Finset.range_eq_Ico, show Icc 1 m.degree = Ico (0 + 1) (m.degree + 1) from rfl, ← this]
    exact Finset.sum_congr rfl fun d _ => by rw [Nat.add_sub_cancel, add_comm 1 d]
  · have e1 : m.nCoeff = m.degree + 1 := by simp [PolyRegressor.nCoeff, hb]
    have e2 : m.iniDeg = 0 := by simp [PolyRegressor.iniDeg, e1]
    rw [e1, e2, if_pos rfl]
    simp

/-- **C82** (polynomial regressor). Every choice of polynomials of at most the given degree (with zero
constant term if there is no bias) is computed by the regressor with suitable weights. -/
theorem C82_polynomial_complete (n degree : ℕ) (bias : Bool) (hn : 0 < n)
    (hdeg : bias = true ∨ 0 < degree) (P : ℕ → Polynomial ℝ) (hP : ∀ i < n, (P i).natDegree ≤ degree)
    (h0 : bias = false → ∀ i < n, (P i).eval 0 = 0) :
    ∃ w, ∀ x, (PolyRegressor.mk n degree bias w).forward n x =
      .ok (x.map fun r => (List.range n).map fun i => (P i).eval (r.getD i 0)) := by
  refine ⟨(List.range n).map fun i => if bias then (List.range (degree + 1)).map (P i).coeff
    else (List.range degree).map fun d => (P i).coeff (d + 1), fun x => ?_⟩
  have hw : ∀ i < n, ((List.range n).map fun i => if bias then (List.range (degree + 1)).map (P i).coeff
      else (List.range degree).map fun d => (P i).coeff (d + 1)).getD i [] =
      if bias then (List.range (degree + 1)).map (P i).coeff
      else (List.range degree).map fun d => (P i).coeff (d + 1) := by
    intro i hi
    rw [List.getD_eq_getElem _ _ (by simpa using hi)]
    simp
  rw [C82_polynomial _ hn hdeg (fun i hi => by rw [hw i hi]; split_ifs <;> simp)]
  congr 1
  refine List.map_congr_left fun r _ => List.map_congr_left fun i hi => ?_
  have hi' : i < n := List.mem_range.mp hi
  simp only [hw i hi']
  rw [Polynomial.eval_eq_sum_range' (Nat.lt_succ_of_le (hP i hi'))]
  rcases bias with _ | _
  · simp only [Bool.false_eq_true, if_false]
    rw [Nat.succ_eq_add_one, Finset.sum_range_succ' _ degree, Polynomial.coeff_zero_eq_eval_zero,
      h0 rfl i hi', zero_mul, add_zero]
    have := Finset.sum_Ico_add' (fun d => (((List.range degree).map fun d => (P i).coeff (d + 1)).getD
      (d - 1) 0) * r.getD i 0 ^ d) 0 degree 1
    rw [show Icc 1 degree = Ico (0 + 1) (degree + 1) from rfl, ← this, ← Finset.range_eq_Ico]
    refine Finset.sum_congr rfl fun d hd => ?_
    rw [Nat.add_sub_cancel, List.getD_eq_getElem _ _ (by simpa using hd)]
    simp
  · simp only [if_true]
    refine Finset.sum_congr rfl fun d hd => ?_
    rw [List.getD_eq_getElem _ _ (by simpa using hd)]
    simp

/-- **C82** (polynomial regressor). Features of another number are rejected. -/
theorem C82_polynomial_raises (m : PolyRegressor) {nf : ℕ} (x : FeatTensor) (hne : nf ≠ m.nIn)
    (hx : x ≠ []) : ∃ e, m.forward nf x = .error e := by
  rcases h : (List.range m.nIn).mapM (m.column nf x) with e | cols
  · exact ⟨e, by simp [PolyRegressor.forward, h, bind, Except.bind]⟩
  · refine ⟨.runtimeError, ?_⟩
    have hx' : x.length ≠ 0 := by simpa using hx
    have : ¬ (x.length * m.nIn = x.length * nf) := by
      intro e
      exact hne (Nat.eq_of_mul_eq_mul_left (by omega) e).symm
    by_cases hc : cols = []
    · simp [PolyRegressor.forward, h, bind, Except.bind, raiseIf, hc]
    · simp [PolyRegressor.forward, h, bind, Except.bind, raiseIf, hc, this]

/-! Non-vacuity -/

/-- Two quadratic polynomials. -/
example : (PolyRegressor.mk 2 2 true [[1, 0, 2], [0, 3, 0]]).forward 2 [[2, 5], [-1, 4]] =
    .ok [[9, 15], [3, 12]] := by
  rw [C82_polynomial _ (by simp) (.inl rfl) (by decide)]
  simp [List.range_succ, Finset.sum_range_succ]
  norm_num

/-- A strain of plane strain. -/
example : ∃ D, batchedElasticInit .plane (fun k => match k with
      | .E => some 1 | .v => some 0 | _ => none) .isotropic = .ok D ∧
    batchedElasticForward .hybridizedLayers .plane D 6 [[1, 0, 0, 3, 5, 7]] = .ok [[2, 5, 7]] := by
  obtain ⟨D, h1, -, h2, -⟩ := C82_elastic .plane (d := fun k => match k with
      | .E => some 1 | .v => some 0 | _ => none) (E := 1) (v := 0) rfl rfl
  refine ⟨D, h1, ?_⟩
  have := h2 [(![![1, 0], ![0, 0]], ![![3, 7], ![7, 5]])] (by
    intro q hq
    obtain rfl := List.mem_singleton.mp hq
    constructor <;> intro i j <;> fin_cases i <;> fin_cases j <;> rfl)
  simp [featuresOf, stressOf, inPlane, embed, hooke, lame, shear, trace] at this
  exact this.trans (by norm_num)

/-- A stiffness which is three times larger in direction 2. -/
example : ∃ (d : Props) (C : T4 3), GivesModuli d .orthotropic C ∧ HasSymmetry .orthotropic C ∧
    d .E = none ∧ C 1 1 1 1 ≠ C 0 0 0 0 := by
  refine ⟨fun k => match k with
      | .mod m => some (entry (fun i j k l => if i = j ∧ k = l ∧ i = k then if i = 1 then 3 else 1 else 0) m)
      | _ => none,
    fun i j k l => if i = j ∧ k = l ∧ i = k then if i = 1 then 3 else 1 else 0,
    ⟨fun _ _ _ _ => rfl, fun h => by simp at h⟩, fun a i j k l => ?_, rfl, by simp⟩
  by_cases h : i = j ∧ k = l ∧ i = k
  · obtain ⟨rfl, rfl, rfl⟩ := h
    have : axisSign a i * axisSign a i = 1 := by unfold axisSign; split_ifs <;> norm_num
    simp only [this, one_mul]
  · simp [h]

example : ∃ out after out' after', volDevForward 7 [[1, 0, 0, 0, 2, 3, 4]] = .ok (out, after) ∧
    after ≠ [[1, 0, 0, 0, 2, 3, 4]] ∧ volDevForward 7 after = .ok (out', after') ∧ out' ≠ out := by
  obtain ⟨a, b, c, d, h1, h2, h3, -, h5⟩ := C82_composition_violated
    [(1, ![![0, 2, 4], ![2, 0, 3], ![4, 3, 0]])] ⟨_, List.mem_cons_self, by simp⟩
  exact ⟨a, b, c, d, h1, h2, h3, h5⟩

end Hooke
