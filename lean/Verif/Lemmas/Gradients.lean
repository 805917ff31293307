import Verif.Model.Gradients
import Verif.Spec.Gradients
import Verif.Lemmas.Voigt
import Verif.Props.Elements

namespace Hooke

open Spec

theorem mulAdd_inj {n j j' x p : ℕ} (hx : x < n) (hp : p < n) (h : j' * n + x = j * n + p) :
    j' = j ∧ x = p := by
  have hn : 0 < n := by omega
  have h1 : (j' * n + x) / n = j' := by
    rw [mul_comm, Nat.mul_add_div hn, Nat.div_eq_of_lt hx, add_zero]
  have h2 : (j * n + p) / n = j := by
    rw [mul_comm, Nat.mul_add_div hn, Nat.div_eq_of_lt hp, add_zero]
  have : j' = j := by rw [← h1, h, h2]
  subst this
  exact ⟨rfl, by omega⟩

theorem mulAdd_div {n j p : ℕ} (hp : p < n) : (j * n + p) / n = j := by
  rw [mul_comm, Nat.mul_add_div (by omega), Nat.div_eq_of_lt hp, add_zero]

theorem mulAdd_mod {n j p : ℕ} (hp : p < n) : (j * n + p) % n = p := by
  rw [mul_comm, Nat.mul_add_mod, Nat.mod_eq_of_lt hp]

/-- The doubly nested assignment loop of the gradient builders. -/
theorem gradLoop {m n : ℕ} {co : List Comp} (step : ℕ → Tensor → Comp × ℕ → Tensor)
    (W : ℕ → Comp → List (ℕ × ℝ))
    (hs : ∀ j g ci, step j g ci = g.writes ((W j ci.1).map fun w => ([ci.2, j * n + w.1], w.2)))
    (hW : ∀ j, ∀ c ∈ co, ∀ w ∈ W j c, w.1 < n) (g0 : Tensor) :
    let g := (List.range m).foldl (fun g j => co.zipIdx.foldl (step j) g) g0
    g.shape = g0.shape ∧
    ∀ k c, co[k]? = some c → ∀ j < m, ∀ p < n,
      (∀ v, (∀ w ∈ W j c, w.1 = p → w.2 = v) → (∃ w ∈ W j c, w.1 = p) → g.val [k, j * n + p] = v) ∧
      ((∀ w ∈ W j c, w.1 ≠ p) → g.val [k, j * n + p] = g0.val [k, j * n + p]) := by
  intro g
  have h1 : ∀ (t : Tensor) (j : ℕ), co.zipIdx.foldl (step j) t =
      t.writes (co.zipIdx.flatMap fun ci => (W j ci.1).map fun w => ([ci.2, j * n + w.1], w.2)) :=
    fun t j => foldl_eq_writes _ _ (fun t a => hs j t a) _ _
  have h2 : g = g0.writes ((List.range m).flatMap fun j =>
      co.zipIdx.flatMap fun ci => (W j ci.1).map fun w => ([ci.2, j * n + w.1], w.2)) :=
    foldl_eq_writes _ _ h1 _ _
  have hmem : ∀ x : List ℕ × ℝ, x ∈ ((List.range m).flatMap fun j =>
      co.zipIdx.flatMap fun ci => (W j ci.1).map fun w => ([ci.2, j * n + w.1], w.2)) →
      ∃ j < m, ∃ k c, co[k]? = some c ∧ ∃ w ∈ W j c, x = ([k, j * n + w.1], w.2) := by
    intro x hx
    simp only [List.mem_flatMap, List.mem_range, List.mem_map] at hx
    obtain ⟨j, hj, ⟨c, k⟩, hck, w, hw, rfl⟩ := hx
    exact ⟨j, hj, k, c, by simpa [List.mem_zipIdx_iff_getElem?] using hck, w, hw, rfl⟩
  refine ⟨by rw [h2]; simp, ?_⟩
  intro k c hk j hj p hp
  refine ⟨?_, ?_⟩
  · intro v hv ⟨w, hw, hwp⟩
    rw [h2]
    apply Tensor.writes_val
    · intro x hx hxi
      obtain ⟨j', hj', k', c', hk', w', hw', rfl⟩ := hmem x hx
      simp only [List.cons.injEq, and_true] at hxi
      obtain ⟨rfl, hq⟩ := hxi
      rw [hk] at hk'
      cases hk'
      obtain ⟨rfl, e⟩ := mulAdd_inj (hW _ _ (List.mem_of_getElem? hk) _ hw') hp hq
      exact hv _ hw' e
    · refine ⟨([k, j * n + w.1], w.2), ?_, by simp [hwp]⟩
      simp only [List.mem_flatMap, List.mem_range, List.mem_map]
      exact ⟨j, hj, (c, k), by simpa [List.mem_zipIdx_iff_getElem?] using hk, w, hw, rfl⟩
  · intro hno
    rw [h2]
    apply Tensor.writes_other
    intro x hx hxi
    obtain ⟨j', hj', k', c', hk', w', hw', rfl⟩ := hmem x hx
    simp only [List.cons.injEq, and_true] at hxi
    obtain ⟨rfl, hq⟩ := hxi
    rw [hk] at hk'
    cases hk'
    obtain ⟨rfl, e⟩ := mulAdd_inj (hW _ _ (List.mem_of_getElem? hk) _ hw') hp hq
    exact hno _ hw' e

/-- Entry of the symmetric gradient operator for component `c`, node `j`, direction `p`. -/
noncomputable def symEntry (d : Tensor) (c : Comp) (j p : ℕ) : ℝ :=
  if p = c.i then d.val [j, c.j] else if p = c.j then d.val [j, c.i] else 0

theorem buildSym_spec {m n : ℕ} {co : List Comp} (h : ValidPairs n co)
    (hl : 2 * co.length = n * (n + 1)) {d : Tensor} (hd : d.shape = [m, n]) :
    ∃ g, buildDiscreteSymGradient d co = .ok g ∧ g.shape = [co.length, m * n] ∧
      ∀ k c, co[k]? = some c → ∀ j < m, ∀ p < n, g.val [k, j * n + p] = symEntry d c j p := by
  let W : ℕ → Comp → List (ℕ × ℝ) := fun j c =>
    if c.i = c.j then [(c.i, d.val [j, c.i])] else [(c.j, d.val [j, c.i]), (c.i, d.val [j, c.j])]
  have hs : ∀ j g ci, gradSymStep d n j g ci =
      g.writes ((W j ci.1).map fun w => ([ci.2, j * n + w.1], w.2)) := by
    intro j g ci
    simp only [gradSymStep, W]
    split <;> simp [Tensor.writes]
  have hW : ∀ j, ∀ c ∈ co, ∀ w ∈ W j c, w.1 < n := by
    intro j c hc w hw
    obtain ⟨h1, h2, -⟩ := h.ij hc
    simp only [W] at hw
    split at hw <;> simp at hw
    · subst hw; exact h1
    · rcases hw with rfl | rfl
      exacts [h2, h1]
  obtain ⟨hsh, hv⟩ := gradLoop (m := m) _ W hs hW (Tensor.zeros [co.length, m * n])
  refine ⟨_, ?_, hsh, ?_⟩
  · simp [buildDiscreteSymGradient, hd, hl, h.not_badDigit, h.not_badLength, pure, Except.pure]
  · intro k c hk j hj p hp
    obtain ⟨ha, hb⟩ := hv k c hk j hj p hp
    unfold symEntry
    by_cases e : c.i = c.j
    · by_cases e1 : p = c.i
      · rw [if_pos e1]
        exact ha _ (by simp [W, e]) (by simp [W, e, e1])
      · rw [if_neg e1, if_neg (by rw [← e]; exact e1)]
        exact (hb (by simp [W, e]; rw [← e]; exact fun h => e1 h.symm))
    · by_cases e1 : p = c.i
      · rw [if_pos e1]
        refine ha _ ?_ (by simp [W, e, e1])
        intro w hw hwp
        simp only [W, e, if_false, List.mem_cons, List.not_mem_nil, or_false] at hw
        rcases hw with rfl | rfl
        · exact absurd (hwp.trans e1).symm e
        · rfl
      · rw [if_neg e1]
        by_cases e2 : p = c.j
        · rw [if_pos e2]
          refine ha _ ?_ (by simp [W, e, e2])
          intro w hw hwp
          simp only [W, e, if_false, List.mem_cons, List.not_mem_nil, or_false] at hw
          rcases hw with rfl | rfl
          · rfl
          · exact absurd hwp.symm e1
        · rw [if_neg e2]
          exact (hb (by simp [W, e]; exact ⟨fun h => e2 h.symm, fun h => e1 h.symm⟩))

theorem getD_flatMap_map {α β : Type*} (f : ℕ → α → β) (co : List α) (z : β) :
    ∀ (n p k : ℕ) (c : α), p < n → co[k]? = some c →
      ((List.range n).flatMap fun i => co.map (f i)).getD (p * co.length + k) z = f p c := by
  intro n p k c hp hk
  have hlt : k < co.length := (List.getElem?_eq_some_iff.1 hk).1
  induction n with
  | zero => omega
  | succ n ih =>
    have hlen : ((List.range n).flatMap fun i => co.map (f i)).length = n * co.length := by
      simp [List.length_flatMap]
    rw [List.range_succ, List.flatMap_append, List.getD_eq_getElem?_getD]
    rcases Nat.lt_succ_iff_lt_or_eq.1 hp with h | rfl
    · rw [List.getElem?_append_left, ← List.getD_eq_getElem?_getD]
      · exact ih h
      · rw [hlen]; nlinarith
    · rw [List.getElem?_append_right (by rw [hlen]; omega), hlen]
      simp [hk]

theorem mappedGradient_val {m n : ℕ} {co : List Comp} (d : Tensor) (f : ℕ → Comp → ℕ)
    {k : ℕ} {c : Comp} (hk : co[k]? = some c) {j p : ℕ} (hp : p < n) :
    (mappedGradient d m n co ((List.range n).flatMap fun i => co.map (f i))).val [k, j * n + p] =
      mappingValue d j (f p c) := by
  simp only [mappedGradient, List.getD_cons_zero, List.getD_cons_succ, mulAdd_div hp, mulAdd_mod hp]
  rw [getD_flatMap_map f co 0 n p k c hp hk]

theorem vgradSymIndex_eq {n : ℕ} {co : List Comp} (h : ValidPairs n co) {c : Comp} (hc : c ∈ co)
    (p : ℕ) : vgradSymIndex (p + 1) c =
      if p = c.i then c.j + 1 else if p = c.j then c.i + 1 else 0 := by
  obtain ⟨a, b, h1, h2, h3, h4, rfl⟩ := h.pair c hc
  simp only [vgradSymIndex, Comp.i, Comp.j, List.mem_cons, List.not_mem_nil, or_false,
    List.getD_cons_zero, List.getD_cons_succ]
  by_cases e : a = b
  · subst e
    by_cases e1 : p = a - 1
    · have : p + 1 = a := by omega
      simp [e1]; omega
    · have : p + 1 ≠ a := by omega
      simp [e1, this]
  · by_cases e1 : p = a - 1
    · have e2 : p + 1 = a := by omega
      rw [if_pos (Or.inl e2), if_neg e, if_pos e1, List.filter_cons_of_neg (by simp [e2]),
        List.filter_cons_of_pos (by simp; omega)]
      simp; omega
    · by_cases e2 : p = b - 1
      · have e3 : p + 1 = b := by omega
        rw [if_pos (Or.inr e3), if_neg e, if_neg e1, if_pos e2,
          List.filter_cons_of_pos (by simp; omega)]
        simp; omega
      · rw [if_neg (by omega), if_neg e1, if_neg e2]

theorem vbuildSym_spec {m n : ℕ} {co : List Comp} (h : ValidPairs n co)
    (hl : 2 * co.length = n * (n + 1)) {d : Tensor} (hd : d.shape = [m, n]) :
    ∃ g, vbuildDiscreteSymGradient d co = .ok g ∧ g.shape = [co.length, m * n] ∧
      ∀ k c, co[k]? = some c → ∀ j < m, ∀ p < n, g.val [k, j * n + p] = symEntry d c j p := by
  have hany : (vgradSymMapping n co).any (fun k => decide (n < k)) = false := by
    rw [List.any_eq_false]
    intro x hx
    simp only [vgradSymMapping, List.mem_flatMap, List.mem_map, List.mem_range] at hx
    obtain ⟨i, hi, c, hc, rfl⟩ := hx
    obtain ⟨h1, h2, -⟩ := h.ij hc
    rw [vgradSymIndex_eq h hc]
    simp only [decide_eq_true_eq]
    split_ifs <;> omega
  refine ⟨mappedGradient d m n co (vgradSymMapping n co), ?_, rfl, ?_⟩
  · simp only [vbuildDiscreteSymGradient, hd, hl, h.not_badLength, hany]
    simp [pure, Except.pure]
  · intro k c hk j hj p hp
    rw [vgradSymMapping, mappedGradient_val d (fun i => vgradSymIndex (i + 1)) hk hp,
      vgradSymIndex_eq h (List.mem_of_getElem? hk)]
    unfold mappingValue symEntry
    by_cases e1 : p = c.i
    · simp [e1]
    · rw [if_neg e1, if_neg e1]
      by_cases e2 : p = c.j <;> simp [e2]

theorem buildNsym_spec {m n : ℕ} {co : List Comp} (h : ValidPairs n co)
    (hl : co.length = n ^ 2) {d : Tensor} (hd : d.shape = [m, n]) :
    ∃ g, buildDiscreteGradient d (some co) = .ok g ∧ g.shape = [co.length, m * n] ∧
      ∀ k c, co[k]? = some c → ∀ j < m, ∀ p < n,
        g.val [k, j * n + p] = if p = c.i then d.val [j, c.j] else 0 := by
  let W : ℕ → Comp → List (ℕ × ℝ) := fun j c => [(c.i, d.val [j, c.j])]
  have hs : ∀ j g ci, gradStep d n j g ci =
      g.writes ((W j ci.1).map fun w => ([ci.2, j * n + w.1], w.2)) := by
    intro j g ci
    simp [gradStep, W, Tensor.writes]
  have hW : ∀ j, ∀ c ∈ co, ∀ w ∈ W j c, w.1 < n := by
    intro j c hc w hw
    simp only [W, List.mem_singleton] at hw
    subst hw
    exact (h.ij hc).1
  obtain ⟨hsh, hv⟩ := gradLoop (m := m) _ W hs hW (Tensor.zeros [co.length, m * n])
  refine ⟨_, ?_, hsh, ?_⟩
  · simp [buildDiscreteGradient, hd, hl, h.not_badDigit, h.not_badLength, pure, Except.pure]
  · intro k c hk j hj p hp
    obtain ⟨ha, hb⟩ := hv k c hk j hj p hp
    by_cases e1 : p = c.i
    · rw [if_pos e1]
      exact ha _ (by simp [W]) (by simp [W, e1])
    · rw [if_neg e1]
      exact hb (by simp [W]; exact fun h => e1 h.symm)

theorem vbuildNsym_spec {m n : ℕ} {co : List Comp} (h : ValidPairs n co)
    (hl : co.length = n ^ 2) {d : Tensor} (hd : d.shape = [m, n]) :
    ∃ g, vbuildDiscreteGradient d (some co) = .ok g ∧ g.shape = [co.length, m * n] ∧
      ∀ k c, co[k]? = some c → ∀ j < m, ∀ p < n,
        g.val [k, j * n + p] = if p = c.i then d.val [j, c.j] else 0 := by
  have hidx : ∀ c ∈ co, ∀ p, vgradIndex (p + 1) c = if p = c.i then c.j + 1 else 0 := by
    intro c hc p
    obtain ⟨a, b, h1, h2, h3, h4, rfl⟩ := h.pair c hc
    simp only [vgradIndex, Comp.i, Comp.j, List.getD_cons_zero, List.getD_cons_succ]
    split_ifs <;> omega
  have hany : ((List.range n).flatMap (fun i => co.map (vgradIndex (i + 1)))).any
      (fun k => decide (n < k)) = false := by
    rw [List.any_eq_false]
    intro x hx
    simp only [List.mem_flatMap, List.mem_map, List.mem_range] at hx
    obtain ⟨i, hi, c, hc, rfl⟩ := hx
    obtain ⟨h1, h2, -⟩ := h.ij hc
    rw [hidx c hc]
    simp only [decide_eq_true_eq]
    split_ifs <;> omega
  refine ⟨mappedGradient d m n co ((List.range n).flatMap (fun i => co.map (vgradIndex (i + 1)))),
    ?_, rfl, ?_⟩
  · simp only [vbuildDiscreteGradient, hd, Option.getD_some, hl, h.not_badLength, hany]
    simp [pure, Except.pure]
  · intro k c hk j hj p hp
    rw [mappedGradient_val d (fun i => vgradIndex (i + 1)) hk hp, hidx _ (List.mem_of_getElem? hk)]
    unfold mappingValue
    by_cases e1 : p = c.i <;> simp [e1]

/-- A sum over the columns of a gradient operator is a double sum over nodes and directions. -/
theorem sum_range_mul_eq (m n : ℕ) (f : ℕ → ℝ) :
    ∑ q ∈ Finset.range (m * n), f q =
      ∑ j ∈ Finset.range m, ∑ p ∈ Finset.range n, f (j * n + p) := by
  induction m with
  | zero => simp
  | succ m ih =>
    rw [Nat.succ_mul, Finset.sum_range_add, ih, Finset.sum_range_succ]

theorem flatten2_val {m n : ℕ} {u : Tensor} (hu : u.shape = [m, n]) {j p : ℕ} (hp : p < n) :
    u.flatten2.val [j * n + p] = u.val [j, p] := by
  simp [Tensor.flatten2, hu, mulAdd_div hp, mulAdd_mod hp]

/-- Operator times flattened nodal values, row by row. -/
theorem matVec_flatten {m n : ℕ} {L : ℕ} {g u : Tensor} (hg : g.shape = [L, m * n])
    (hu : u.shape = [m, n]) :
    ∃ v, computeInfinitesimalStrain g u = .ok v ∧ v.shape = [L] ∧
      ∀ k, v.val [k] = ∑ j ∈ Finset.range m, ∑ p ∈ Finset.range n,
        g.val [k, j * n + p] * u.val [j, p] := by
  refine ⟨⟨[L], fun idx => ∑ p ∈ Finset.range (m * n), g.val [idx.getD 0 0, p] * u.flatten2.val [p]⟩,
    ?_, rfl, ?_⟩
  · simp [computeInfinitesimalStrain, Tensor.matVec, hg, Tensor.flatten2, hu]
  · intro k
    simp only [List.getD_cons_zero]
    rw [sum_range_mul_eq]
    refine Finset.sum_congr rfl fun j _ => Finset.sum_congr rfl fun p hp => ?_
    rw [flatten2_val hu (Finset.mem_range.1 hp)]

theorem Spec.CompleteSym.two_length {n : ℕ} {co : List Comp} (h : CompleteSym n co) :
    2 * co.length = n * (n + 1) := by
  rw [h.length_eq, sum_range_eq_choose, Nat.choose_two_right, Nat.add_sub_cancel, mul_comm (n + 1),
    Nat.mul_div_cancel' (Nat.even_mul_succ_self n).two_dvd]

@[simp] theorem ofFin2_val {a b : ℕ} (f : Fin a → Fin b → ℝ) (i : Fin a) (j : Fin b) :
    (Tensor.ofFin2 f).val [i, j] = f i j := by
  simp [Tensor.ofFin2]

theorem evalShapefunDeriv_ok (e : ElementType) (X : Fin e.nNode → Fin e.dim → ℝ)
    (c : Fin e.dim → ℝ) (hJ : (e.jacobian X c).det ≠ 0) :
    ∃ d, e.evalShapefunDeriv X c = .ok (d, e.jacobian X c, (e.jacobian X c).det) ∧
      d.shape = [e.nNode, e.dim] ∧
      ∀ (a : Fin e.nNode) (j : Fin e.dim), d.val [a, j] =
        ∑ k, (e.jacobian X c)⁻¹ j k * e.localDeriv c a k := by
  refine ⟨Tensor.ofFin2 (fun i j => ((e.jacobian X c)⁻¹ *
    (Matrix.of (e.localDeriv c)).transpose).transpose i j), ?_, rfl, ?_⟩
  · simp [ElementType.evalShapefunDeriv, ElementType.evalJacobian, hJ, bind, Except.bind,
      pure, Except.pure]
  · intro a j
    rw [ofFin2_val, Matrix.transpose_apply, Matrix.mul_apply]
    rfl

/-- The global derivatives sum to zero and reproduce linear fields. -/
theorem deriv_sum_zero (e : ElementType) (X : Fin e.nNode → Fin e.dim → ℝ)
    (c : Fin e.dim → ℝ) {d : Tensor}
    (hdv : ∀ (a : Fin e.nNode) (j : Fin e.dim), d.val [a, j] =
        ∑ k, (e.jacobian X c)⁻¹ j k * e.localDeriv c a k) (j : Fin e.dim) :
    ∑ a : Fin e.nNode, d.val [a, j] = 0 := by
  simp only [hdv]
  rw [Finset.sum_comm]
  simp only [← Finset.mul_sum, C13_sum_zero, mul_zero, Finset.sum_const_zero]

theorem deriv_coords (e : ElementType) (X : Fin e.nNode → Fin e.dim → ℝ)
    (c : Fin e.dim → ℝ) (hJ : (e.jacobian X c).det ≠ 0) {d : Tensor}
    (hdv : ∀ (a : Fin e.nNode) (j : Fin e.dim), d.val [a, j] =
        ∑ k, (e.jacobian X c)⁻¹ j k * e.localDeriv c a k) (i j : Fin e.dim) :
    ∑ a : Fin e.nNode, X a i * d.val [a, j] = if j = i then 1 else 0 := by
  have h1 : (e.jacobian X c)⁻¹ * e.jacobian X c = 1 :=
    Matrix.nonsing_inv_mul _ (isUnit_iff_ne_zero.2 hJ)
  have h2 := congrFun (congrFun h1 j) i
  rw [Matrix.one_apply, Matrix.mul_apply] at h2
  rw [← h2]
  simp only [hdv, Finset.mul_sum]
  rw [Finset.sum_comm]
  refine Finset.sum_congr rfl fun k _ => ?_
  rw [ElementType.jacobian, Matrix.mul_apply, Finset.mul_sum]
  refine Finset.sum_congr rfl fun a _ => ?_
  simp only [Matrix.transpose_apply, Matrix.of_apply]
  ring

theorem affine_gradient (e : ElementType) (X : Fin e.nNode → Fin e.dim → ℝ)
    (c : Fin e.dim → ℝ) (hJ : (e.jacobian X c).det ≠ 0) (a : Fin e.dim → ℝ)
    (G : Fin e.dim → Fin e.dim → ℝ) {d : Tensor} (_hds : d.shape = [e.nNode, e.dim])
    (hdv : ∀ (a : Fin e.nNode) (j : Fin e.dim), d.val [a, j] =
        ∑ k, (e.jacobian X c)⁻¹ j k * e.localDeriv c a k) (i j : Fin e.dim) :
    dispGrad e.nNode d (Tensor.ofFin2 fun n i => a i + ∑ j, G i j * X n j) i j = G i j := by
  rw [dispGrad, Finset.sum_range]
  simp only [ofFin2_val, add_mul, Finset.sum_add_distrib, ← Finset.mul_sum,
    deriv_sum_zero e X c hdv, mul_zero, zero_add]
  simp only [Finset.sum_mul]
  rw [Finset.sum_comm]
  simp only [mul_assoc, ← Finset.mul_sum, deriv_coords e X c hJ hdv]
  simp

end Hooke
