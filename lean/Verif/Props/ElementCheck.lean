import Verif.Model.ElementCheck
import Verif.Props.Elements

/-! # C154: self-check of an element -/

noncomputable section

namespace Hooke

theorem loopOver_ok {α : Type} {body : α → Py Unit} {l : List α} :
    loopOver body l = .ok () ↔ ∀ x ∈ l, body x = .ok () := by
  induction l with
  | nil => simp [loopOver]
  | cons x xs ih =>
    unfold loopOver
    cases h : body x with
    | error e => simp [h, bind, Except.bind]
    | ok u => simpa [h, bind, Except.bind] using ih

theorem loopOver_error {α : Type} {body : α → Py Unit} {l : List α} {e : PyErr}
    (h : loopOver body l = .error e) : ∃ x ∈ l, body x = .error e := by
  induction l with
  | nil => cases h
  | cons x xs ih =>
    unfold loopOver at h
    cases hx : body x with
    | error e' =>
      rw [hx] at h
      cases h
      exact ⟨x, List.mem_cons_self, hx⟩
    | ok u =>
      rw [hx] at h
      obtain ⟨y, hy, hy'⟩ := ih h
      exact ⟨y, List.mem_cons_of_mem _ hy, hy'⟩

theorem checkPair_ok {n d : ℕ} {f : ElementFuns n d} {i j : Fin n} :
    checkPair f i j = .ok () ↔
      |f.shapefun (f.nodes i) j - if i = j then 1 else 0| ≤ if i = j then 1.001e-5 else 1e-8 := by
  unfold checkPair torchClose
  by_cases h : i = j
  · subst h
    simp only [true_and, ne_eq, not_true_eq_false, false_and, if_false, if_true]
    norm_num
    rw [← not_lt]
    simp
  · simp only [h, false_and, if_false, ne_eq, not_false_eq_true, true_and, sub_zero, abs_zero,
      mul_zero, add_zero]
    norm_num
    rw [← not_lt]
    simp

theorem checkPair_error {n d : ℕ} {f : ElementFuns n d} {i j : Fin n} {e : PyErr}
    (h : checkPair f i j = .error e) : e = .runtimeError := by
  unfold checkPair at h
  simp only at h
  split_ifs at h <;> cases h <;> rfl

/-- **C154.** The self-check of an element passes exactly when every shape function is one at its
node (up to `1.001e-5`) and zero at the other nodes (up to `1e-8`), the shape functions sum to one
at the first random point and the derivatives, summed over nodes and directions, sum to zero at the
second; otherwise it raises a RuntimeError. -/
theorem C154_check_iff {n d : ℕ} (f : ElementFuns n d) (c1 c2 : Fin d → ℝ) :
    (checkShape f c1 c2 = .ok () ↔
      (∀ i j, |f.shapefun (f.nodes i) j - if i = j then 1 else 0| ≤
        if i = j then 1.001e-5 else 1e-8) ∧
      |∑ j, f.shapefun c1 j - 1| ≤ 1.001e-5 ∧ |∑ j, ∑ k, f.localDeriv c2 j k| ≤ 1e-5) ∧
    (checkShape f c1 c2 ≠ .ok () → checkShape f c1 c2 = .error .runtimeError) := by
  have hl : loopOver (fun i => loopOver (checkPair f i) (List.finRange n)) (List.finRange n) =
      .ok () ↔ ∀ i j, |f.shapefun (f.nodes i) j - if i = j then 1 else 0| ≤
        if i = j then 1.001e-5 else 1e-8 := by
    simp only [loopOver_ok, List.mem_finRange, true_implies, checkPair_ok]
  have h1 : torchClose (∑ j, f.shapefun c1 j) 1 1e-8 ↔ |∑ j, f.shapefun c1 j - 1| ≤ 1.001e-5 := by
    unfold torchClose; norm_num
  have h2 : torchClose (∑ j, ∑ k, f.localDeriv c2 j k) 0 1e-5 ↔
      |∑ j, ∑ k, f.localDeriv c2 j k| ≤ 1e-5 := by
    unfold torchClose; simp
  rw [← hl, ← h1, ← h2]
  unfold checkShape raiseIf
  cases hloop : loopOver (fun i => loopOver (checkPair f i) (List.finRange n)) (List.finRange n) with
  | error e =>
    obtain ⟨i, -, hi⟩ := loopOver_error hloop
    obtain ⟨j, -, hj⟩ := loopOver_error hi
    rw [checkPair_error hj]
    simp [bind, Except.bind]
  | ok u =>
    by_cases a1 : torchClose (∑ j, f.shapefun c1 j) 1 1e-8 <;>
      by_cases a2 : torchClose (∑ j, ∑ k, f.localDeriv c2 j k) 0 1e-5 <;>
      simp [bind, Except.bind, a1, a2]

/-- **C154.** The self-check passes for each of the eight elements, whatever the random points. -/
theorem C154_elements_pass (e : ElementType) (c1 c2 : Fin e.dim → ℝ) :
    checkShape e.funs c1 c2 = .ok () := by
  refine (C154_check_iff e.funs c1 c2).1.mpr ⟨fun i j => ?_, ?_, ?_⟩
  · have h : e.funs.shapefun (e.funs.nodes i) j = if i = j then 1 else 0 := by
      refine (C11_kronecker e j i).trans ?_
      by_cases h : i = j
      · simp [h]
      · rw [if_neg h, if_neg (Ne.symm h)]
    rw [h, sub_self, abs_zero]
    split <;> norm_num
  · have h : ∑ j, e.funs.shapefun c1 j = 1 := C12_partition_of_unity e c1
    rw [h, sub_self, abs_zero]
    norm_num
  · have h : ∑ j, ∑ k, e.funs.localDeriv c2 j k = 0 := by
      rw [Finset.sum_comm]
      exact Finset.sum_eq_zero fun k _ => C13_sum_zero e c2 k
    rw [h, abs_zero]
    norm_num

/-- **C154.** An element whose shape functions are not one at their own node, not zero at another
node, or do not sum to one on the unit cube by more than the tolerance, fails the check, the last
one for the random points where they do not. -/
theorem C154_detects {n d : ℕ} (f : ElementFuns n d) (c1 c2 : Fin d → ℝ)
    (h : (∃ i, 1.001e-5 < |f.shapefun (f.nodes i) i - 1|) ∨
      (∃ i j, i ≠ j ∧ 1e-8 < |f.shapefun (f.nodes i) j|) ∨
      1.001e-5 < |∑ j, f.shapefun c1 j - 1|) :
    checkShape f c1 c2 = .error .runtimeError := by
  refine (C154_check_iff f c1 c2).2 fun hc => ?_
  obtain ⟨h1, h2, -⟩ := (C154_check_iff f c1 c2).1.mp hc
  rcases h with ⟨i, hi⟩ | ⟨i, j, hij, hi⟩ | h
  · have := h1 i i
    simp only [if_true] at this
    linarith
  · have := h1 i j
    simp only [hij, if_false, sub_zero] at this
    linarith
  · linarith

/-- A triangle with a wrong derivative: at the first node the derivatives are increased by one in
the first direction and decreased by one in the second. -/
def wrongTri3 : ElementFuns 3 2 :=
  ⟨tri3Nodes, tri3Shapefun, fun c j k => tri3LocalDeriv c j k + if j = 0 then (if k = 0 then 1 else -1) else 0⟩

/-- **C154 is violated for the derivatives.** The check sums the derivatives over the nodes and over
the directions: an element whose derivatives do not sum to zero over the nodes in any direction, and
are not the derivatives of its shape functions, passes at all random points. -/
theorem C154_derivatives_violated (c1 c2 : Fin 2 → ℝ) : checkShape wrongTri3 c1 c2 = .ok () ∧
    ∀ c, ∑ j, wrongTri3.localDeriv c j 0 = 1 ∧ ∑ j, wrongTri3.localDeriv c j 1 = -1 := by
  have hs : ∀ (c : Fin 2 → ℝ) (k : Fin 2), ∑ j : Fin 3, tri3LocalDeriv c j k = 0 :=
    fun c k => C13_sum_zero .tri3 c k
  have h1 : ∀ c, ∑ j, wrongTri3.localDeriv c j 0 = 1 := fun c => by
    have := hs c 0
    simp only [wrongTri3, Finset.sum_add_distrib, this]
    simp
  have h2 : ∀ c, ∑ j, wrongTri3.localDeriv c j 1 = -1 := fun c => by
    have := hs c 1
    simp only [wrongTri3, Finset.sum_add_distrib, this]
    simp
  refine ⟨?_, fun c => ⟨h1 c, h2 c⟩⟩
  obtain ⟨a, b, -⟩ := (C154_check_iff _ c1 c2).1.mp (C154_elements_pass .tri3 c1 c2)
  refine (C154_check_iff wrongTri3 c1 c2).1.mpr ⟨a, b, ?_⟩
  have h : ∑ j, ∑ k, wrongTri3.localDeriv c2 j k = 0 := by
    rw [Finset.sum_comm, Fin.sum_univ_two, h1, h2]
    norm_num
  rw [h, abs_zero]
  norm_num

/-- An element that fails: a triangle with twice the shape functions. -/
example : checkShape (⟨tri3Nodes, fun c j => 2 * tri3Shapefun c j, tri3LocalDeriv⟩ : ElementFuns 3 2)
    0 0 = .error .runtimeError := by
  refine C154_detects _ _ _ (Or.inl ⟨0, ?_⟩)
  have : tri3Shapefun (tri3Nodes 0) 0 = 1 := (C11_kronecker .tri3 (0 : Fin 3) (0 : Fin 3)).trans (if_pos rfl)
  simp only [this]
  norm_num

end Hooke
