import Verif.Model.Elements
import Verif.Lemmas.Tactics
import Mathlib.Analysis.Calculus.Deriv.Pow
import Mathlib.Analysis.Calculus.Deriv.Add
import Mathlib.Analysis.Calculus.Deriv.Mul

/-!
# Per-element facts: Kronecker delta, completeness, derivatives
-/

set_option linter.unusedSimpArgs false

namespace Hooke

/-- A function which is a quadratic polynomial (its second-order Taylor expansion
with the second difference as curvature is exact) has the linear coefficient as
derivative. -/
theorem hasDerivAt_of_quadratic {f : ℝ → ℝ} {x d : ℝ}
    (h : ∀ t, f t = f x + (t - x) * d
      + (t - x) ^ 2 * ((f (x + 1) + f (x - 1)) / 2 - f x)) : HasDerivAt f d x := by
  have hf : f = fun t => f x + (t - x) * d
      + (t - x) ^ 2 * ((f (x + 1) + f (x - 1)) / 2 - f x) := funext h
  rw [hf]
  have h1 : HasDerivAt (fun t : ℝ => t - x) 1 x := (hasDerivAt_id x).sub_const x
  have h2 := ((h1.mul_const d).const_add (f x)).add
    ((h1.pow 2).mul_const ((f (x + 1) + f (x - 1)) / 2 - f x))
  refine h2.congr_deriv ?_
  ring

theorem sum_vecCons {n : ℕ} (a : ℝ) (f : Fin n → ℝ) :
    ∑ i, Matrix.vecCons a f i = a + ∑ i, f i := by
  simp [Fin.sum_univ_succ]

theorem sum_vecCons_mul {n m : ℕ} (a : ℝ) (f : Fin n → ℝ) (x : Fin m → ℝ)
    (g : Fin n → Fin m → ℝ) (d : Fin m) :
    ∑ i, Matrix.vecCons a f i * Matrix.vecCons x g i d = a * x d + ∑ i, f i * g i d := by
  simp [Fin.sum_univ_succ]

theorem upd2_0 (c : Fin 2 → ℝ) (t : ℝ) : Function.update c 0 t = ![t, c 1] := by
  funext i; fin_cases i <;> rfl
theorem upd2_1 (c : Fin 2 → ℝ) (t : ℝ) : Function.update c 1 t = ![c 0, t] := by
  funext i; fin_cases i <;> rfl
theorem upd3_0 (c : Fin 3 → ℝ) (t : ℝ) : Function.update c 0 t = ![t, c 1, c 2] := by
  funext i; fin_cases i <;> rfl
theorem upd3_1 (c : Fin 3 → ℝ) (t : ℝ) : Function.update c 1 t = ![c 0, t, c 2] := by
  funext i; fin_cases i <;> rfl
theorem upd3_2 (c : Fin 3 → ℝ) (t : ℝ) : Function.update c 2 t = ![c 0, c 1, t] := by
  funext i; fin_cases i <;> rfl
theorem vec3_2 (a b c : ℝ) : ![a, b, c] 2 = c := rfl

theorem tri3_delta (i j) :
    tri3Shapefun (tri3Nodes j) i = if i = j then 1 else 0 := by
  fin_cases i <;> fin_cases j <;> norm_num [tri3Shapefun, tri3Nodes]

theorem tri3_part (c) : ∑ i, tri3Shapefun c i = 1 := by
  simp only [tri3Shapefun, sum_vecCons, Finset.univ_eq_empty, Finset.sum_empty]
  ring

theorem tri3_lin (c d) : ∑ i, tri3Shapefun c i * tri3Nodes i d = c d := by
  simp only [tri3Shapefun, tri3Nodes, sum_vecCons_mul, Finset.univ_eq_empty, Finset.sum_empty]
  revert d
  simp only [Fin.forall_fin_two, Matrix.cons_val_zero, Matrix.cons_val_one]
  refine ⟨?_, ?_⟩ <;> ring

theorem tri3_deriv0 (c) : ∀ i,
    HasDerivAt (fun t => tri3Shapefun (Function.update c 0 t) i)
      (tri3LocalDeriv c i 0) (c 0) := by
  suffices h : ∀ t, ∀ i, tri3Shapefun (Function.update c 0 t) i = tri3Shapefun c i
      + (t - c 0) * tri3LocalDeriv c i 0
      + (t - c 0) ^ 2 * ((tri3Shapefun (Function.update c 0 (c 0 + 1)) i
        + tri3Shapefun (Function.update c 0 (c 0 - 1)) i) / 2 - tri3Shapefun c i) by
    intro i
    refine hasDerivAt_of_quadratic fun t => ?_
    simpa using h t i
  intro t
  simp only [upd2_0, tri3Shapefun, tri3LocalDeriv, Fin.forall_fin_succ, Matrix.cons_val_zero, Matrix.cons_val_one,
    Matrix.cons_val_succ, IsEmpty.forall_iff, and_true]
  refine ⟨?_, ?_, ?_⟩ <;> ring

theorem tri3_deriv1 (c) : ∀ i,
    HasDerivAt (fun t => tri3Shapefun (Function.update c 1 t) i)
      (tri3LocalDeriv c i 1) (c 1) := by
  suffices h : ∀ t, ∀ i, tri3Shapefun (Function.update c 1 t) i = tri3Shapefun c i
      + (t - c 1) * tri3LocalDeriv c i 1
      + (t - c 1) ^ 2 * ((tri3Shapefun (Function.update c 1 (c 1 + 1)) i
        + tri3Shapefun (Function.update c 1 (c 1 - 1)) i) / 2 - tri3Shapefun c i) by
    intro i
    refine hasDerivAt_of_quadratic fun t => ?_
    simpa using h t i
  intro t
  simp only [upd2_1, tri3Shapefun, tri3LocalDeriv, Fin.forall_fin_succ, Matrix.cons_val_zero, Matrix.cons_val_one,
    Matrix.cons_val_succ, IsEmpty.forall_iff, and_true]
  refine ⟨?_, ?_, ?_⟩ <;> ring

theorem tri3_deriv (c i d) :
    HasDerivAt (fun t => tri3Shapefun (Function.update c d t) i)
      (tri3LocalDeriv c i d) (c d) := by
  fin_cases d
  · exact tri3_deriv0 c i
  · exact tri3_deriv1 c i

theorem tri6_delta (i j) :
    tri6Shapefun (tri6Nodes j) i = if i = j then 1 else 0 := by
  fin_cases i <;> fin_cases j <;> norm_num [tri6Shapefun, tri6Nodes]

theorem tri6_part (c) : ∑ i, tri6Shapefun c i = 1 := by
  simp only [tri6Shapefun, sum_vecCons, Finset.univ_eq_empty, Finset.sum_empty]
  ring

theorem tri6_lin (c d) : ∑ i, tri6Shapefun c i * tri6Nodes i d = c d := by
  simp only [tri6Shapefun, tri6Nodes, sum_vecCons_mul, Finset.univ_eq_empty, Finset.sum_empty]
  revert d
  simp only [Fin.forall_fin_two, Matrix.cons_val_zero, Matrix.cons_val_one]
  refine ⟨?_, ?_⟩ <;> ring

theorem tri6_deriv0 (c) : ∀ i,
    HasDerivAt (fun t => tri6Shapefun (Function.update c 0 t) i)
      (tri6LocalDeriv c i 0) (c 0) := by
  suffices h : ∀ t, ∀ i, tri6Shapefun (Function.update c 0 t) i = tri6Shapefun c i
      + (t - c 0) * tri6LocalDeriv c i 0
      + (t - c 0) ^ 2 * ((tri6Shapefun (Function.update c 0 (c 0 + 1)) i
        + tri6Shapefun (Function.update c 0 (c 0 - 1)) i) / 2 - tri6Shapefun c i) by
    intro i
    refine hasDerivAt_of_quadratic fun t => ?_
    simpa using h t i
  intro t
  simp only [upd2_0, tri6Shapefun, tri6LocalDeriv, Fin.forall_fin_succ, Matrix.cons_val_zero, Matrix.cons_val_one,
    Matrix.cons_val_succ, IsEmpty.forall_iff, and_true]
  refine ⟨?_, ?_, ?_, ?_, ?_, ?_⟩ <;> ring

theorem tri6_deriv1 (c) : ∀ i,
    HasDerivAt (fun t => tri6Shapefun (Function.update c 1 t) i)
      (tri6LocalDeriv c i 1) (c 1) := by
  suffices h : ∀ t, ∀ i, tri6Shapefun (Function.update c 1 t) i = tri6Shapefun c i
      + (t - c 1) * tri6LocalDeriv c i 1
      + (t - c 1) ^ 2 * ((tri6Shapefun (Function.update c 1 (c 1 + 1)) i
        + tri6Shapefun (Function.update c 1 (c 1 - 1)) i) / 2 - tri6Shapefun c i) by
    intro i
    refine hasDerivAt_of_quadratic fun t => ?_
    simpa using h t i
  intro t
  simp only [upd2_1, tri6Shapefun, tri6LocalDeriv, Fin.forall_fin_succ, Matrix.cons_val_zero, Matrix.cons_val_one,
    Matrix.cons_val_succ, IsEmpty.forall_iff, and_true]
  refine ⟨?_, ?_, ?_, ?_, ?_, ?_⟩ <;> ring

theorem tri6_deriv (c i d) :
    HasDerivAt (fun t => tri6Shapefun (Function.update c d t) i)
      (tri6LocalDeriv c i d) (c d) := by
  fin_cases d
  · exact tri6_deriv0 c i
  · exact tri6_deriv1 c i

theorem quad4_delta (i j) :
    quad4Shapefun (quad4Nodes j) i = if i = j then 1 else 0 := by
  fin_cases i <;> fin_cases j <;> norm_num [quad4Shapefun, quad4Nodes]

theorem quad4_part (c) : ∑ i, quad4Shapefun c i = 1 := by
  simp only [quad4Shapefun, sum_vecCons, Finset.univ_eq_empty, Finset.sum_empty]
  ring

theorem quad4_lin (c d) : ∑ i, quad4Shapefun c i * quad4Nodes i d = c d := by
  simp only [quad4Shapefun, quad4Nodes, sum_vecCons_mul, Finset.univ_eq_empty, Finset.sum_empty]
  revert d
  simp only [Fin.forall_fin_two, Matrix.cons_val_zero, Matrix.cons_val_one]
  refine ⟨?_, ?_⟩ <;> ring

theorem quad4_deriv0 (c) : ∀ i,
    HasDerivAt (fun t => quad4Shapefun (Function.update c 0 t) i)
      (quad4LocalDeriv c i 0) (c 0) := by
  suffices h : ∀ t, ∀ i, quad4Shapefun (Function.update c 0 t) i = quad4Shapefun c i
      + (t - c 0) * quad4LocalDeriv c i 0
      + (t - c 0) ^ 2 * ((quad4Shapefun (Function.update c 0 (c 0 + 1)) i
        + quad4Shapefun (Function.update c 0 (c 0 - 1)) i) / 2 - quad4Shapefun c i) by
    intro i
    refine hasDerivAt_of_quadratic fun t => ?_
    simpa using h t i
  intro t
  simp only [upd2_0, quad4Shapefun, quad4LocalDeriv, Fin.forall_fin_succ, Matrix.cons_val_zero, Matrix.cons_val_one,
    Matrix.cons_val_succ, IsEmpty.forall_iff, and_true]
  refine ⟨?_, ?_, ?_, ?_⟩ <;> ring

theorem quad4_deriv1 (c) : ∀ i,
    HasDerivAt (fun t => quad4Shapefun (Function.update c 1 t) i)
      (quad4LocalDeriv c i 1) (c 1) := by
  suffices h : ∀ t, ∀ i, quad4Shapefun (Function.update c 1 t) i = quad4Shapefun c i
      + (t - c 1) * quad4LocalDeriv c i 1
      + (t - c 1) ^ 2 * ((quad4Shapefun (Function.update c 1 (c 1 + 1)) i
        + quad4Shapefun (Function.update c 1 (c 1 - 1)) i) / 2 - quad4Shapefun c i) by
    intro i
    refine hasDerivAt_of_quadratic fun t => ?_
    simpa using h t i
  intro t
  simp only [upd2_1, quad4Shapefun, quad4LocalDeriv, Fin.forall_fin_succ, Matrix.cons_val_zero, Matrix.cons_val_one,
    Matrix.cons_val_succ, IsEmpty.forall_iff, and_true]
  refine ⟨?_, ?_, ?_, ?_⟩ <;> ring

theorem quad4_deriv (c i d) :
    HasDerivAt (fun t => quad4Shapefun (Function.update c d t) i)
      (quad4LocalDeriv c i d) (c d) := by
  fin_cases d
  · exact quad4_deriv0 c i
  · exact quad4_deriv1 c i

theorem quad8_delta (i j) :
    quad8Shapefun (quad8Nodes j) i = if i = j then 1 else 0 := by
  fin_cases i <;> fin_cases j <;> norm_num [quad8Shapefun, quad8Nodes]

theorem quad8_part (c) : ∑ i, quad8Shapefun c i = 1 := by
  simp only [quad8Shapefun, sum_vecCons, Finset.univ_eq_empty, Finset.sum_empty]
  ring

theorem quad8_lin (c d) : ∑ i, quad8Shapefun c i * quad8Nodes i d = c d := by
  simp only [quad8Shapefun, quad8Nodes, sum_vecCons_mul, Finset.univ_eq_empty, Finset.sum_empty]
  revert d
  simp only [Fin.forall_fin_two, Matrix.cons_val_zero, Matrix.cons_val_one]
  refine ⟨?_, ?_⟩ <;> ring

theorem quad8_deriv0 (c) : ∀ i,
    HasDerivAt (fun t => quad8Shapefun (Function.update c 0 t) i)
      (quad8LocalDeriv c i 0) (c 0) := by
  suffices h : ∀ t, ∀ i, quad8Shapefun (Function.update c 0 t) i = quad8Shapefun c i
      + (t - c 0) * quad8LocalDeriv c i 0
      + (t - c 0) ^ 2 * ((quad8Shapefun (Function.update c 0 (c 0 + 1)) i
        + quad8Shapefun (Function.update c 0 (c 0 - 1)) i) / 2 - quad8Shapefun c i) by
    intro i
    refine hasDerivAt_of_quadratic fun t => ?_
    simpa using h t i
  intro t
  simp only [upd2_0, quad8Shapefun, quad8LocalDeriv, Fin.forall_fin_succ, Matrix.cons_val_zero, Matrix.cons_val_one,
    Matrix.cons_val_succ, IsEmpty.forall_iff, and_true]
  refine ⟨?_, ?_, ?_, ?_, ?_, ?_, ?_, ?_⟩ <;> ring

theorem quad8_deriv1 (c) : ∀ i,
    HasDerivAt (fun t => quad8Shapefun (Function.update c 1 t) i)
      (quad8LocalDeriv c i 1) (c 1) := by
  suffices h : ∀ t, ∀ i, quad8Shapefun (Function.update c 1 t) i = quad8Shapefun c i
      + (t - c 1) * quad8LocalDeriv c i 1
      + (t - c 1) ^ 2 * ((quad8Shapefun (Function.update c 1 (c 1 + 1)) i
        + quad8Shapefun (Function.update c 1 (c 1 - 1)) i) / 2 - quad8Shapefun c i) by
    intro i
    refine hasDerivAt_of_quadratic fun t => ?_
    simpa using h t i
  intro t
  simp only [upd2_1, quad8Shapefun, quad8LocalDeriv, Fin.forall_fin_succ, Matrix.cons_val_zero, Matrix.cons_val_one,
    Matrix.cons_val_succ, IsEmpty.forall_iff, and_true]
  refine ⟨?_, ?_, ?_, ?_, ?_, ?_, ?_, ?_⟩ <;> ring

theorem quad8_deriv (c i d) :
    HasDerivAt (fun t => quad8Shapefun (Function.update c d t) i)
      (quad8LocalDeriv c i d) (c d) := by
  fin_cases d
  · exact quad8_deriv0 c i
  · exact quad8_deriv1 c i

theorem tetra4_delta (i j) :
    tetra4Shapefun (tetra4Nodes j) i = if i = j then 1 else 0 := by
  fin_cases i <;> fin_cases j <;> norm_num [tetra4Shapefun, tetra4Nodes, vec3_2]

theorem tetra4_part (c) : ∑ i, tetra4Shapefun c i = 1 := by
  simp only [tetra4Shapefun, sum_vecCons, Finset.univ_eq_empty, Finset.sum_empty]
  ring

theorem tetra4_lin (c d) : ∑ i, tetra4Shapefun c i * tetra4Nodes i d = c d := by
  simp only [tetra4Shapefun, tetra4Nodes, sum_vecCons_mul, Finset.univ_eq_empty, Finset.sum_empty]
  revert d
  simp only [Fin.forall_fin_succ, Matrix.cons_val_zero, Matrix.cons_val_one, vec3_2, Matrix.cons_val_succ, IsEmpty.forall_iff, and_true, Fin.succ_zero_eq_one, Fin.succ_one_eq_two]
  refine ⟨?_, ?_, ?_⟩ <;> ring

theorem tetra4_deriv0 (c) : ∀ i,
    HasDerivAt (fun t => tetra4Shapefun (Function.update c 0 t) i)
      (tetra4LocalDeriv c i 0) (c 0) := by
  suffices h : ∀ t, ∀ i, tetra4Shapefun (Function.update c 0 t) i = tetra4Shapefun c i
      + (t - c 0) * tetra4LocalDeriv c i 0
      + (t - c 0) ^ 2 * ((tetra4Shapefun (Function.update c 0 (c 0 + 1)) i
        + tetra4Shapefun (Function.update c 0 (c 0 - 1)) i) / 2 - tetra4Shapefun c i) by
    intro i
    refine hasDerivAt_of_quadratic fun t => ?_
    simpa using h t i
  intro t
  simp only [upd3_0, tetra4Shapefun, tetra4LocalDeriv, Fin.forall_fin_succ, Matrix.cons_val_zero, Matrix.cons_val_one, vec3_2,
    Matrix.cons_val_succ, IsEmpty.forall_iff, and_true]
  refine ⟨?_, ?_, ?_, ?_⟩ <;> ring

theorem tetra4_deriv1 (c) : ∀ i,
    HasDerivAt (fun t => tetra4Shapefun (Function.update c 1 t) i)
      (tetra4LocalDeriv c i 1) (c 1) := by
  suffices h : ∀ t, ∀ i, tetra4Shapefun (Function.update c 1 t) i = tetra4Shapefun c i
      + (t - c 1) * tetra4LocalDeriv c i 1
      + (t - c 1) ^ 2 * ((tetra4Shapefun (Function.update c 1 (c 1 + 1)) i
        + tetra4Shapefun (Function.update c 1 (c 1 - 1)) i) / 2 - tetra4Shapefun c i) by
    intro i
    refine hasDerivAt_of_quadratic fun t => ?_
    simpa using h t i
  intro t
  simp only [upd3_1, tetra4Shapefun, tetra4LocalDeriv, Fin.forall_fin_succ, Matrix.cons_val_zero, Matrix.cons_val_one, vec3_2,
    Matrix.cons_val_succ, IsEmpty.forall_iff, and_true]
  refine ⟨?_, ?_, ?_, ?_⟩ <;> ring

theorem tetra4_deriv2 (c) : ∀ i,
    HasDerivAt (fun t => tetra4Shapefun (Function.update c 2 t) i)
      (tetra4LocalDeriv c i 2) (c 2) := by
  suffices h : ∀ t, ∀ i, tetra4Shapefun (Function.update c 2 t) i = tetra4Shapefun c i
      + (t - c 2) * tetra4LocalDeriv c i 2
      + (t - c 2) ^ 2 * ((tetra4Shapefun (Function.update c 2 (c 2 + 1)) i
        + tetra4Shapefun (Function.update c 2 (c 2 - 1)) i) / 2 - tetra4Shapefun c i) by
    intro i
    refine hasDerivAt_of_quadratic fun t => ?_
    simpa using h t i
  intro t
  simp only [upd3_2, tetra4Shapefun, tetra4LocalDeriv, Fin.forall_fin_succ, Matrix.cons_val_zero, Matrix.cons_val_one, vec3_2,
    Matrix.cons_val_succ, IsEmpty.forall_iff, and_true]
  refine ⟨?_, ?_, ?_, ?_⟩ <;> ring

theorem tetra4_deriv (c i d) :
    HasDerivAt (fun t => tetra4Shapefun (Function.update c d t) i)
      (tetra4LocalDeriv c i d) (c d) := by
  fin_cases d
  · exact tetra4_deriv0 c i
  · exact tetra4_deriv1 c i
  · exact tetra4_deriv2 c i

theorem tetra10_delta (i j) :
    tetra10Shapefun (tetra10Nodes j) i = if i = j then 1 else 0 := by
  fin_cases i <;> fin_cases j <;> norm_num [tetra10Shapefun, tetra10Nodes, vec3_2]

theorem tetra10_part (c) : ∑ i, tetra10Shapefun c i = 1 := by
  simp only [tetra10Shapefun, sum_vecCons, Finset.univ_eq_empty, Finset.sum_empty]
  ring

theorem tetra10_lin (c d) : ∑ i, tetra10Shapefun c i * tetra10Nodes i d = c d := by
  simp only [tetra10Shapefun, tetra10Nodes, sum_vecCons_mul, Finset.univ_eq_empty, Finset.sum_empty]
  revert d
  simp only [Fin.forall_fin_succ, Matrix.cons_val_zero, Matrix.cons_val_one, vec3_2, Matrix.cons_val_succ, IsEmpty.forall_iff, and_true, Fin.succ_zero_eq_one, Fin.succ_one_eq_two]
  refine ⟨?_, ?_, ?_⟩ <;> ring

theorem tetra10_deriv0 (c) : ∀ i,
    HasDerivAt (fun t => tetra10Shapefun (Function.update c 0 t) i)
      (tetra10LocalDeriv c i 0) (c 0) := by
  suffices h : ∀ t, ∀ i, tetra10Shapefun (Function.update c 0 t) i = tetra10Shapefun c i
      + (t - c 0) * tetra10LocalDeriv c i 0
      + (t - c 0) ^ 2 * ((tetra10Shapefun (Function.update c 0 (c 0 + 1)) i
        + tetra10Shapefun (Function.update c 0 (c 0 - 1)) i) / 2 - tetra10Shapefun c i) by
    intro i
    refine hasDerivAt_of_quadratic fun t => ?_
    simpa using h t i
  intro t
  simp only [upd3_0, tetra10Shapefun, tetra10LocalDeriv, Fin.forall_fin_succ, Matrix.cons_val_zero, Matrix.cons_val_one, vec3_2,
    Matrix.cons_val_succ, IsEmpty.forall_iff, and_true]
  refine ⟨?_, ?_, ?_, ?_, ?_, ?_, ?_, ?_, ?_, ?_⟩ <;> ring

theorem tetra10_deriv1 (c) : ∀ i,
    HasDerivAt (fun t => tetra10Shapefun (Function.update c 1 t) i)
      (tetra10LocalDeriv c i 1) (c 1) := by
  suffices h : ∀ t, ∀ i, tetra10Shapefun (Function.update c 1 t) i = tetra10Shapefun c i
      + (t - c 1) * tetra10LocalDeriv c i 1
      + (t - c 1) ^ 2 * ((tetra10Shapefun (Function.update c 1 (c 1 + 1)) i
        + tetra10Shapefun (Function.update c 1 (c 1 - 1)) i) / 2 - tetra10Shapefun c i) by
    intro i
    refine hasDerivAt_of_quadratic fun t => ?_
    simpa using h t i
  intro t
  simp only [upd3_1, tetra10Shapefun, tetra10LocalDeriv, Fin.forall_fin_succ, Matrix.cons_val_zero, Matrix.cons_val_one, vec3_2,
    Matrix.cons_val_succ, IsEmpty.forall_iff, and_true]
  refine ⟨?_, ?_, ?_, ?_, ?_, ?_, ?_, ?_, ?_, ?_⟩ <;> ring

theorem tetra10_deriv2 (c) : ∀ i,
    HasDerivAt (fun t => tetra10Shapefun (Function.update c 2 t) i)
      (tetra10LocalDeriv c i 2) (c 2) := by
  suffices h : ∀ t, ∀ i, tetra10Shapefun (Function.update c 2 t) i = tetra10Shapefun c i
      + (t - c 2) * tetra10LocalDeriv c i 2
      + (t - c 2) ^ 2 * ((tetra10Shapefun (Function.update c 2 (c 2 + 1)) i
        + tetra10Shapefun (Function.update c 2 (c 2 - 1)) i) / 2 - tetra10Shapefun c i) by
    intro i
    refine hasDerivAt_of_quadratic fun t => ?_
    simpa using h t i
  intro t
  simp only [upd3_2, tetra10Shapefun, tetra10LocalDeriv, Fin.forall_fin_succ, Matrix.cons_val_zero, Matrix.cons_val_one, vec3_2,
    Matrix.cons_val_succ, IsEmpty.forall_iff, and_true]
  refine ⟨?_, ?_, ?_, ?_, ?_, ?_, ?_, ?_, ?_, ?_⟩ <;> ring

theorem tetra10_deriv (c i d) :
    HasDerivAt (fun t => tetra10Shapefun (Function.update c d t) i)
      (tetra10LocalDeriv c i d) (c d) := by
  fin_cases d
  · exact tetra10_deriv0 c i
  · exact tetra10_deriv1 c i
  · exact tetra10_deriv2 c i

theorem hexa8_delta (i j) :
    hexa8Shapefun (hexa8Nodes j) i = if i = j then 1 else 0 := by
  fin_cases i <;> fin_cases j <;> norm_num [hexa8Shapefun, hexa8Nodes, vec3_2]

theorem hexa8_part (c) : ∑ i, hexa8Shapefun c i = 1 := by
  simp only [hexa8Shapefun, sum_vecCons, Finset.univ_eq_empty, Finset.sum_empty]
  ring

theorem hexa8_lin (c d) : ∑ i, hexa8Shapefun c i * hexa8Nodes i d = c d := by
  simp only [hexa8Shapefun, hexa8Nodes, sum_vecCons_mul, Finset.univ_eq_empty, Finset.sum_empty]
  revert d
  simp only [Fin.forall_fin_succ, Matrix.cons_val_zero, Matrix.cons_val_one, vec3_2, Matrix.cons_val_succ, IsEmpty.forall_iff, and_true, Fin.succ_zero_eq_one, Fin.succ_one_eq_two]
  refine ⟨?_, ?_, ?_⟩ <;> ring

theorem hexa8_deriv0 (c) : ∀ i,
    HasDerivAt (fun t => hexa8Shapefun (Function.update c 0 t) i)
      (hexa8LocalDeriv c i 0) (c 0) := by
  suffices h : ∀ t, ∀ i, hexa8Shapefun (Function.update c 0 t) i = hexa8Shapefun c i
      + (t - c 0) * hexa8LocalDeriv c i 0
      + (t - c 0) ^ 2 * ((hexa8Shapefun (Function.update c 0 (c 0 + 1)) i
        + hexa8Shapefun (Function.update c 0 (c 0 - 1)) i) / 2 - hexa8Shapefun c i) by
    intro i
    refine hasDerivAt_of_quadratic fun t => ?_
    simpa using h t i
  intro t
  simp only [upd3_0, hexa8Shapefun, hexa8LocalDeriv, Fin.forall_fin_succ, Matrix.cons_val_zero, Matrix.cons_val_one, vec3_2,
    Matrix.cons_val_succ, IsEmpty.forall_iff, and_true]
  refine ⟨?_, ?_, ?_, ?_, ?_, ?_, ?_, ?_⟩ <;> ring

theorem hexa8_deriv1 (c) : ∀ i,
    HasDerivAt (fun t => hexa8Shapefun (Function.update c 1 t) i)
      (hexa8LocalDeriv c i 1) (c 1) := by
  suffices h : ∀ t, ∀ i, hexa8Shapefun (Function.update c 1 t) i = hexa8Shapefun c i
      + (t - c 1) * hexa8LocalDeriv c i 1
      + (t - c 1) ^ 2 * ((hexa8Shapefun (Function.update c 1 (c 1 + 1)) i
        + hexa8Shapefun (Function.update c 1 (c 1 - 1)) i) / 2 - hexa8Shapefun c i) by
    intro i
    refine hasDerivAt_of_quadratic fun t => ?_
    simpa using h t i
  intro t
  simp only [upd3_1, hexa8Shapefun, hexa8LocalDeriv, Fin.forall_fin_succ, Matrix.cons_val_zero, Matrix.cons_val_one, vec3_2,
    Matrix.cons_val_succ, IsEmpty.forall_iff, and_true]
  refine ⟨?_, ?_, ?_, ?_, ?_, ?_, ?_, ?_⟩ <;> ring

theorem hexa8_deriv2 (c) : ∀ i,
    HasDerivAt (fun t => hexa8Shapefun (Function.update c 2 t) i)
      (hexa8LocalDeriv c i 2) (c 2) := by
  suffices h : ∀ t, ∀ i, hexa8Shapefun (Function.update c 2 t) i = hexa8Shapefun c i
      + (t - c 2) * hexa8LocalDeriv c i 2
      + (t - c 2) ^ 2 * ((hexa8Shapefun (Function.update c 2 (c 2 + 1)) i
        + hexa8Shapefun (Function.update c 2 (c 2 - 1)) i) / 2 - hexa8Shapefun c i) by
    intro i
    refine hasDerivAt_of_quadratic fun t => ?_
    simpa using h t i
  intro t
  simp only [upd3_2, hexa8Shapefun, hexa8LocalDeriv, Fin.forall_fin_succ, Matrix.cons_val_zero, Matrix.cons_val_one, vec3_2,
    Matrix.cons_val_succ, IsEmpty.forall_iff, and_true]
  refine ⟨?_, ?_, ?_, ?_, ?_, ?_, ?_, ?_⟩ <;> ring

theorem hexa8_deriv (c i d) :
    HasDerivAt (fun t => hexa8Shapefun (Function.update c d t) i)
      (hexa8LocalDeriv c i d) (c d) := by
  fin_cases d
  · exact hexa8_deriv0 c i
  · exact hexa8_deriv1 c i
  · exact hexa8_deriv2 c i

set_option maxHeartbeats 2000000 in
theorem hexa20_delta (i j) :
    hexa20Shapefun (hexa20Nodes j) i = if i = j then 1 else 0 := by
  fin_cases i <;> fin_cases j <;> norm_num [hexa20Shapefun, hexa20Nodes, vec3_2]

theorem hexa20_part (c) : ∑ i, hexa20Shapefun c i = 1 := by
  simp only [hexa20Shapefun, sum_vecCons, Finset.univ_eq_empty, Finset.sum_empty]
  ring

theorem hexa20_lin (c d) : ∑ i, hexa20Shapefun c i * hexa20Nodes i d = c d := by
  simp only [hexa20Shapefun, hexa20Nodes, sum_vecCons_mul, Finset.univ_eq_empty, Finset.sum_empty]
  revert d
  simp only [Fin.forall_fin_succ, Matrix.cons_val_zero, Matrix.cons_val_one, vec3_2, Matrix.cons_val_succ, IsEmpty.forall_iff, and_true, Fin.succ_zero_eq_one, Fin.succ_one_eq_two]
  refine ⟨?_, ?_, ?_⟩ <;> ring

theorem hexa20_deriv0 (c) : ∀ i,
    HasDerivAt (fun t => hexa20Shapefun (Function.update c 0 t) i)
      (hexa20LocalDeriv c i 0) (c 0) := by
  suffices h : ∀ t, ∀ i, hexa20Shapefun (Function.update c 0 t) i = hexa20Shapefun c i
      + (t - c 0) * hexa20LocalDeriv c i 0
      + (t - c 0) ^ 2 * ((hexa20Shapefun (Function.update c 0 (c 0 + 1)) i
        + hexa20Shapefun (Function.update c 0 (c 0 - 1)) i) / 2 - hexa20Shapefun c i) by
    intro i
    refine hasDerivAt_of_quadratic fun t => ?_
    simpa using h t i
  intro t
  simp only [upd3_0, hexa20Shapefun, hexa20LocalDeriv, Fin.forall_fin_succ, Matrix.cons_val_zero, Matrix.cons_val_one, vec3_2,
    Matrix.cons_val_succ, IsEmpty.forall_iff, and_true]
  refine ⟨?_, ?_, ?_, ?_, ?_, ?_, ?_, ?_, ?_, ?_, ?_, ?_, ?_, ?_, ?_, ?_, ?_, ?_, ?_, ?_⟩ <;> ring

theorem hexa20_deriv1 (c) : ∀ i,
    HasDerivAt (fun t => hexa20Shapefun (Function.update c 1 t) i)
      (hexa20LocalDeriv c i 1) (c 1) := by
  suffices h : ∀ t, ∀ i, hexa20Shapefun (Function.update c 1 t) i = hexa20Shapefun c i
      + (t - c 1) * hexa20LocalDeriv c i 1
      + (t - c 1) ^ 2 * ((hexa20Shapefun (Function.update c 1 (c 1 + 1)) i
        + hexa20Shapefun (Function.update c 1 (c 1 - 1)) i) / 2 - hexa20Shapefun c i) by
    intro i
    refine hasDerivAt_of_quadratic fun t => ?_
    simpa using h t i
  intro t
  simp only [upd3_1, hexa20Shapefun, hexa20LocalDeriv, Fin.forall_fin_succ, Matrix.cons_val_zero, Matrix.cons_val_one, vec3_2,
    Matrix.cons_val_succ, IsEmpty.forall_iff, and_true]
  refine ⟨?_, ?_, ?_, ?_, ?_, ?_, ?_, ?_, ?_, ?_, ?_, ?_, ?_, ?_, ?_, ?_, ?_, ?_, ?_, ?_⟩ <;> ring

theorem hexa20_deriv2 (c) : ∀ i,
    HasDerivAt (fun t => hexa20Shapefun (Function.update c 2 t) i)
      (hexa20LocalDeriv c i 2) (c 2) := by
  suffices h : ∀ t, ∀ i, hexa20Shapefun (Function.update c 2 t) i = hexa20Shapefun c i
      + (t - c 2) * hexa20LocalDeriv c i 2
      + (t - c 2) ^ 2 * ((hexa20Shapefun (Function.update c 2 (c 2 + 1)) i
        + hexa20Shapefun (Function.update c 2 (c 2 - 1)) i) / 2 - hexa20Shapefun c i) by
    intro i
    refine hasDerivAt_of_quadratic fun t => ?_
    simpa using h t i
  intro t
  simp only [upd3_2, hexa20Shapefun, hexa20LocalDeriv, Fin.forall_fin_succ, Matrix.cons_val_zero, Matrix.cons_val_one, vec3_2,
    Matrix.cons_val_succ, IsEmpty.forall_iff, and_true]
  refine ⟨?_, ?_, ?_, ?_, ?_, ?_, ?_, ?_, ?_, ?_, ?_, ?_, ?_, ?_, ?_, ?_, ?_, ?_, ?_, ?_⟩ <;> ring

theorem hexa20_deriv (c i d) :
    HasDerivAt (fun t => hexa20Shapefun (Function.update c d t) i)
      (hexa20LocalDeriv c i d) (c d) := by
  fin_cases d
  · exact hexa20_deriv0 c i
  · exact hexa20_deriv1 c i
  · exact hexa20_deriv2 c i

end Hooke
