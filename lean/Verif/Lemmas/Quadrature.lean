import Verif.Spec.Quadrature
import Verif.Lemmas.Tactics
import Mathlib.Topology.Algebra.MvPolynomial

/-!
# Quadrature sums and reference integrals of monomials
-/

noncomputable section

namespace Hooke

open Spec intervalIntegral MeasureTheory

theorem list_sum_mul_finset {ι α : Type*} (l : List α) (s : Finset ι) (w : α → ℝ) (c : ι → ℝ)
    (g : ι → α → ℝ) :
    (l.map fun p => w p * ∑ m ∈ s, c m * g m p).sum
      = ∑ m ∈ s, c m * (l.map fun p => w p * g m p).sum := by
  induction l with
  | nil => simp
  | cons a l ih =>
    simp only [List.map_cons, List.sum_cons, ih, mul_add, Finset.sum_add_distrib]
    congr 1
    rw [Finset.mul_sum]
    refine Finset.sum_congr rfl fun m _ => by ring

theorem quad_eval {d : ℕ} (r : GaussRule d) (p : MvPolynomial (Fin d) ℝ) :
    quad r (fun x => MvPolynomial.eval x p)
      = ∑ m ∈ p.support, p.coeff m * quad r (fun x => ∏ i, x i ^ m i) := by
  simp only [quad, MvPolynomial.eval_eq']
  exact list_sum_mul_finset r p.support (fun p => p.2) (fun m => p.coeff m)
    (fun m p => ∏ i, p.1 i ^ m i)

theorem integral_sum_mul {ι : Type*} (s : Finset ι) (c : ι → ℝ) (g : ι → ℝ → ℝ)
    (hg : ∀ i ∈ s, Continuous (g i)) (a b : ℝ) :
    ∫ x in a..b, ∑ i ∈ s, c i * g i x = ∑ i ∈ s, c i * ∫ x in a..b, g i x := by
  rw [intervalIntegral.integral_finsetSum]
  · simp
  · intro i hi
    exact ((hg i hi).const_mul _).intervalIntegrable _ _

/-- Moments of `[-1, 1]`. -/
def mom (k : ℕ) : ℝ := ∫ x in (-1 : ℝ)..1, x ^ k

/-- Beta integral. -/
def bet (b k : ℕ) : ℝ := ∫ t in (0 : ℝ)..1, t ^ b * (1 - t) ^ k

theorem integral_beta (b k : ℕ) (u : ℝ) :
    ∫ t in (0 : ℝ)..u, t ^ b * (u - t) ^ k = bet b k * u ^ (b + k + 1) := by
  have h := intervalIntegral.smul_integral_comp_mul_left
    (f := fun t : ℝ => t ^ b * (u - t) ^ k) (a := 0) (b := 1) u
  simp only [mul_zero, mul_one] at h
  rw [← h, bet]
  have : ∀ x : ℝ, (u * x) ^ b * (u - u * x) ^ k = u ^ (b + k) * (x ^ b * (1 - x) ^ k) := by
    intro x
    rw [show u - u * x = u * (1 - x) by ring, mul_pow, mul_pow]; ring
  simp only [this, smul_eq_mul, intervalIntegral.integral_const_mul]
  ring

theorem bet_swap (b k : ℕ) : bet b k = ∫ t in (0 : ℝ)..1, (1 - t) ^ b * t ^ k := by
  have h := intervalIntegral.integral_comp_sub_left
    (f := fun t : ℝ => (1 - t) ^ b * t ^ k) (a := 0) (b := 1) 1
  simp only [sub_sub_cancel, sub_self, sub_zero] at h
  exact h

theorem bet_zero (k : ℕ) : bet 0 k = 1 / (k + 1) := by
  rw [bet_swap]; simp

theorem bet_one (k : ℕ) : bet 1 k = 1 / ((k + 1) * (k + 2)) := by
  rw [bet_swap]
  have : ∀ t : ℝ, (1 - t) ^ 1 * t ^ k = t ^ k - t ^ (k + 1) := by intro t; ring
  simp only [this]
  rw [intervalIntegral.integral_sub] <;> try exact (by fun_prop : Continuous _).intervalIntegrable _ _
  simp only [integral_pow]
  push_cast
  simp only [one_pow, ne_eq, Nat.add_eq_zero_iff, one_ne_zero, and_false, not_false_eq_true,
    zero_pow]
  field_simp
  ring

theorem bet_two (k : ℕ) : bet 2 k = 2 / ((k + 1) * (k + 2) * (k + 3)) := by
  rw [bet_swap]
  have : ∀ t : ℝ, (1 - t) ^ 2 * t ^ k = t ^ k - 2 * t ^ (k + 1) + t ^ (k + 2) := by intro t; ring
  simp only [this]
  rw [intervalIntegral.integral_add, intervalIntegral.integral_sub] <;>
    try exact (by fun_prop : Continuous _).intervalIntegrable _ _
  simp only [integral_pow, intervalIntegral.integral_const_mul]
  push_cast
  simp only [one_pow, ne_eq, Nat.add_eq_zero_iff, one_ne_zero, and_false, not_false_eq_true,
    zero_pow]
  field_simp
  ring

theorem intLine_eval (p : MvPolynomial (Fin 1) ℝ) :
    intLine (fun x => MvPolynomial.eval x p)
      = ∑ m ∈ p.support, p.coeff m * mom (m 0) := by
  simp only [intLine, MvPolynomial.eval_eq', Fin.prod_univ_one, Fin.isValue,
    Matrix.cons_val_fin_one]
  rw [integral_sum_mul p.support (fun m => p.coeff m) (fun (m : Fin 1 →₀ ℕ) x => x ^ m 0) (fun m _ => by fun_prop)]
  rfl

theorem intSquare_eval (p : MvPolynomial (Fin 2) ℝ) :
    intSquare (fun x => MvPolynomial.eval x p)
      = ∑ m ∈ p.support, p.coeff m * (mom (m 0) * mom (m 1)) := by
  simp only [intSquare, MvPolynomial.eval_eq', Fin.prod_univ_two, Fin.isValue,
    Matrix.cons_val_zero, Matrix.cons_val_one]
  have h1 : ∀ x : ℝ, ∫ y in (-1 : ℝ)..1, ∑ m ∈ p.support, p.coeff m * (x ^ m 0 * y ^ m 1)
      = ∑ m ∈ p.support, p.coeff m * (x ^ m 0 * mom (m 1)) := by
    intro x
    rw [integral_sum_mul p.support (fun m => p.coeff m) (fun (m : Fin 2 →₀ ℕ) y => x ^ m 0 * y ^ m 1) (fun m _ => by fun_prop)]
    simp only [intervalIntegral.integral_const_mul, mom]
  simp only [h1]
  rw [integral_sum_mul p.support (fun m => p.coeff m) (fun (m : Fin 2 →₀ ℕ) x => x ^ m 0 * mom (m 1)) (fun m _ => by fun_prop)]
  simp only [intervalIntegral.integral_mul_const]
  rfl

theorem intCube_eval (p : MvPolynomial (Fin 3) ℝ) :
    intCube (fun x => MvPolynomial.eval x p)
      = ∑ m ∈ p.support, p.coeff m * (mom (m 0) * mom (m 1) * mom (m 2)) := by
  simp only [intCube, MvPolynomial.eval_eq', Fin.prod_univ_three, Fin.isValue,
    Matrix.cons_val_zero, Matrix.cons_val_one, Matrix.cons_val]
  have h1 : ∀ x y : ℝ, ∫ z in (-1 : ℝ)..1, ∑ m ∈ p.support,
        p.coeff m * (x ^ m 0 * y ^ m 1 * z ^ m 2)
      = ∑ m ∈ p.support, p.coeff m * (x ^ m 0 * y ^ m 1 * mom (m 2)) := by
    intro x y
    rw [integral_sum_mul p.support (fun m => p.coeff m) (fun (m : Fin 3 →₀ ℕ) z => x ^ m 0 * y ^ m 1 * z ^ m 2) (fun m _ => by fun_prop)]
    simp only [intervalIntegral.integral_const_mul, mom]
  have h2 : ∀ x : ℝ, ∫ y in (-1 : ℝ)..1, ∑ m ∈ p.support,
        p.coeff m * (x ^ m 0 * y ^ m 1 * mom (m 2))
      = ∑ m ∈ p.support, p.coeff m * (x ^ m 0 * mom (m 1) * mom (m 2)) := by
    intro x
    rw [integral_sum_mul p.support (fun m => p.coeff m) (fun (m : Fin 3 →₀ ℕ) y => x ^ m 0 * y ^ m 1 * mom (m 2)) (fun m _ => by fun_prop)]
    simp only [intervalIntegral.integral_const_mul, intervalIntegral.integral_mul_const]
    rfl
  simp only [h1, h2]
  rw [integral_sum_mul p.support (fun m => p.coeff m) (fun (m : Fin 3 →₀ ℕ) x => x ^ m 0 * mom (m 1) * mom (m 2)) (fun m _ => by fun_prop)]
  simp only [intervalIntegral.integral_mul_const]
  rfl

theorem intTriangle_eval (p : MvPolynomial (Fin 2) ℝ) :
    intTriangle (fun x => MvPolynomial.eval x p)
      = ∑ m ∈ p.support, p.coeff m * (bet (m 0) (m 1 + 1) / (m 1 + 1)) := by
  simp only [intTriangle, MvPolynomial.eval_eq', Fin.prod_univ_two, Fin.isValue,
    Matrix.cons_val_zero, Matrix.cons_val_one]
  have h1 : ∀ x : ℝ, ∫ y in (0 : ℝ)..(1 - x), ∑ m ∈ p.support, p.coeff m * (x ^ m 0 * y ^ m 1)
      = ∑ m ∈ p.support, p.coeff m * (x ^ m 0 * (1 - x) ^ (m 1 + 1) / (m 1 + 1)) := by
    intro x
    rw [integral_sum_mul p.support (fun m => p.coeff m) (fun (m : Fin 2 →₀ ℕ) y => x ^ m 0 * y ^ m 1) (fun m _ => by fun_prop)]
    refine Finset.sum_congr rfl fun m _ => ?_
    simp only [intervalIntegral.integral_const_mul, integral_pow]
    simp [mul_div_assoc]
  simp only [h1]
  rw [integral_sum_mul p.support (fun m => p.coeff m) (fun (m : Fin 2 →₀ ℕ) x => x ^ m 0 * (1 - x) ^ (m 1 + 1) / ((m 1 : ℝ) + 1))
    (fun m _ => by fun_prop)]
  simp only [intervalIntegral.integral_div]
  rfl

theorem intTetra_eval (p : MvPolynomial (Fin 3) ℝ) :
    intTetra (fun x => MvPolynomial.eval x p)
      = ∑ m ∈ p.support, p.coeff m *
        (bet (m 0) (m 1 + m 2 + 2) * bet (m 1) (m 2 + 1) / (m 2 + 1)) := by
  simp only [intTetra, MvPolynomial.eval_eq', Fin.prod_univ_three, Fin.isValue,
    Matrix.cons_val_zero, Matrix.cons_val_one, Matrix.cons_val]
  have h1 : ∀ x y : ℝ, ∫ z in (0 : ℝ)..(1 - x - y), ∑ m ∈ p.support,
        p.coeff m * (x ^ m 0 * y ^ m 1 * z ^ m 2)
      = ∑ m ∈ p.support, p.coeff m *
          (x ^ m 0 * (y ^ m 1 * (1 - x - y) ^ (m 2 + 1)) / (m 2 + 1)) := by
    intro x y
    rw [integral_sum_mul p.support (fun m => p.coeff m) (fun (m : Fin 3 →₀ ℕ) z => x ^ m 0 * y ^ m 1 * z ^ m 2) (fun m _ => by fun_prop)]
    refine Finset.sum_congr rfl fun m _ => ?_
    simp only [intervalIntegral.integral_const_mul, integral_pow]
    simp [mul_div_assoc, mul_assoc]
  have h2 : ∀ x : ℝ, ∫ y in (0 : ℝ)..(1 - x), ∑ m ∈ p.support,
        p.coeff m * (x ^ m 0 * (y ^ m 1 * (1 - x - y) ^ (m 2 + 1)) / (m 2 + 1))
      = ∑ m ∈ p.support, p.coeff m *
        (x ^ m 0 * (1 - x) ^ (m 1 + m 2 + 2) * (bet (m 1) (m 2 + 1) / (m 2 + 1))) := by
    intro x
    rw [integral_sum_mul p.support (fun m => p.coeff m) (fun (m : Fin 3 →₀ ℕ) y => x ^ m 0 * (y ^ m 1 * (1 - x - y) ^ (m 2 + 1)) / ((m 2 : ℝ) + 1))
      (fun m _ => by fun_prop)]
    refine Finset.sum_congr rfl fun m _ => ?_
    simp only [intervalIntegral.integral_div, intervalIntegral.integral_const_mul, integral_beta]
    rw [show m 1 + (m 2 + 1) + 1 = m 1 + m 2 + 2 by ring]
    ring
  simp only [h1, h2]
  rw [integral_sum_mul p.support (fun m => p.coeff m) (fun (m : Fin 3 →₀ ℕ) x => x ^ m 0 * (1 - x) ^ (m 1 + m 2 + 2)
    * (bet (m 1) (m 2 + 1) / ((m 2 : ℝ) + 1))) (fun m _ => by fun_prop)]
  refine Finset.sum_congr rfl fun m _ => ?_
  simp only [intervalIntegral.integral_mul_const]
  rw [show ∫ x in (0 : ℝ)..1, x ^ m 0 * (1 - x) ^ (m 1 + m 2 + 2) = bet (m 0) (m 1 + m 2 + 2)
    from rfl]
  ring

/-- The one-dimensional rules as (point, weight) pairs. -/
def pts1 : ℕ → List (ℝ × ℝ)
  | 1 => [(0, 2)]
  | 2 => [(-1 / √3, 1), (1 / √3, 1)]
  | 3 => [(-√(3 / 5), 5 / 9), (0, 8 / 9), (√(3 / 5), 5 / 9)]
  | _ => []

theorem pts1_mom {n k : ℕ} (h1 : 1 ≤ n) (h3 : n ≤ 3) (hk : k + 1 ≤ 2 * n) :
    ((pts1 n).map fun p => p.2 * p.1 ^ k).sum = mom k := by
  have s3 : √3 ^ 2 = (3 : ℝ) := Real.sq_sqrt (by norm_num)
  have s3' : √3 ≠ (0 : ℝ) := by positivity
  have s5 : √(3 / 5) ^ 2 = (3 / 5 : ℝ) := Real.sq_sqrt (by norm_num)
  have s54 : √(3 / 5) ^ 4 = (9 / 25 : ℝ) := by
    rw [show √(3 / 5 : ℝ) ^ 4 = (√(3 / 5 : ℝ) ^ 2) ^ 2 by ring, s5]; norm_num
  simp only [mom, integral_pow]
  have hk5 : k ≤ 5 := by omega
  interval_cases n <;> interval_cases k <;> first | (exfalso; omega) | simp only [pts1, List.map_cons, List.map_nil,
    List.sum_cons, List.sum_nil]
  all_goals try (norm_num; done)
  all_goals try (field_simp; rw [s3]; norm_num; done)
  all_goals try (ring_nf; done)
  all_goals try (ring_nf; rw [s5]; norm_num; done)
  all_goals try (ring_nf; rw [s54]; norm_num; done)

theorem gauss1d_eq {n : ℕ} (h1 : 1 ≤ n) (h3 : n ≤ 3) :
    gaussQuadrature1d n = .ok ((pts1 n).map fun p => (![p.1], p.2)) := by
  interval_cases n <;> simp [gaussQuadrature1d, pts1]

/-- The grid rule in terms of the one-dimensional rule. -/
def gridRule (d n : ℕ) : GaussRule d :=
  (List.range (n ^ d)).map fun j =>
    (fun i => ((pts1 n).getD (j / n ^ (i : ℕ) % n) (0, 0)).1,
     ∏ i : Fin d, ((pts1 n).getD (j / n ^ (i : ℕ) % n) (0, 0)).2)

theorem uniformGrid_eq {d n : ℕ} (h1 : 1 ≤ n) (h3 : n ≤ 3) :
    uniformGridQuadrature d (n ^ d) n = .ok (gridRule d n) := by
  simp only [uniformGridQuadrature, gauss1d_eq h1 h3, bind, Except.bind, pure, Except.pure,
    gridRule]
  have hl : (pts1 n).length = n := by interval_cases n <;> rfl
  have hb : ∀ k, k % n < (pts1 n).length := fun k => by rw [hl]; exact Nat.mod_lt _ (by omega)
  have key : ∀ k, ((pts1 n).map fun p => ((![p.1] : Fin 1 → ℝ), p.2)).getD (k % n) (![0], 0)
      = (![((pts1 n).getD (k % n) (0, 0)).1], ((pts1 n).getD (k % n) (0, 0)).2) := by
    intro k
    simp [List.getD_eq_getElem?_getD, hb k]
  simp only [key]
  rfl

theorem grid2_quad {n : ℕ} (h1 : 1 ≤ n) (h3 : n ≤ 3) (a b : ℕ) :
    quad (gridRule 2 n) (fun x => x 0 ^ a * x 1 ^ b)
      = ((pts1 n).map fun p => p.2 * p.1 ^ a).sum * ((pts1 n).map fun p => p.2 * p.1 ^ b).sum := by
  interval_cases n <;>
    simp [quad, gridRule, pts1, List.range_succ, Fin.prod_univ_two] <;> ring

theorem grid3_quad {n : ℕ} (h1 : 1 ≤ n) (h3 : n ≤ 3) (a b c : ℕ) :
    quad (gridRule 3 n) (fun x => x 0 ^ a * x 1 ^ b * x 2 ^ c)
      = ((pts1 n).map fun p => p.2 * p.1 ^ a).sum * ((pts1 n).map fun p => p.2 * p.1 ^ b).sum
        * ((pts1 n).map fun p => p.2 * p.1 ^ c).sum := by
  interval_cases n <;>
    simp [quad, gridRule, pts1, List.range_succ, Fin.prod_univ_three] <;> ring

end Hooke
