import Verif.Model.Lou
import Verif.Spec.Lou
import Verif.Lemmas.Kelvin6
import Mathlib.Analysis.Matrix.Spectrum

/-! # C88: effective stress of the Lou-Zhang-Yoon model -/

noncomputable section

namespace Hooke

open Spec

/-- The invariants in the code are the trace and the invariants of the deviator. -/
theorem C88_invariants {t : T2 3} (h : IsSym t) :
    (louInvariants t).i1 = trace t ∧ (louInvariants t).j2 = devJ2 t ∧
      (louInvariants t).j3 = devJ3 t := by
  have h1 : t 1 0 = t 0 1 := h 1 0
  have h2 : t 2 0 = t 0 2 := h 2 0
  have h3 : t 2 1 = t 1 2 := h 2 1
  refine ⟨rfl, ?_, ?_⟩
  · simp only [louInvariants, devJ2, deviator, trace, Fin.sum_univ_three, Fin.isValue]
    simp only [h1, h2, h3]
    simp
    ring
  · simp only [louInvariants, devJ3, deviator, trace, Fin.sum_univ_three, Fin.isValue,
      Matrix.det_fin_three, Matrix.of_apply]
    simp only [h1, h2, h3]
    simp
    ring

theorem fpow_of_pos {x e : ℝ} (h : 0 ≤ x) (he : 0 ≤ e) : fpow x e = some (x ^ e) := by
  unfold fpow
  rw [if_neg]
  rintro (h1 | ⟨-, h1⟩) <;> linarith

/-- C88a: for every symmetric stress the computed effective stress is the formula of Lou, Zhang
and Yoon if its roots are real, and NaN otherwise. -/
theorem C88_effective {t : T2 3} (h : IsSym t) (a b c d : ℝ) :
    (LzyDefined c d t → louEffective t a b c d = some (lzyStress a b c d t)) ∧
    (¬ LzyDefined c d t → louEffective t a b c d = none) := by
  obtain ⟨h1, h2, h3⟩ := C88_invariants h
  unfold louEffective LzyDefined lzyStress
  simp only [h1, h2, h3]
  constructor
  · rintro ⟨h4, h5⟩
    rw [fpow_of_pos h4 (by norm_num), ← Real.sqrt_eq_rpow]
    simp only [Option.bind_some]
    rw [fpow_of_pos h5 (by norm_num), Option.map_some]
  · intro h6
    by_cases h4 : 0 ≤ devJ2 t ^ 3 - c * devJ3 t ^ 2
    · rw [fpow_of_pos h4 (by norm_num), ← Real.sqrt_eq_rpow]
      simp only [Option.bind_some]
      have h5 : √(devJ2 t ^ 3 - c * devJ3 t ^ 2) - d * devJ3 t < 0 := by
        by_contra h7
        exact h6 ⟨h4, not_lt.mp h7⟩
      rw [fpow, if_pos (Or.inl h5)]
      rfl
    · rw [fpow, if_pos (Or.inl (not_le.mp h4))]
      rfl

/-- Invariants of a symmetric traceless tensor in terms of three real numbers of zero sum. -/
theorem exists_principal {s : T2 3} (hs : IsSym s) (ht : trace s = 0) : ∃ x y : ℝ,
    ∑ i, ∑ j, s i j ^ 2 = x ^ 2 + y ^ 2 + (x + y) ^ 2 ∧
      Matrix.det (Matrix.of s) = -(x * y * (x + y)) := by
  set A : Matrix (Fin 3) (Fin 3) ℝ := Matrix.of s with hA
  have hH : A.IsHermitian := by
    ext i j
    simp [hA, Matrix.conjTranspose_apply, hs j i]
  have h1 : A.trace = ∑ i, hH.eigenvalues i := by
    simpa using hH.trace_eq_sum_eigenvalues
  have h2 : A.det = ∏ i, hH.eigenvalues i := by
    simpa using hH.det_eq_prod_eigenvalues
  have h3 : (A * A).trace = ∑ i, hH.eigenvalues i ^ 2 := by
    have hsp := hH.spectral_theorem
    set U : Matrix (Fin 3) (Fin 3) ℝ := (hH.eigenvectorUnitary : Matrix (Fin 3) (Fin 3) ℝ) with hU
    set D : Matrix (Fin 3) (Fin 3) ℝ := Matrix.diagonal hH.eigenvalues with hD
    have hUU : star U * U = 1 := Unitary.coe_star_mul_self hH.eigenvectorUnitary
    have hA2 : A = U * D * star U := by
      rw [Unitary.conjStarAlgAut_apply] at hsp
      exact hsp
    have : A * A = U * (D * D * star U) := by
      calc A * A = U * D * star U * (U * D * star U) := by rw [← hA2]
        _ = U * D * (star U * U) * D * star U := by simp only [Matrix.mul_assoc]
        _ = U * (D * D * star U) := by rw [hUU]; simp only [Matrix.mul_assoc, Matrix.mul_one]
    rw [this, Matrix.trace_mul_comm, Matrix.mul_assoc, hUU, Matrix.mul_one, hD,
      Matrix.diagonal_mul_diagonal, Matrix.trace_diagonal]
    exact Finset.sum_congr rfl fun i _ => (sq _).symm
  have h4 : (A * A).trace = ∑ i, ∑ j, s i j ^ 2 := by
    simp only [Matrix.trace, Matrix.diag, Matrix.mul_apply, hA, Matrix.of_apply]
    exact Finset.sum_congr rfl fun i _ => Finset.sum_congr rfl fun j _ => by rw [hs j i]; ring
  have h5 : A.trace = 0 := by rw [← ht]; rfl
  rw [h5, Fin.sum_univ_three] at h1
  rw [h4] at h3
  rw [Fin.prod_univ_three] at h2
  have h6 : hH.eigenvalues 2 = -(hH.eigenvalues 0 + hH.eigenvalues 1) := by linarith
  refine ⟨hH.eigenvalues 0, hH.eigenvalues 1, ?_, ?_⟩
  · rw [h3, Fin.sum_univ_three, h6]; ring
  · rw [h2, h6]; ring

theorem deviator_trace (t : T2 3) : trace (deviator t) = 0 := by
  simp only [trace, deviator, Fin.sum_univ_three]
  simp
  ring

/-- `27 J₃² ≤ 4 J₂³` for every symmetric stress. -/
theorem devJ3_le {t : T2 3} (h : IsSym t) : 27 * devJ3 t ^ 2 ≤ 4 * devJ2 t ^ 3 := by
  obtain ⟨x, y, h1, h2⟩ := exists_principal (deviator_isSym h) (deviator_trace t)
  unfold devJ2 devJ3
  rw [h1, h2]
  have : 4 * (1 / 2 * (x ^ 2 + y ^ 2 + (x + y) ^ 2)) ^ 3 - 27 * (-(x * y * (x + y))) ^ 2 =
      ((x - y) * (2 * x + y) * (x + 2 * y)) ^ 2 := by ring
  linarith [sq_nonneg ((x - y) * (2 * x + y) * (x + 2 * y))]

theorem devJ2_nonneg (t : T2 3) : 0 ≤ devJ2 t := by
  unfold devJ2
  positivity

/-- Uniaxial stress. -/
def uniaxial (s : ℝ) : T2 3 := fun i j => if i = 0 ∧ j = 0 then s else 0

theorem uniaxial_isSym (s : ℝ) : IsSym (uniaxial s) := by
  intro i j
  simp only [uniaxial, and_comm]

theorem uniaxial_inv (s : ℝ) : trace (uniaxial s) = s ∧ devJ2 (uniaxial s) = s ^ 2 / 3 ∧
    devJ3 (uniaxial s) = 2 / 27 * s ^ 3 := by
  refine ⟨?_, ?_, ?_⟩
  · simp [trace, uniaxial, Fin.sum_univ_three]
  · simp only [devJ2, deviator, trace, uniaxial, Fin.sum_univ_three]
    simp
    ring
  · simp only [devJ3, deviator, trace, uniaxial, Fin.sum_univ_three, Matrix.det_fin_three,
      Matrix.of_apply]
    simp
    ring

/-- C88b: the effective stress is a real number for all symmetric stresses exactly if
`4 (c + d²) ≤ 27`; otherwise it is NaN already for a uniaxial stress. -/
theorem C88_defined_everywhere (c d : ℝ) :
    (4 * (c + d ^ 2) ≤ 27 → ∀ t, IsSym t → LzyDefined c d t) ∧
    (27 < 4 * (c + d ^ 2) → ¬ LzyDefined c d (uniaxial 3) ∨ ¬ LzyDefined c d (uniaxial (-3))) := by
  constructor
  · intro hcd t ht
    have h1 := devJ3_le ht
    have h2 : 0 ≤ devJ2 t ^ 3 := pow_nonneg (devJ2_nonneg t) 3
    have h3 : (c + d ^ 2) * devJ3 t ^ 2 ≤ devJ2 t ^ 3 := by
      rcases le_total 0 (c + d ^ 2) with h | h
      · nlinarith [sq_nonneg (devJ3 t)]
      · nlinarith [sq_nonneg (devJ3 t)]
    have h4 : 0 ≤ devJ2 t ^ 3 - c * devJ3 t ^ 2 := by
      nlinarith [mul_nonneg (sq_nonneg d) (sq_nonneg (devJ3 t))]
    refine ⟨h4, ?_⟩
    rw [sub_nonneg]
    refine Real.le_sqrt_of_sq_le ?_
    nlinarith
  · intro hcd
    by_contra hc
    simp only [not_or, not_not] at hc
    obtain ⟨⟨h1, h2⟩, -, h3⟩ := hc
    simp only [uniaxial_inv] at h1 h2 h3
    have e1 : ((3 : ℝ) ^ 2 / 3) ^ 3 - c * (2 / 27 * 3 ^ 3) ^ 2 = 27 - 4 * c := by ring
    have e2 : ((-3 : ℝ) ^ 2 / 3) ^ 3 - c * (2 / 27 * (-3) ^ 3) ^ 2 = 27 - 4 * c := by ring
    rw [e1] at h1 h2
    rw [e2] at h3
    have h4 := Real.sq_sqrt h1
    have h5 := Real.sqrt_nonneg (27 - 4 * c)
    norm_num at h2 h3
    nlinarith

/-! ### Special cases -/

theorem frob_sq_devJ2 (t : T2 3) : devJ2 t = frob (deviator t) ^ 2 / 2 := by
  unfold devJ2 frob
  rw [Real.sq_sqrt (by positivity)]
  ring

theorem cbrt_sqrt_cube {x : ℝ} (h : 0 ≤ x) : (√(x ^ 3)) ^ (1 / 3 : ℝ) = √x := by
  rw [Real.sqrt_eq_rpow, Real.sqrt_eq_rpow, ← Real.rpow_natCast x 3, ← Real.rpow_mul h,
    ← Real.rpow_mul h]
  norm_num

/-- C88c: with `a = √3` and `b = c = d = 0` the effective stress is the von Mises stress. -/
theorem C88_von_mises {t : T2 3} (h : IsSym t) :
    louEffective t √3 0 0 0 = some (vonMises t) := by
  have hd : LzyDefined 0 0 t := by
    refine (C88_defined_everywhere 0 0).1 (by norm_num) t h
  rw [(C88_effective h _ _ _ _).1 hd, lzyStress]
  congr 1
  simp only [zero_mul, sub_zero, zero_add]
  rw [cbrt_sqrt_cube (devJ2_nonneg t), frob_sq_devJ2, vonMises, ← Real.sqrt_mul (by norm_num),
    show (3 : ℝ) * (frob (deviator t) ^ 2 / 2) = 3 / 2 * frob (deviator t) ^ 2 by ring,
    Real.sqrt_mul (by norm_num), Real.sqrt_sq (show 0 ≤ frob (deviator t) from Real.sqrt_nonneg _)]

/-- C88d: with `c = d = 0` the effective stress is the Drucker-Prager stress
`a (b I₁ + √J₂)`. -/
theorem C88_drucker_prager {t : T2 3} (h : IsSym t) (a b : ℝ) :
    louEffective t a b 0 0 = some (a * (b * trace t + √(devJ2 t))) := by
  have hd : LzyDefined 0 0 t := by
    refine (C88_defined_everywhere 0 0).1 (by norm_num) t h
  rw [(C88_effective h _ _ _ _).1 hd, lzyStress]
  simp only [zero_mul, sub_zero]
  rw [cbrt_sqrt_cube (devJ2_nonneg t)]

/-- Hydrostatic stress. -/
def hydrostatic (p : ℝ) : T2 3 := fun i j => if i = j then p else 0

theorem hydrostatic_isSym (p : ℝ) : IsSym (hydrostatic p) := by
  intro i j
  simp only [hydrostatic, eq_comm]

theorem hydrostatic_dev (p : ℝ) : deviator (hydrostatic p) = 0 := by
  funext i j
  simp only [deviator, hydrostatic, trace, Fin.sum_univ_three]
  split_ifs <;> simp <;> ring

/-- C88e: a hydrostatic stress has the effective stress `3 a b p`, whatever `c` and `d` are. -/
theorem C88_hydrostatic (a b c d p : ℝ) :
    louEffective (hydrostatic p) a b c d = some (3 * a * b * p) := by
  have h2 : devJ2 (hydrostatic p) = 0 := by simp [devJ2, hydrostatic_dev]
  have h3 : devJ3 (hydrostatic p) = 0 := by
    rw [devJ3, hydrostatic_dev]
    simp
  have h1 : trace (hydrostatic p) = 3 * p := by
    simp [trace, hydrostatic]
  rw [(C88_effective (hydrostatic_isSym p) _ _ _ _).1 (by simp [LzyDefined, h2, h3]), lzyStress, h1,
    h2, h3]
  simp
  ring

theorem devJ_scale (k : ℝ) (t : T2 3) : trace (k • t) = k * trace t ∧
    devJ2 (k • t) = k ^ 2 * devJ2 t ∧ devJ3 (k • t) = k ^ 3 * devJ3 t := by
  have h : deviator (k • t) = k • deviator t := by
    funext i j
    simp only [deviator, trace, Pi.smul_apply, smul_eq_mul, Fin.sum_univ_three]
    split_ifs <;> ring
  refine ⟨?_, ?_, ?_⟩
  · simp only [trace, Pi.smul_apply, smul_eq_mul, Fin.sum_univ_three]; ring
  · simp only [devJ2, h, Pi.smul_apply, smul_eq_mul, Fin.sum_univ_three]; ring
  · simp only [devJ3, h, Matrix.det_fin_three, Matrix.of_apply, Pi.smul_apply, smul_eq_mul]; ring

/-- C88f: the effective stress is positively homogeneous of degree one. -/
theorem C88_homogeneous {t : T2 3} (h : IsSym t) {k : ℝ} (hk : 0 < k) (a b c d : ℝ) :
    louEffective (k • t) a b c d = (louEffective t a b c d).map (k * ·) := by
  have hs : IsSym (k • t) := fun i j => by simp [h i j]
  obtain ⟨h1, h2, h3⟩ := devJ_scale k t
  have e1 : (k ^ 2 * devJ2 t) ^ 3 - c * (k ^ 3 * devJ3 t) ^ 2 =
      (k ^ 3) ^ 2 * (devJ2 t ^ 3 - c * devJ3 t ^ 2) := by ring
  have hk3 : 0 < k ^ 3 := by positivity
  have e2 : √((k ^ 3) ^ 2 * (devJ2 t ^ 3 - c * devJ3 t ^ 2)) - d * (k ^ 3 * devJ3 t) =
      k ^ 3 * (√(devJ2 t ^ 3 - c * devJ3 t ^ 2) - d * devJ3 t) := by
    rw [Real.sqrt_mul (by positivity), Real.sqrt_sq hk3.le]; ring
  have hiff : LzyDefined c d (k • t) ↔ LzyDefined c d t := by
    unfold LzyDefined
    rw [h2, h3, e1, e2]
    rw [mul_nonneg_iff_of_pos_left (by positivity), mul_nonneg_iff_of_pos_left hk3]
  by_cases hd : LzyDefined c d t
  · rw [(C88_effective hs _ _ _ _).1 (hiff.mpr hd), (C88_effective h _ _ _ _).1 hd, Option.map_some,
      lzyStress, lzyStress, h1, h2, h3, e1, e2, Real.mul_rpow hk3.le hd.2,
      ← Real.rpow_natCast k 3, ← Real.rpow_mul hk.le]
    congr 1
    norm_num
    ring
  · rw [(C88_effective hs _ _ _ _).2 (fun h' => hd (hiff.mp h')), (C88_effective h _ _ _ _).2 hd]
    rfl

/-- Rotation of a stress. -/
def rotate (Q : Matrix (Fin 3) (Fin 3) ℝ) (t : T2 3) : T2 3 := Q * Matrix.of t * Q.transpose

/-- C88g: the effective stress is isotropic, that is, the same for a rotated stress. -/
theorem C88_isotropic (t : T2 3) {Q : Matrix (Fin 3) (Fin 3) ℝ}
    (hQ : Q.transpose * Q = 1) (a b c d : ℝ) :
    louEffective (rotate Q t) a b c d = louEffective t a b c d := by
  have hQ' : Q * Q.transpose = 1 := mul_eq_one_comm.mp hQ
  have htr : ∀ A : Matrix (Fin 3) (Fin 3) ℝ, (Q * A * Q.transpose).trace = A.trace := by
    intro A
    rw [Matrix.trace_mul_comm, ← Matrix.mul_assoc, hQ, Matrix.one_mul]
  have hdt : (Q * Matrix.of t * Q.transpose).det = (Matrix.of t).det := by
    rw [Matrix.det_mul, Matrix.det_mul]
    have : Q.det * Q.transpose.det = 1 := by rw [← Matrix.det_mul, hQ', Matrix.det_one]
    linear_combination (Matrix.of t).det * this
  have hsq : Q * Matrix.of t * Q.transpose * (Q * Matrix.of t * Q.transpose) =
      Q * (Matrix.of t * Matrix.of t) * Q.transpose := by
    calc _ = Q * Matrix.of t * (Q.transpose * Q) * Matrix.of t * Q.transpose := by
          simp only [Matrix.mul_assoc]
      _ = _ := by rw [hQ]; simp only [Matrix.mul_assoc, Matrix.mul_one]
  have i1 : (louInvariants (rotate Q t)).i1 = (louInvariants t).i1 := htr (Matrix.of t)
  have key : ∀ s : T2 3, louInvariants s =
      ⟨(Matrix.of s).trace, 0.5 * ((Matrix.of s).trace ^ 2 - (Matrix.of s * Matrix.of s).trace),
        (Matrix.of s).det,
        1 / 3 * (Matrix.of s).trace ^ 2 -
          0.5 * ((Matrix.of s).trace ^ 2 - (Matrix.of s * Matrix.of s).trace),
        2 / 27 * (Matrix.of s).trace ^ 3 - 1 / 3 * (Matrix.of s).trace *
          (0.5 * ((Matrix.of s).trace ^ 2 - (Matrix.of s * Matrix.of s).trace)) +
          (Matrix.of s).det⟩ := fun s => rfl
  have hall : louInvariants (rotate Q t) = louInvariants t := by
    rw [key, key]
    have e : Matrix.of (rotate Q t) = Q * Matrix.of t * Q.transpose := rfl
    rw [e, hsq, htr, htr, hdt]
  unfold louEffective
  rw [hall]

/-- the parameters `c = 1`, `d = 1` are in the range of C88b -/
example : 4 * ((1 : ℝ) + 1 ^ 2) ≤ 27 := by norm_num

/-- a uniaxial stress with all parameters different from zero -/
example : louEffective (uniaxial 3) 1 1 (1 / 4) 1 =
    some (3 + (√26 - 2) ^ (1 / 3 : ℝ)) := by
  rw [(C88_effective (uniaxial_isSym 3) _ _ _ _).1
    ((C88_defined_everywhere _ _).1 (by norm_num) _ (uniaxial_isSym 3)), lzyStress]
  obtain ⟨h1, h2, h3⟩ := uniaxial_inv 3
  rw [h1, h2, h3]
  norm_num

end Hooke
