import Verif.Spec.TangentForm
import Verif.Props.ConsistentTangent

/-! # Quadratic forms of the plastic tangents -/

noncomputable section

namespace Hooke

open Spec

/-! ### Symmetry -/

/-- Major symmetry. -/
def Major (t : T4 3) : Prop := ∀ i j k l, t i j k l = t k l i j

theorem major_fosym : Major (getIdOperators 3).fosym := by
  intro i j k l
  simp only [fosym_eq]
  fin_cases i <;> fin_cases j <;> fin_cases k <;> fin_cases l <;> simp

theorem major_diag : Major (getIdOperators 3).fodiagtrace := by
  intro i j k l
  simp only [fodiagtrace_eq]
  fin_cases i <;> fin_cases j <;> fin_cases k <;> fin_cases l <;> simp

theorem major_iso (lam G : ℝ) : Major (isoTensor lam G) := by
  intro i j k l
  simp only [isoTensor, major_fosym i j k l, major_diag i j k l]

theorem major_devprojsym : Major (getIdOperators 3).fodevprojsym := by
  intro i j k l
  simp only [fodevprojsym_eq, major_fosym i j k l, major_diag i j k l]

theorem major_plastic (lam G f1 f2 : ℝ) (u : T2 3) : Major fun i j k l => isoTensor lam G i j k l
    - f1 * (getIdOperators 3).fodevprojsym i j k l + f2 * dyad22_1 u u i j k l := by
  intro i j k l
  simp only [major_iso lam G i j k l, major_devprojsym i j k l, dyad22_1]
  ring

theorem Major.kel {t : T4 3} (h : Major t) : SymMatrix (n := 6) (kel66 t) := by
  intro i j
  simp only [kel66, h (ci i) (cj i) (ci j) (cj j)]
  ring

theorem symMatrix_to2DM (p : PType) {M : M6} (h : SymMatrix (n := 6) M) : SymMatrix (to2DM p M) := by
  cases p
  · exact fun i j => h _ _
  · exact h

theorem Major.to2DM {t : T4 3} (h : Major t) (p : PType) : SymMatrix (to2DM p (kel66 t)) :=
  symMatrix_to2DM p h.kel

/-! ### Quadratic forms -/

theorem work_to2DM (p : PType) (M : M6) (x : Vmf p) :
    work2 (to2DM p M) x = ∑ k, to3D p x 0 k * mv6 M (to3D p x 0) k := by
  have h1 : work2 (to2DM p M) x = ∑ i, x i * to2D p (mv6 M (to3D p x 0)) i := by
    unfold work2
    refine Finset.sum_congr rfl fun i _ => ?_
    rw [to2D_mv6, Finset.mul_sum]
    exact Finset.sum_congr rfl fun j _ => by ring
  rw [h1]
  cases p
  · show ∑ i : Fin 3, _ = _
    simp [to2D, to3D, Fin.sum_univ_succ]
  · rfl

theorem to3D_ne_zero {p : PType} {x : Vmf p} (h : x ≠ 0) : to3D p x 0 ≠ 0 := by
  intro hx
  apply h
  rw [← to2D_to3D p x 0, hx]
  cases p
  · funext k; fin_cases k <;> rfl
  · rfl

/-- The shear part of the quadratic form. -/
def devSq (y : V6) : ℝ := ∑ k, dev6 y k ^ 2

theorem devSq_nonneg (y : V6) : 0 ≤ devSq y := Finset.sum_nonneg fun _ _ => sq_nonneg _

theorem dot_dev (y : V6) : ∑ k, y k * dev6 y k = devSq y := by
  simp only [devSq, dev6, tr6, one6, Fin.sum_univ_succ]
  simp
  ring

theorem dot_hooke (lam G : ℝ) (y : V6) : ∑ k, y k * hooke6 lam G y k =
    (lam + 2 * G / 3) * tr6 y ^ 2 + 2 * G * devSq y := by
  simp only [devSq, hooke6, dev6, tr6, one6, Fin.sum_univ_succ]
  simp
  ring

theorem dot_dev_left {s : V6} (hs : tr6 s = 0) (y : V6) : ∑ k, s k * y k = ∑ k, s k * dev6 y k := by
  have h0 : s 2 = -s 0 - s 1 := by simp only [tr6] at hs; linarith
  simp only [dev6, tr6, one6, Fin.sum_univ_succ]
  simp
  rw [h0]
  ring

theorem dev6_eq_zero {y : V6} (h1 : tr6 y = 0) (h2 : devSq y = 0) : y = 0 := by
  funext k
  have := (Finset.sum_eq_zero_iff_of_nonneg (fun _ _ => sq_nonneg _)).mp h2 k (Finset.mem_univ k)
  have h3 : dev6 y k = 0 := by simpa using this
  simpa [dev6, h1] using h3

/-- Square of the component along a direction `s`. -/
def alongSq (s y : V6) : ℝ := (∑ k, s k * y k) ^ 2 / norm6 s ^ 2

theorem norm6_sq_eq (s : V6) : norm6 s ^ 2 = ∑ k, s k ^ 2 :=
  Real.sq_sqrt (Finset.sum_nonneg fun _ _ => sq_nonneg _)

theorem alongSq_nonneg (s y : V6) : 0 ≤ alongSq s y := div_nonneg (sq_nonneg _) (sq_nonneg _)

theorem alongSq_le {s : V6} (hs : tr6 s = 0) (hn : 0 < norm6 s) (y : V6) : alongSq s y ≤ devSq y := by
  unfold alongSq
  rw [div_le_iff₀ (by positivity), dot_dev_left hs y, norm6_sq_eq, mul_comm]
  exact Finset.sum_mul_sq_le_sq_mul_sq _ _ _

/-- Quadratic form of a plastic tangent with flow direction `s`, multiplier `x`, trial equivalent
stress `q` and hardening slope `H`. -/
theorem plastic_form {lam G x q H : ℝ} {s y T : V6} (hn : 0 < norm6 s)
    (hG : 3 * G + H ≠ 0)
    (hT : ∀ k, T k = hooke6 lam G y k - x * 6 * G ^ 2 / q * dev6 y k +
      6 * G ^ 2 * (x / q - 1 / (3 * G + H)) *
        ((2 / 3) * (∑ j, (√(3 / 2) / norm6 s * s j) * y j) * (√(3 / 2) / norm6 s * s k))) :
    ∑ k, y k * T k = (lam + 2 * G / 3) * tr6 y ^ 2 +
      2 * G * (1 - 3 * G * x / q) * (devSq y - alongSq s y) +
      2 * G * H / (3 * G + H) * alongSq s y := by
  have h32 : √(3 / 2 : ℝ) ^ 2 = 3 / 2 := Real.sq_sqrt (by norm_num)
  have hs1 : (∑ j, (√(3 / 2) / norm6 s * s j) * y j) = √(3 / 2) / norm6 s * ∑ j, s j * y j := by
    rw [Finset.mul_sum]; exact Finset.sum_congr rfl fun _ _ => by ring
  have hs2 : alongSq s y = (2 / 3) * (√(3 / 2) / norm6 s * ∑ j, s j * y j) ^ 2 := by
    rw [mul_pow, div_pow, h32]
    unfold alongSq
    field_simp
  have h1 : ∑ k, y k * T k = ∑ k, y k * hooke6 lam G y k
      - x * 6 * G ^ 2 / q * ∑ k, y k * dev6 y k
      + 6 * G ^ 2 * (x / q - 1 / (3 * G + H)) * alongSq s y := by
    rw [hs2, Finset.mul_sum, ← Finset.sum_sub_distrib]
    have h2 : ∀ c : ℝ, c * ((2 / 3) * (√(3 / 2) / norm6 s * ∑ j, s j * y j) ^ 2) =
        ∑ k, y k * (c * ((2 / 3) * (∑ j, (√(3 / 2) / norm6 s * s j) * y j) *
          (√(3 / 2) / norm6 s * s k))) := by
      intro c
      rw [hs1]
      have : ∀ a b : ℝ, ∑ k, y k * (c * (2 / 3 * a * (b * s k))) = c * (2 / 3) * a * b * ∑ k, s k * y k := by
        intro a b
        rw [Finset.mul_sum]; exact Finset.sum_congr rfl fun _ _ => by ring
      rw [this]
      ring
    rw [h2, ← Finset.sum_add_distrib]
    refine Finset.sum_congr rfl fun k _ => ?_
    rw [hT k]
    ring
  rw [h1, dot_hooke, dot_dev]
  have h3 : 6 * G ^ 2 * (1 / (3 * G + H)) = 2 * G - 2 * G * H / (3 * G + H) := by
    rw [eq_sub_iff_add_eq, mul_one_div, ← add_div, div_eq_iff hG]; ring
  have h4 : 6 * G ^ 2 * (x / q - 1 / (3 * G + H)) =
      6 * G ^ 2 * (x / q) - (2 * G - 2 * G * H / (3 * G + H)) := by rw [← h3]; ring
  rw [h4]
  ring

end Hooke
