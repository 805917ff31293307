import Verif.Model.LmuParameters

/-!
# Specification vocabulary of the temperature and composition dependent material
-/

noncomputable section

namespace Hooke.Spec

/-- TcAdmissible temperatures (degrees Celsius) and compositions. -/
def TcAdmissible (T C : ℝ) : Prop := 25 ≤ T ∧ T ≤ 625 ∧ 0 ≤ C ∧ C ≤ 1

/-- Normalized temperature. -/
def normT (T : ℝ) : ℝ := (T - 325) / 180.606

/-- Normalized composition. -/
def normC (C : ℝ) : ℝ := (C - 1 / 2) / 0.3168

/-- Young's modulus (MPa). -/
def tcYoung (T C : ℝ) : ℝ :=
  1000 * (135.546 + 20.186 * normC C + (-8.489 + 0.936 * normC C) * normT T)

/-- Shear modulus (MPa). -/
def tcShear (T C : ℝ) : ℝ :=
  1000 * (52.891 + 8.843 * normC C + (-3.340 + 0.405 * normC C) * normT T)

/-- Initial yield stress (MPa). -/
def tcYield (T C : ℝ) : ℝ :=
  (25.107 - 47.582 * normC C + 39.738 * normC C ^ 2) *
      Real.exp (-(0.883 + 0.018 * normC C - 0.091 * normC C ^ 2) * normT T)
    + (541.225 - 74.391 * normC C - 121.669 * normC C ^ 2 + 29.518 * normC C ^ 3 + 20.025 * normC C ^ 4)

/-- Hardening modulus (MPa). -/
def tcHardening (T C : ℝ) : ℝ :=
  7253.7 + 2213.1 * normC C + (-68.7 - 57.7 * normC C) * normT T

end Hooke.Spec
