import Verif.Model.Tensorops
import Verif.Model.Kelvin6

/-!
# Specification: continuum mechanics of symmetric 3D tensors

Textbook definitions, on tensors `T2 3` and, for Kelvin vectors (order 11, 22,
33, 12, 23, 13 with shear components scaled by `√2`), their counterparts.
`Lemmas/Kelvin6.lean` proves that the counterparts agree.
-/

noncomputable section

namespace Hooke.Spec

/-- Symmetric tensor. -/
def IsSym (t : T2 3) : Prop := ∀ i j, t i j = t j i
/-- Trace. -/
def trace (t : T2 3) : ℝ := ∑ i, t i i
/-- Deviator `t - tr(t)/3 I`. -/
def deviator (t : T2 3) : T2 3 := fun i j => t i j - if i = j then trace t / 3 else 0
/-- Frobenius norm. -/
def frob (t : T2 3) : ℝ := √(∑ i, ∑ j, t i j ^ 2)
/-- von Mises equivalent stress `√(3/2) ‖dev t‖`. -/
def vonMises (t : T2 3) : ℝ := √(3 / 2) * frob (deviator t)
/-- Hooke's law `λ tr(ε) I + 2 G ε`. -/
def hooke (lam G : ℝ) (e : T2 3) : T2 3 :=
  fun i j => (if i = j then lam * trace e else 0) + 2 * G * e i j

/-- First Lamé constant. -/
def lame (E v : ℝ) : ℝ := E * v / ((1 + v) * (1 - 2 * v))
/-- Shear modulus. -/
def shear (E v : ℝ) : ℝ := E / (2 * (1 + v))
/-- Bulk modulus. -/
def bulk (E v : ℝ) : ℝ := E / (3 * (1 - 2 * v))

/-- Trace of the tensor stored in a Kelvin vector. -/
def tr6 (v : V6) : ℝ := v 0 + v 1 + v 2
/-- Unit tensor as a Kelvin vector. -/
def one6 : V6 := ![1, 1, 1, 0, 0, 0]
/-- Deviator of the tensor stored in a Kelvin vector. -/
def dev6 (v : V6) : V6 := fun k => v k - tr6 v / 3 * one6 k
/-- Hooke's law on Kelvin vectors. -/
def hooke6 (lam G : ℝ) (e : V6) : V6 := fun k => lam * tr6 e * one6 k + 2 * G * e k
/-- von Mises equivalent stress of a Kelvin vector. -/
def vm6 (s : V6) : ℝ := √(3 / 2) * √(∑ k, dev6 s k ^ 2)

end Hooke.Spec
