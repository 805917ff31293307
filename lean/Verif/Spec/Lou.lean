import Verif.Spec.Plasticity
import Verif.Model.Lou
import Mathlib.Analysis.Calculus.FDeriv.Defs
import Mathlib.Analysis.SpecialFunctions.Pow.Real
import Mathlib.LinearAlgebra.Matrix.Determinant.Basic

/-! # Specification: effective stress of Lou, Zhang and Yoon -/

noncomputable section

namespace Hooke.Spec

/-- Second invariant of the deviator. -/
def devJ2 (t : T2 3) : ℝ := 1 / 2 * ∑ i, ∑ j, deviator t i j ^ 2

/-- Third invariant of the deviator. -/
def devJ3 (t : T2 3) : ℝ := Matrix.det (Matrix.of (deviator t))

/-- The effective stress is a real number: no root of a negative number is taken. -/
def LzyDefined (c d : ℝ) (t : T2 3) : Prop :=
  0 ≤ devJ2 t ^ 3 - c * devJ3 t ^ 2 ∧ 0 ≤ √(devJ2 t ^ 3 - c * devJ3 t ^ 2) - d * devJ3 t

/-- Effective stress `a (b I₁ + ((J₂³ - c J₃²)^(1/2) - d J₃)^(1/3))`. -/
def lzyStress (a b c d : ℝ) (t : T2 3) : ℝ :=
  a * (b * trace t + (√(devJ2 t ^ 3 - c * devJ3 t ^ 2) - d * devJ3 t) ^ (1 / 3 : ℝ))

/-! ## State update -/

/-- Effective stress of a 3D Kelvin vector with the yield parameters at an accumulated plastic
strain. -/
def lzyAt (m : LouParams) (acc : ℝ) (s : V6) : ℝ :=
  lzyStress (m.a acc).1 (m.b acc).1 (m.c acc).1 (m.d acc).1 (unkel6 s)

/-- The effective stress is defined, with the yield parameters at an accumulated plastic strain. -/
def LzyDefinedAt (m : LouParams) (acc : ℝ) (s : V6) : Prop :=
  LzyDefined (m.c acc).1 (m.d acc).1 (unkel6 s)

/-- Stress of the elastic trial state. -/
def louTrial {p : PType} (m : LouParams) (old : VMState p) (inc : T2 p.dim) : V6 :=
  hooke6 (lame m.E m.v) (shear m.E m.v) (trial3D old inc)

/-- The trial state is accepted as elastic: its excess over the yield stress, relative to the yield
stress, is at most `1e-6`. -/
def LouTrialElastic {p : PType} (m : LouParams) (old : VMState p) (inc : T2 p.dim) : Prop :=
  LzyDefinedAt m old.acc (louTrial m old inc) ∧
    (((m.y old.acc).1 ≠ 0 ∧
      (lzyAt m old.acc (louTrial m old inc) - (m.y old.acc).1) / (m.y old.acc).1 ≤ 1e-6) ∨
    ((m.y old.acc).1 = 0 ∧ lzyAt m old.acc (louTrial m old inc) < 0))

/-- The trial pressure exceeds 95 % of the pressure at the apex, `σy/(3 a b)` (with `|b|` not less
than `1e-6`). -/
def LouNearApex {p : PType} (m : LouParams) (old : VMState p) (inc : T2 p.dim) : Prop :=
  if (m.a old.acc).1 = 0 then (m.y old.acc).1 < 0
  else tr6 (louTrial m old inc) / 3 >
    0.95 * ((m.y old.acc).1 / (3 * (m.a old.acc).1 * max |(m.b old.acc).1| 1e-6))

/-- Allowed error of a quantity compared with `x`: relative unless `x` is below `1e-8`. -/
def louTol (x : ℝ) : ℝ := if x < 1e-8 then 3e-6 else 3e-6 * x

/-- Return to the smooth part of the yield surface: with the gradient `N` of the effective stress at
the new stress and a plastic multiplier `g`, the new stress lies on the yield surface, the plastic
strain has grown by `g N` and the accumulated plastic strain by the hardening rule, each within the
tolerance. -/
structure LouSurfaceReturn {p : PType} (m : LouParams) (old new : VMState p) (inc : T2 p.dim)
    (g : ℝ) (N : T2 3) : Prop where
  isGradient : ∃ L : T2 3 →L[ℝ] ℝ, (∀ s, L s = ∑ i, ∑ j, N i j * s i j) ∧
    HasFDerivAt (lzyStress (m.a new.acc).1 (m.b new.acc).1 (m.c new.acc).1 (m.d new.acc).1) L
      (unkel6 (stress3D new))
  isDefined : LzyDefinedAt m new.acc (stress3D new)
  onSurface : |lzyAt m new.acc (stress3D new) - (m.y new.acc).1| < 3e-6 * |(m.y 0).1|
  flow : frob (fun i j => unkel6 (fun k => plastic3D new k - plastic3D old k) i j - g * N i j) <
    louTol (frob (unkel6 (trial3D old inc)))
  hardening : |new.acc - old.acc - g * (if m.assoc then 1 else √(2 / 3) * frob N)| < louTol |old.acc|

/-- Return to the apex: the new stress is hydrostatic, and its pressure is that of the apex,
`σy/(3 a b)`, within the tolerance. -/
structure LouApexReturned {p : PType} (m : LouParams) (new : VMState p) : Prop where
  hydrostatic : dev6 (stress3D new) = 0
  etay : (m.a new.acc).1 * (m.b new.acc).1 ≠ 0
  apex : |tr6 (stress3D new) / 3 - (m.y new.acc).1 / (3 * (m.a new.acc).1 * (m.b new.acc).1)| <
    1e-6 * max 1 |(m.y new.acc).1|

/-- What holds after every history. -/
structure LouInvariant {p : PType} (m : LouParams) (total : T2 p.dim) (s : VMState p) : Prop where
  strain : s.strain = mf p total
  stress : stress3D s = hooke6 (lame m.E m.v) (shear m.E m.v) (elastic3D s)
  isDefined : LzyDefinedAt m s.acc (stress3D s)
  admissible : lzyAt m s.acc (stress3D s) ≤ (m.y s.acc).1 + 3e-6 * max |(m.y 0).1|
    (max 1 |(m.a s.acc).1 * (m.b s.acc).1| * max 1 (m.y s.acc).1)
  ok : s.isSuFail = false

/-- Parameters for which the yield surface is that of von Mises: `a = √3`, `b = c = d = 0`, with
associative linear hardening of the yield stress. -/
def vonMisesLimit (E v s0 h : ℝ) : LouParams :=
  { E := E, v := v, y := linearHardening s0 h, a := fun _ => (√3, 0), b := fun _ => (0, 0)
    c := fun _ => (0, 0), d := fun _ => (0, 0), assoc := true }

end Hooke.Spec
