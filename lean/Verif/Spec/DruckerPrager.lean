import Verif.Spec.Plasticity
import Verif.Model.DruckerPrager

/-! # Specification: Drucker-Prager plasticity -/

noncomputable section

namespace Hooke.Spec

/-- Pressure (positive in tension) of a stress. -/
def pressure6 (s : V6) : ℝ := tr6 s / 3

/-- Square root of the second invariant of the stress deviator. -/
def sqrtJ2 (s : V6) : ℝ := norm6 (dev6 s) / √2

/-- Drucker-Prager yield function at cohesion `c`. -/
def dpYield (m : DPParams) (s : V6) (c : ℝ) : ℝ := sqrtJ2 s + m.etay * pressure6 s - m.xi * c

/-- Bound for residuals: relative to the cohesion, absolute if the cohesion is nearly zero. -/
def cohesionTol (c : ℝ) : ℝ := if |c| < 1e-8 then 1e-6 else 1e-6 * |c|

/-- The trial state is within the yield tolerance. -/
def DPTrialElastic {p : PType} (m : DPParams) (law : HardLaw) (old : DPState p) (inc : T2 p.dim) :
    Prop :=
  dpYield m (hooke6 (lame m.E m.v) (shear m.E m.v) (trial3D old.toVMState inc)) (law old.acc).1 ≤
    cohesionTol (law old.acc).1

/-- The equation of the return to the cone, as a function of the plastic multiplier. -/
def coneEquation {p : PType} (m : DPParams) (law : HardLaw) (old : DPState p) (inc : T2 p.dim)
    (x : ℝ) : NewtonEval :=
  let trial := hooke6 (lame m.E m.v) (shear m.E m.v) (trial3D old.toVMState inc)
  { residual := sqrtJ2 trial - shear m.E m.v * x +
      m.etay * (pressure6 trial - bulk m.E m.v * m.etaf * x) - m.xi * (law (old.acc + m.xi * x)).1
    scale := (law (old.acc + m.xi * x)).1
    jacobian := -shear m.E m.v - bulk m.E m.v * m.etaf * m.etay -
      m.xi ^ 2 * (law (old.acc + m.xi * x)).2 }

/-- The equation of the return to the apex, as a function of the volumetric plastic strain. -/
def apexEquation {p : PType} (m : DPParams) (law : HardLaw) (old : DPState p) (inc : T2 p.dim)
    (x : ℝ) : NewtonEval :=
  let trial := hooke6 (lame m.E m.v) (shear m.E m.v) (trial3D old.toVMState inc)
  { residual := (law (old.acc + m.xi / m.etaf * x)).1 * (m.xi / m.etay) -
      (pressure6 trial - bulk m.E m.v * x)
    scale := (law (old.acc + m.xi / m.etaf * x)).1
    jacobian := m.xi / m.etaf * (m.xi / m.etay) * (law (old.acc + m.xi / m.etaf * x)).2 +
      bulk m.E m.v }

/-- Newton's method for `f` from zero finds `x`: it is the first of the iterates number 2 to 21
whose residual is within the bound. -/
def FirstConverged (f : ℝ → NewtonEval) (x : ℝ) : Prop :=
  ∃ k, 2 ≤ k ∧ k ≤ 21 ∧ newtonIterate f k = some x ∧ |(f x).residual| < cohesionTol (f x).scale ∧
    ∀ j, 2 ≤ j → j < k → ∀ z, newtonIterate f j = some z →
      ¬ |(f z).residual| < cohesionTol (f z).scale

/-- None of the iterates number 2 to 21 has a residual within the bound. -/
def NeverConverges (f : ℝ → NewtonEval) : Prop :=
  ∀ k, 2 ≤ k → k ≤ 21 → ∀ z, newtonIterate f k = some z →
    ¬ |(f z).residual| < cohesionTol (f z).scale

/-- What holds after every history of the Drucker-Prager model. -/
structure DPInvariant {p : PType} (m : DPParams) (law : HardLaw) (total : T2 p.dim)
    (s : DPState p) : Prop where
  /-- the total strain is the sum of the increments -/
  strain : s.strain = mf p total
  /-- the stress is Hooke's law of the elastic strain -/
  stress : stress3D s.toVMState = hooke6 (lame m.E m.v) (shear m.E m.v) (elastic3D s.toVMState)
  /-- the stress is within the tolerance of the yield surface -/
  admissible : dpYield m (stress3D s.toVMState) (law s.acc).1 ≤
    max 1 |m.etay| * cohesionTol (law s.acc).1
  ok : s.isSuFail = false

end Hooke.Spec
