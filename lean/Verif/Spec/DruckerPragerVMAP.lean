import Verif.Spec.DruckerPrager
import Verif.Model.DruckerPragerVMAP

/-! # Specification: batched Drucker-Prager model -/

noncomputable section

namespace Hooke.Spec

/-- Newton's method for `f` from zero, checked from the first iterate on: `x` is the first of the
iterates number 1 to 10 whose residual is within the bound. -/
def FirstConverged10 (f : ℝ → NewtonEval) (x : ℝ) : Prop :=
  ∃ k, 1 ≤ k ∧ k ≤ 10 ∧ newtonIterate f k = some x ∧ |(f x).residual| < cohesionTol (f x).scale ∧
    ∀ j, 1 ≤ j → j < k → ∀ z, newtonIterate f j = some z →
      ¬ |(f z).residual| < cohesionTol (f z).scale

/-- None of the iterates number 1 to 10 has a residual within the bound. -/
def NeverConverges10 (f : ℝ → NewtonEval) : Prop :=
  ∀ k, 1 ≤ k → k ≤ 10 → ∀ z, newtonIterate f k = some z →
    ¬ |(f z).residual| < cohesionTol (f z).scale

/-- The trial state is elastic for the batched model: the tolerance is always relative to the
cohesion, and with zero cohesion the yield function has to be negative. -/
def DPBatchedTrialElastic {p : PType} (m : DPParams) (law : HardLaw) (old : DPState p)
    (inc : T2 p.dim) : Prop :=
  let y := dpYield m (hooke6 (lame m.E m.v) (shear m.E m.v) (trial3D old.toVMState inc))
    (law old.acc).1
  ((law old.acc).1 = 0 ∧ y < 0) ∨ ((law old.acc).1 ≠ 0 ∧ y ≤ 1e-6 * |(law old.acc).1|)

/-- What holds after every history of the batched Drucker-Prager model. -/
structure DPBatchedInvariant {p : PType} (m : DPParams) (law : HardLaw) (total : T2 p.dim)
    (s : DPState p) : Prop where
  /-- the total strain is the sum of the increments -/
  strain : s.strain = mf p total
  /-- the stress is Hooke's law of the elastic strain -/
  stress : stress3D s.toVMState = hooke6 (lame m.E m.v) (shear m.E m.v) (elastic3D s.toVMState)
  /-- the stress is within the tolerance of the yield surface, plus an absolute error which does
  not depend on the cohesion -/
  admissible : dpYield m (stress3D s.toVMState) (law s.acc).1 ≤
    max 1 |m.etay| * cohesionTol (law s.acc).1 + 2.5e-5
  ok : s.isSuFail = false

end Hooke.Spec
