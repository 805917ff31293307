import Verif.Spec.Plasticity
import Mathlib.Analysis.Calculus.FDeriv.Basic
import Mathlib.Analysis.Normed.Module.FiniteDimension

/-! # Specification: consistent tangent of the von Mises state update -/

noncomputable section

namespace Hooke.Spec

open scoped Topology

/-- The matrix `T`, applied to the matricial form of a strain direction, is the (Fréchet)
derivative at `inc` of a stress depending on the strain increment. -/
def IsTangent (p : PType) (stress : T2 p.dim → Vmf p) (T : Fin p.len → Fin p.len → ℝ)
    (inc : T2 p.dim) : Prop :=
  ∃ L : T2 p.dim →L[ℝ] Vmf p, (∀ d i, L d i = ∑ j, T i j * mf p d j) ∧ HasFDerivAt stress L inc

/-- Stress stored by a state update, as a function of the strain increment (zero after a
failure). -/
def updatedStress (p : PType) (E v : ℝ) (law : HardLaw) (old : VMState p) (inc : T2 p.dim) :
    Vmf p :=
  match (vmUpdate p E v law inc old).1 with
  | .good s => s.stress
  | .nan _ => 0

/-- `stress` is the exact solution of the plastic step of an increment: the trial stress is
reduced by `2 G Δγ` along the flow direction `√(3/2) s / ‖s‖` of the trial deviator `s`, with
`Δγ` an exact solution of the yield condition `q - 3 G Δγ = σy(acc + Δγ)`. -/
def ExactPlasticStress {p : PType} (E v : ℝ) (law : HardLaw) (old : VMState p) (inc : T2 p.dim)
    (stress : V6) : Prop :=
  ∃ x, vm6 (hooke6 (lame E v) (shear E v) (trial3D old inc)) - 3 * shear E v * x =
      (law (old.acc + x)).1 ∧
    ∀ k, stress k = hooke6 (lame E v) (shear E v) (trial3D old inc) k - 2 * shear E v * x *
      (√(3 / 2) / norm6 (dev6 (hooke6 (lame E v) (shear E v) (trial3D old inc)))) *
        dev6 (hooke6 (lame E v) (shear E v) (trial3D old inc)) k

/-- The trial stress is strictly below the yield tolerance. -/
def StrictlyElastic {p : PType} (E v : ℝ) (law : HardLaw) (old : VMState p) (inc : T2 p.dim) :
    Prop :=
  (law old.acc).1 ≠ 0 ∧
    (vm6 (hooke6 (lame E v) (shear E v) (trial3D old inc)) - (law old.acc).1) / (law old.acc).1
      < 1e-6

end Hooke.Spec
