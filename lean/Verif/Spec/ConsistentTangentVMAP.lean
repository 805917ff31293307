import Verif.Spec.ConsistentTangentMixed
import Verif.Model.DruckerPragerVMAP

/-! # Specification: tangents of the batched state updates -/

noncomputable section

namespace Hooke.Spec

/-- The matrix `T`, applied to the matricial form of a strain direction `d`, differs from the
(Fréchet) derivative at `inc` of a stress depending on the strain increment by at most `C` times
the norm of `d` in every component. -/
def IsTangentWithin (p : PType) (stress : T2 p.dim → Vmf p) (T : Fin p.len → Fin p.len → ℝ)
    (inc : T2 p.dim) (C : ℝ) : Prop :=
  ∃ L : T2 p.dim →L[ℝ] Vmf p, HasFDerivAt stress L inc ∧
    ∀ d i, |∑ j, T i j * mf p d j - L d i| ≤ C * norm6 (increment3D p d)

/-- Stress stored by a batched state update of the von Mises model, as a function of the strain
increment (zero after a failure). -/
def updatedStressBatched (p : PType) (E v : ℝ) (law : HardLaw) (old : VMState p) (inc : T2 p.dim) :
    Vmf p :=
  match (vmapUpdate p E v law inc old).1 with
  | .good s => s.stress
  | .nan _ => 0

/-- Stress stored by a batched state update of the Drucker-Prager model, as a function of the strain
increment (zero after a failure). -/
def updatedStressBatchedDP (p : PType) (m : DPParams) (law : HardLaw) (old : DPState p)
    (inc : T2 p.dim) : Vmf p :=
  match (dpVmapUpdate p m law inc old).1 with
  | .good s => s.stress
  | .nan _ => 0

end Hooke.Spec
