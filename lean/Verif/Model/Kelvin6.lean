import Verif.Model.Tensorops
import Verif.Model.Matrixops
import Mathlib.Data.Fin.VecNotation
import Mathlib.Data.Real.Sqrt

/-!
# Matricial forms used by the constitutive models

The constitutive models of `simulators/fetorch/material/models` only accept the
problem types 1 (plane strain) and 4 (3D), whose component orders are fixed
(matrixops.py:70-80).  Here the matricial forms of these two problem types are
vectors indexed by `Fin 3` and `Fin 6`; `Lemmas/Kelvin6.lean` proves that the
functions of this file are the functions of `Model/Matrixops.lean` (which model
the code for every component order) on these two orders.
-/

noncomputable section

namespace Hooke

/-- Problem types accepted by `get_problem_type_parameters`, matrixops.py:70-80. -/
inductive PType | plane | solid
  deriving DecidableEq

/-- `n_dim`. -/
@[reducible] def PType.dim : PType → ℕ | .plane => 2 | .solid => 3
/-- `len(comp_order_sym)`. -/
@[reducible] def PType.len : PType → ℕ | .plane => 3 | .solid => 6

/-- Matricial form of a symmetric 3D tensor, order 11, 22, 33, 12, 23, 13. -/
abbrev V6 := Fin 6 → ℝ
/-- Matricial form of a fourth-order tensor. -/
abbrev M6 := Fin 6 → Fin 6 → ℝ
/-- Matricial form of a symmetric second-order tensor of a problem type. -/
abbrev Vmf (p : PType) := Fin p.len → ℝ

/-- First index of the components of `comp_order_sym` (3D). -/
def ci : Fin 6 → Fin 3 := ![0, 1, 2, 0, 1, 0]
/-- Second index of the components of `comp_order_sym` (3D). -/
def cj : Fin 6 → Fin 3 := ![0, 1, 2, 1, 2, 2]
/-- Kelvin factors of the components of `comp_order_sym` (3D), matrixops.py:278-283. -/
def kf : Fin 6 → ℝ := ![1, 1, 1, √2, √2, √2]

/-- `vget_tensor_mf` of a second-order tensor (3D), matrixops.py:275-289. -/
def kel6 (t : T2 3) : V6 := fun k => t (ci k) (cj k) * kf k
/-- `vget_tensor_mf` of a fourth-order tensor (3D), matrixops.py:290-304. -/
def kel66 (t : T4 3) : M6 := fun k l => t (ci k) (cj k) (ci l) (cj l) * (kf k * kf l)

/-- Position of the component `i, j` in `comp_order_sym` (3D). -/
def pos6 : Fin 3 → Fin 3 → Fin 6 := ![![0, 3, 5], ![3, 1, 4], ![5, 4, 2]]
/-- `vget_tensor_from_mf` of a second-order tensor (3D), matrixops.py:535-552. -/
def unkel6 (v : V6) : T2 3 := fun i j => v (pos6 i j) * (1 / kf (pos6 i j))

/-- `vget_tensor_mf` of the strain increment of a problem type, matrixops.py:275-289. -/
def mf : (p : PType) → T2 p.dim → Vmf p
  | .plane, t => ![t 0 0, t 1 1, t 0 1 * √2]
  | .solid, t => kel6 t

/-- `vget_state_3Dmf_from_2Dmf` for problem type 1, nothing for problem type 4,
matrixops.py:685-732. -/
def to3D : (p : PType) → Vmf p → ℝ → V6
  | .plane, v, c33 => ![v 0, v 1, c33, v 2, 0, 0]
  | .solid, v, _ => v

/-- `vget_state_2Dmf_from_3Dmf` for problem type 1, nothing for problem type 4,
matrixops.py:788-826. -/
def to2D : (p : PType) → V6 → Vmf p
  | .plane, v => ![v 0, v 1, v 3]
  | .solid, v => v

/-- Tangent reduced by `vget_state_2Dmf_from_3Dmf`, matrixops.py:820-826. -/
def to2DM : (p : PType) → M6 → (Fin p.len → Fin p.len → ℝ)
  | .plane, m => fun i j => m ((![0, 1, 3] : Fin 3 → Fin 6) i) ((![0, 1, 3] : Fin 3 → Fin 6) j)
  | .solid, m => m

/-- `x_mf[comp_order_sym.index('33')]`, only read for problem type 1; no such
state variable for problem type 4, represented by 0. -/
def get33 : (p : PType) → V6 → ℝ
  | .plane, v => v 2
  | .solid, _ => 0

/-- `torch.matmul(m, v)`. -/
def mv6 (m : M6) (v : V6) : V6 := fun i => ∑ j, m i j * v j

/-- `torch.norm(v)`. -/
def norm6 (v : V6) : ℝ := √(∑ i, v i ^ 2)

/-- `lam*fodiagtrace + 2.0*miu*fosym`, e.g. elastic.py:420, von_mises.py:364. -/
def isoTensor (lam miu : ℝ) : T4 3 := fun i j k l =>
  lam * (getIdOperators 3).fodiagtrace i j k l + 2 * miu * (getIdOperators 3).fosym i j k l

end Hooke
