import Verif.Model.Elements
import Verif.Model.PyUtil

/-! # Model: self-check of an element (simulators/fetorch/element/type/interface.py:256-314) -/

noncomputable section

namespace Hooke

/-- What the self-check uses of an element: `_nodes_local_coords`, `eval_shapefun` and
`eval_shapefun_local_deriv`, with any number of nodes and degrees of freedom per node. -/
structure ElementFuns (n d : ℕ) where
  nodes : Fin n → Fin d → ℝ
  shapefun : (Fin d → ℝ) → Fin n → ℝ
  localDeriv : (Fin d → ℝ) → Fin n → Fin d → ℝ

/-- The eight elements. -/
def ElementType.funs (e : ElementType) : ElementFuns e.nNode e.dim :=
  ⟨e.nodes, e.shapefun, e.localDeriv⟩

/-- `torch.isclose(a, b, atol)` with the default relative tolerance `1e-5`. -/
def torchClose (a b atol : ℝ) : Prop := |a - b| ≤ atol + 1e-5 * |b|

instance (a b atol : ℝ) : Decidable (torchClose a b atol) := Classical.propDecidable _

/-- The two tests of a pair of nodes, interface.py:276-283 (default absolute tolerance `1e-8`). -/
def checkPair {n d : ℕ} (f : ElementFuns n d) (i j : Fin n) : Py Unit :=
  let s := f.shapefun (f.nodes i)
  if i = j ∧ ¬ torchClose (s j) 1 1e-8 then .error .runtimeError
  else if i ≠ j ∧ ¬ torchClose (s j) 0 1e-8 then .error .runtimeError
  else .ok ()

/-- A loop over a list that ends at the first exception. -/
def loopOver {α : Type} (body : α → Py Unit) : List α → Py Unit
  | [] => .ok ()
  | x :: xs => body x >>= fun _ => loopOver body xs

/-- `check_shape_functions_properties`, interface.py:256-314, without the output; `c1` and `c2` are
the two random points (290, 304). -/
def checkShape {n d : ℕ} (f : ElementFuns n d) (c1 c2 : Fin d → ℝ) : Py Unit := do
  loopOver (fun i => loopOver (checkPair f i) (List.finRange n)) (List.finRange n)
  raiseIf (¬ torchClose (∑ j, f.shapefun c1 j) 1 1e-8) .runtimeError
  raiseIf (¬ torchClose (∑ j, ∑ k, f.localDeriv c2 j k) 0 1e-5) .runtimeError

end Hooke
