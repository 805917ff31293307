import Verif.Model.Gradients
import Verif.Model.PyUtil

/-!
# Volumetric strain averaging of `material_model_finder/model/material_discovery.py`

The expansion and reduction of discrete symmetric gradients between two and three dimensions
(gradients.py:306-401) and the averaged volumetric operator.  One time of the history is modelled
(the code batches over time with `torch.vmap`).
-/

noncomputable section

namespace Hooke

/-- `vexpand_grad_operator_sym_2d_to_3d`, gradients.py:306-354.  `view` raises when the number of
columns is odd; row indexing raises when there are fewer than three rows. -/
def expandGradSym2d3d (g : Tensor) : Py Tensor :=
  match g.shape with
  | [nc, c] =>
    if c ≠ c / 2 * 2 then .error .runtimeError
    else if nc < 3 then .error .indexError
    else .ok ⟨[sym3d.length, 3 * (c / 2)], fun idx =>
      let comp := sym3d.getD (idx.getD 0 0) []
      let q := idx.getD 1 0
      if comp ∈ sym2d then
        if q % 3 < 2 then g.val [sym2d.idxOf comp, q / 3 * 2 + q % 3] else 0
      else 0⟩
  | _ => .error .runtimeError

/-- `vreduce_grad_operator_sym_3d_to_2d`, gradients.py:356-401. -/
def reduceGradSym3d2d (g : Tensor) : Py Tensor :=
  match g.shape with
  | [nc, c] =>
    if c ≠ c / 3 * 3 then .error .runtimeError
    else if nc < 4 then .error .indexError
    else .ok ⟨[sym2d.length, 2 * (c / 3)], fun idx =>
      let comp := sym2d.getD (idx.getD 0 0) []
      let q := idx.getD 1 0
      g.val [sym3d.idxOf comp, q / 2 * 3 + q % 2]⟩
  | _ => .error .runtimeError

/-- `torch.matmul` of a square matrix of `k` rows with an operator. -/
def projMul (k : ℕ) (P : ℕ → ℕ → ℝ) (g : Tensor) : Py Tensor :=
  match g.shape with
  | [nc, c] =>
    if nc ≠ k then .error .runtimeError
    else .ok ⟨[k, c], fun idx => ∑ p ∈ Finset.range k, P (idx.getD 0 0) p * g.val [p, idx.getD 1 0]⟩
  | _ => .error .runtimeError

/-- `vexpand...` when `n_dim == 2` (material_discovery.py:2155-2158, 2438-2441). -/
def expandIf2d (n : ℕ) (g : Tensor) : Py Tensor := if n = 2 then expandGradSym2d3d g else .ok g

/-- `vreduce...` when `n_dim == 2` (material_discovery.py:2170-2173, 2453-2456). -/
def reduceIf2d (n : ℕ) (g : Tensor) : Py Tensor := if n = 2 then reduceGradSym3d2d g else .ok g

/-- `vcompute_local_vol_sym_gradient`, material_discovery.py:2136-2175. -/
def localVolSymGradient (g : Tensor) (n : ℕ) : Py Tensor := do
  let g ← expandIf2d n g
  let (_, co, _) ← getProblemTypeParameters 4
  let (V, _) ← getProjectionTensorsVmf 3 co
  let h ← projMul co.length V g
  reduceIf2d n h

/-- `vcompute_local_dev_sym_gradient`, material_discovery.py:2419-2458: here the projection is built
with `n_dim`. -/
def localDevSymGradient (g : Tensor) (n : ℕ) : Py Tensor := do
  let g ← expandIf2d n g
  let (_, co, _) ← getProblemTypeParameters 4
  let (_, D) ← getProjectionTensorsVmf n co
  let h ← projMul co.length D g
  reduceIf2d n h

/-- What `eval_shapefun_deriv` and the quadrature give at a Gauss point: weight, derivatives of the
shape functions, Jacobian determinant. -/
structure GaussData where
  weight : ℝ
  deriv : Tensor
  det : ℝ

/-- `vcompute_local_vol_grad_operator_hist`, material_discovery.py:2015-2090 (infinitesimal strains):
volumetric gradient operator times the volume of the Gauss point, and that volume. -/
def localVolGradOperator (problemType : ℕ) (p : GaussData) : Py (Tensor × ℝ) := do
  let (n, co, _) ← getProblemTypeParameters problemType
  let g ← vbuildDiscreteSymGradient p.deriv co
  let h ← localVolSymGradient g n
  pure (⟨h.shape, fun idx => p.weight * (h.val idx * p.det)⟩, p.weight * p.det)

/-- `vcompute_element_vol_grad_hist`, material_discovery.py:1952-2013: the sums over the Gauss points
divided by each other.  A zero volume (infinite or undefined values in the code) is outside the model.
-/
def elementVolGrad (problemType : ℕ) (gps : List GaussData) : Py Tensor := do
  let l ← gps.mapM (localVolGradOperator problemType)
  let first ← orRaise l.head? .runtimeError
  let vol := (l.map Prod.snd).sum
  pure ⟨first.1.shape, fun idx => 1 / vol * (l.map fun r => r.1.val idx).sum⟩

/-- Sum of two operators of the same shape. -/
def addOperators (a b : Tensor) : Py Tensor :=
  if a.shape ≠ b.shape then .error .runtimeError else .ok ⟨a.shape, fun idx => a.val idx + b.val idx⟩

/-- `vcompute_local_strain_vbar`, material_discovery.py:2353-2417 (infinitesimal strains), up to the
Voigt vector of the strain; also the operator (second output). -/
def localStrainVbar (problemType : ℕ) (avg : Tensor) (p : GaussData) (u : Tensor) : Py (Tensor × Tensor) := do
  let (n, co, _) ← getProblemTypeParameters problemType
  let g ← vbuildDiscreteSymGradient p.deriv co
  let dev ← localDevSymGradient g n
  let bar ← addOperators avg dev
  let v ← computeInfinitesimalStrain bar u
  pure (v, bar)

end Hooke
