import Verif.Model.Voigt
import Verif.Model.Quadrature
import Mathlib.LinearAlgebra.Matrix.NonsingularInverse

/-!
# Model of `simulators/fetorch/element/derivatives/{jacobian,gradients}.py`
-/

noncomputable section

namespace Hooke

/-- A `torch.Tensor(2d)` with the entries of a matrix. -/
def Tensor.ofFin2 {a b : ℕ} (f : Fin a → Fin b → ℝ) : Tensor :=
  ⟨[a, b], fun idx => if h : idx.getD 0 0 < a ∧ idx.getD 1 0 < b then
    f ⟨idx.getD 0 0, h.1⟩ ⟨idx.getD 1 0, h.2⟩ else 0⟩

/-- `torch.matmul(a, v)` of a matrix and a vector. -/
def Tensor.matVec (a v : Tensor) : Py Tensor :=
  match a.shape, v.shape with
  | [m, k], [k'] =>
    if k ≠ k' then .error .runtimeError
    else .ok ⟨[m], fun idx => ∑ p ∈ Finset.range k, a.val [idx.getD 0 0, p] * v.val [p]⟩
  | _, _ => .error .runtimeError

/-- `a.T` of a matrix. -/
def Tensor.transpose (a : Tensor) : Tensor :=
  ⟨[a.shape.getD 1 0, a.shape.getD 0 0], fun idx => a.val [idx.getD 1 0, idx.getD 0 0]⟩

/-- `a.flatten()` of a matrix with rows of length `k` (row-major). -/
def Tensor.flatten2 (a : Tensor) : Tensor :=
  ⟨[a.shape.getD 0 0 * a.shape.getD 1 0], fun idx =>
    a.val [idx.getD 0 0 / a.shape.getD 1 0, idx.getD 0 0 % a.shape.getD 1 0]⟩

/-- `eval_jacobian`, jacobian.py:22-66, first output (line 56): local derivatives
transposed times nodal coordinates. -/
def ElementType.jacobian (e : ElementType) (X : Fin e.nNode → Fin e.dim → ℝ)
    (c : Fin e.dim → ℝ) : Matrix (Fin e.dim) (Fin e.dim) ℝ :=
  (Matrix.of (e.localDeriv c)).transpose * Matrix.of X

/-- `eval_jacobian`, jacobian.py:22-66: Jacobian, its determinant and the local
derivatives; the optional determinant check of lines 61-64. -/
def ElementType.evalJacobian (e : ElementType) (X : Fin e.nNode → Fin e.dim → ℝ)
    (c : Fin e.dim → ℝ) (isCheckDet : Bool := false) :
    Py (Matrix (Fin e.dim) (Fin e.dim) ℝ × ℝ × (Fin e.nNode → Fin e.dim → ℝ)) :=
  let J := e.jacobian X c
  if isCheckDet ∧ J.det ≤ 0 then .error .runtimeError
  else .ok (J, J.det, e.localDeriv c)

/-- `eval_shapefun_deriv`, gradients.py:37-71: `(J⁻¹ · dNᵀ)ᵀ` (line 69), the Jacobian
and its determinant.  `torch.inverse` raises on a singular matrix. -/
def ElementType.evalShapefunDeriv (e : ElementType) (X : Fin e.nNode → Fin e.dim → ℝ)
    (c : Fin e.dim → ℝ) :
    Py (Tensor × Matrix (Fin e.dim) (Fin e.dim) ℝ × ℝ) := do
  let (J, det, dN) ← e.evalJacobian X c
  if J.det = 0 then throw .runtimeError
  else
    return (Tensor.ofFin2 (fun i j => (J⁻¹ * (Matrix.of dN).transpose).transpose i j), J, det)

/-- Body of the loop of `build_discrete_sym_gradient`, gradients.py:109-125: the
assignments of component `c` (row `i`) for node `j`. -/
def gradSymStep (d : Tensor) (n j : ℕ) (g : Tensor) (ci : Comp × ℕ) : Tensor :=
  let c := ci.1
  let i := ci.2
  if c.i = c.j then g.set [i, j * n + c.i] (d.val [j, c.i])
  else (g.set [i, j * n + c.j] (d.val [j, c.i])).set [i, j * n + c.i] (d.val [j, c.j])

/-- `build_discrete_sym_gradient`, gradients.py:73-126.  Components that are not two
digits in `1..n_dof_node` raise `IndexError` (digit `0`, a negative Python index, is
outside the model). -/
def buildDiscreteSymGradient (d : Tensor) (co : List Comp) : Py Tensor := do
  match d.shape with
  | [m, n] =>
    if 2 * co.length ≠ n * (n + 1) then throw .runtimeError
    else if badDigit n co ∨ badLength co then throw .indexError
    else
      return (List.range m).foldl (fun g j => co.zipIdx.foldl (gradSymStep d n j) g)
          (Tensor.zeros [co.length, m * n])
  | _ => throw .valueError

/-- Index of `vbuild_discrete_sym_gradient`, gradients.py:165-175, for displacement
direction `i` (from 1) and component `c`. -/
def vgradSymIndex (i : ℕ) (c : Comp) : ℕ :=
  if i ∈ c then
    if c.getD 0 0 = c.getD 1 0 then i
    else (c.filter (fun x => x ≠ i)).getD 0 0
  else 0

/-- `index_mapping` of `vbuild_discrete_sym_gradient`, gradients.py:160-176. -/
def vgradSymMapping (n : ℕ) (co : List Comp) : List ℕ :=
  (List.range n).flatMap (fun i => co.map (vgradSymIndex (i + 1)))

/-- Row `j` of `mapping_values`, gradients.py:178-180, 296-298: a zero followed by the
derivatives of shape function `j`. -/
def mappingValue (d : Tensor) (j k : ℕ) : ℝ := if k = 0 then 0 else d.val [j, k - 1]

/-- Concatenation over the nodes of `mapping_values[j][index_mapping].reshape(-1,
n_comps).t()`, gradients.py:182-186, 300-302. -/
def mappedGradient (d : Tensor) (m n : ℕ) (co : List Comp) (mapping : List ℕ) : Tensor :=
  ⟨[co.length, m * n], fun idx =>
    mappingValue d (idx.getD 1 0 / n) (mapping.getD (idx.getD 1 0 % n * co.length + idx.getD 0 0) 0)⟩

/-- `vbuild_discrete_sym_gradient`, gradients.py:128-187.  Components of another length
than two are outside the model (error). -/
def vbuildDiscreteSymGradient (d : Tensor) (co : List Comp) : Py Tensor := do
  match d.shape with
  | [m, n] =>
    if 2 * co.length ≠ n * (n + 1) then throw .runtimeError
    else if badLength co then throw .indexError
    else if (vgradSymMapping n co).any (fun k => n < k) then throw .indexError
    else return mappedGradient d m n co (vgradSymMapping n co)
  | _ => throw .valueError

/-- Default component order of `build_discrete_gradient`, gradients.py:212-217. -/
def defaultNsym (n : ℕ) : List Comp :=
  if n = 2 then [[1,1],[2,1],[1,2],[2,2]]
  else [[1,1],[2,1],[3,1],[1,2],[2,2],[3,2],[1,3],[2,3],[3,3]]

/-- Body of the loop of `build_discrete_gradient`, gradients.py:235-238. -/
def gradStep (d : Tensor) (n j : ℕ) (g : Tensor) (ci : Comp × ℕ) : Tensor :=
  g.set [ci.2, j * n + ci.1.i] (d.val [j, ci.1.j])

/-- `build_discrete_gradient`, gradients.py:189-240. -/
def buildDiscreteGradient (d : Tensor) (co : Option (List Comp)) : Py Tensor := do
  match d.shape with
  | [m, n] =>
    let co := co.getD (defaultNsym n)
    if co.length ≠ n ^ 2 then throw .runtimeError
    else if badDigit n co ∨ badLength co then throw .indexError
    else
      return (List.range m).foldl (fun g j => co.zipIdx.foldl (gradStep d n j) g)
          (Tensor.zeros [co.length, m * n])
  | _ => throw .valueError

/-- Index of `vbuild_discrete_gradient`, gradients.py:286-291. -/
def vgradIndex (i : ℕ) (c : Comp) : ℕ := if i = c.getD 0 0 then c.getD 1 0 else 0

/-- `vbuild_discrete_gradient`, gradients.py:242-304. -/
def vbuildDiscreteGradient (d : Tensor) (co : Option (List Comp)) : Py Tensor := do
  match d.shape with
  | [m, n] =>
    let co := co.getD (defaultNsym n)
    let mapping := (List.range n).flatMap (fun i => co.map (vgradIndex (i + 1)))
    if co.length ≠ n ^ 2 then throw .runtimeError
    else if badLength co then throw .indexError
    else if mapping.any (fun k => n < k) then throw .indexError
    else return mappedGradient d m n co mapping
  | _ => throw .valueError

/-- `compute_infinitesimal_inc_strain` and `compute_infinitesimal_strain`,
internal_forces.py:148-194 (same body). -/
def computeInfinitesimalStrain (g u : Tensor) : Py Tensor := g.matVec u.flatten2

end Hooke
