import Verif.Spec.Elastic
import Verif.Spec.Continuum
import Verif.Spec.Gradients
import Verif.Model.Gradients
import Verif.Model.Quadrature

/-!
# Specification: linear elasticity of one element
-/

noncomputable section

namespace Hooke.Spec

/-- Derivatives of the shape functions with respect to the coordinates, at the reference point `c` of an
element with nodes at `X`. -/
def derivTable (e : ElementType) (X : Fin e.nNode → Fin e.dim → ℝ) (c : Fin e.dim → ℝ) : Tensor :=
  Tensor.ofFin2 fun a j => ∑ k, (e.jacobian X c)⁻¹ j k * e.localDeriv c a k

/-- Strain at that point under the nodal displacements `u`. -/
def strainAt (e : ElementType) (X : Fin e.nNode → Fin e.dim → ℝ) (c : Fin e.dim → ℝ) (n : ℕ) (u : Tensor) :
    T2 n :=
  fun i j => (dispGrad e.nNode (derivTable e X c) u i j + dispGrad e.nNode (derivTable e X c) u j i) / 2

/-- Work of the stresses of Hooke's law under `u` on the strains under `w`, summed over the Gauss points with
weight and Jacobian determinant. -/
def elasticWork (p : PType) (E v : ℝ) (e : ElementType) (rule : GaussRule e.dim)
    (X : Fin e.nNode → Fin e.dim → ℝ) (u w : Tensor) : ℝ :=
  ∑ g : Fin rule.length, rule[g].2 * (e.jacobian X rule[g].1).det *
    ∑ i : Fin p.dim, ∑ j : Fin p.dim,
      inPlane p (hooke (lame E v) (shear E v) (embed p (strainAt e X rule[g].1 p.dim u))) i j *
        strainAt e X rule[g].1 p.dim w i j

/-- Nodal displacements after the increments `us`. -/
def totalDisp (m n : ℕ) (us : List Tensor) : Tensor :=
  ⟨[m, n], fun idx => (us.map fun u => u.val idx).sum⟩

/-- Number of a problem type. -/
def typeNumber : PType → ℕ
  | .plane => 1
  | .solid => 4

end Hooke.Spec
