import Verif.Model.Py
import Verif.Spec.Kelvin
import Mathlib.Algebra.BigOperators.Group.Finset.Basic

/-!
# Independent vocabulary: displacement gradients and strains
-/

noncomputable section

namespace Hooke.Spec

/-- Gradient `∂u_i/∂x_j` of the field `Σ_a N_a u_a` interpolated over `m` nodes, from
the table `d[a, j] = ∂N_a/∂x_j` and the nodal values `u[a, i]`. -/
def dispGrad (m : ℕ) (d u : Tensor) (i j : ℕ) : ℝ :=
  ∑ a ∈ Finset.range m, u.val [a, i] * d.val [a, j]

/-- Infinitesimal strain tensor: symmetric part of the displacement gradient. -/
def strainTensor (m n : ℕ) (d u : Tensor) : Tensor :=
  ⟨[n, n], fun idx => (dispGrad m d u (idx.getD 0 0) (idx.getD 1 0) +
    dispGrad m d u (idx.getD 1 0) (idx.getD 0 0)) / 2⟩

end Hooke.Spec
