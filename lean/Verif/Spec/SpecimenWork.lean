import Verif.Model.ElementHistory
import Verif.Spec.FrameForces

/-!
# Specification: the work done on a specimen
-/

noncomputable section

namespace Hooke.Spec

/-- A material that cannot give energy: in every step from a state that satisfies `inv`, the work of the
stress at the end of the step on the strain increment is at least the increase of a stored energy, which is
not negative. -/
structure Passive {σ : Type} (mat : Material σ) (n : ℕ) (co : List Comp) (inv : σ → Prop) (energy : σ → ℝ) :
    Prop where
  update : ∀ inc s new rest t, IsSym2 n inc → inv s → mat.stateUpdate inc s = .ok (new, rest) →
    getTensorFromMf (mat.stressMf new) n co true = .ok t →
    inv new ∧ energy new - energy s ≤ ∑ i : Fin n, ∑ j : Fin n, tens2 n t i j * tens2 n inc i j
  nonneg : ∀ s, inv s → 0 ≤ energy s

/-- Work of the element forces after each increment on the displacements of the increment. -/
def elementWork (m n : ℕ) (fs us : List Tensor) : ℝ :=
  ((fs.zip us).map fun fu => ∑ a ∈ Finset.range m, ∑ q ∈ Finset.range n,
    fu.1.val [a * n + q] * fu.2.val [a, q]).sum

/-- Energy stored in an element: that of its Gauss points, times weight and Jacobian determinant. -/
def elementEnergy {σ : Type} (energy : σ → ℝ) (e : ElementType) (rule : GaussRule e.dim)
    (X : Fin e.nNode → Fin e.dim → ℝ) (st : GpDict σ) : ℝ :=
  ∑ g : Fin rule.length, rule[g].2 * (e.jacobian X rule[g].1).det * ((st (g + 1)).map energy).getD 0

end Hooke.Spec
