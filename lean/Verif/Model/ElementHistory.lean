import Verif.Model.InternalForces

/-!
# Model of the time loop of `forward_sequential_time` for one element,
`material_model_finder/model/material_discovery.py`
-/

noncomputable section

namespace Hooke

/-- States that the next increment starts from: `update_element_state` and
`update_converged_elements_state`, material_discovery.py:971-973 and 982.  A Gauss point without a new state
has none afterwards. -/
def carriedState {σ : Type} (state : GpDict (Option σ)) : GpDict σ := fun k => (state k).join

/-- The increments of one element, material_discovery.py:928-982: `us` are the increments of the nodal
displacements, computed in lines 944-952, and `X` the nodal coordinates, which do not change in small strains
(lines 919-920).  Returns the internal forces after every increment and the last states. -/
def elementForcesOverTime {σ : Type} (sf : StrainFormulation) (problemType : ℕ) (e : ElementType) (nGauss : ℕ)
    (rule : GaussRule e.dim) (mat : Material σ) (X : Fin e.nNode → Fin e.dim → ℝ) :
    List Tensor → GpDict σ → Py (List Tensor × GpDict σ)
  | [], st => .ok ([], st)
  | u :: us, st => do
    let r ← computeElementInternalForces sf problemType e nGauss rule mat st X u
    let rest ← elementForcesOverTime sf problemType e nGauss rule mat X us (carriedState r.state)
    return (r.forces :: rest.1, rest.2)

end Hooke
