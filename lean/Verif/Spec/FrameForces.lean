import Verif.Model.InternalForces
import Verif.Model.ForceEquilibrium
import Verif.Spec.Mesh
import Verif.Spec.Objectivity
import Verif.Spec.Kelvin
import Mathlib.LinearAlgebra.Matrix.Determinant.Basic

/-!
# Specification: turned and moved specimens, renumbered meshes
-/

noncomputable section

namespace Hooke.Spec

/-- The components of a second-order tensor of dimension `n`. -/
def tens2 (n : ℕ) (t : Tensor) : T2 n := fun i j => t.val [i, j]

/-- A rotation of the axes, without reflection. -/
structure IsRotation {n : ℕ} (Q : T2 n) : Prop where
  orthogonal : IsOrthogonal Q
  det_one : (Matrix.of Q).det = 1

/-- Coordinates of the nodes after a rotation about the origin and a translation. -/
def moved {m n : ℕ} (Q : T2 n) (t : Fin n → ℝ) (X : Fin m → Fin n → ℝ) : Fin m → Fin n → ℝ :=
  fun a i => t i + ∑ j, Q i j * X a j

/-- Nodal vectors `u'[a]` are the nodal vectors `u[a]` in the turned axes. -/
def TurnedNodal (m : ℕ) {n : ℕ} (Q : T2 n) (u u' : Tensor) : Prop :=
  ∀ (a : Fin m) (i : Fin n), u'.val [a, i] = ∑ j : Fin n, Q i j * u.val [a, j]

/-- A material without preferred directions, seen through its interface: `turn s s'` says that `s'` is the
state `s` in turned axes; turned strain increments of turned states lead to turned states, and the stress
of a turned state is the turned stress. -/
structure Isotropic {σ : Type} (mat : Material σ) (n : ℕ) (co : List Comp) (Q : T2 n)
    (turn : σ → σ → Prop) : Prop where
  update : ∀ inc inc' s s' new rest, IsSym2 n inc → IsSym2 n inc' →
    tens2 n inc' = rotate Q (tens2 n inc) → turn s s' → mat.stateUpdate inc s = .ok (new, rest) →
    ∃ new' rest', mat.stateUpdate inc' s' = .ok (new', rest') ∧ turn new new'
  stress : ∀ s s' t t', turn s s' → getTensorFromMf (mat.stressMf s) n co true = .ok t →
    getTensorFromMf (mat.stressMf s') n co true = .ok t' → tens2 n t' = rotate Q (tens2 n t)
  shape : ∀ s s', turn s s' → (mat.stressMf s').shape = (mat.stressMf s).shape

/-- The mesh in which the node with label `l` has the new label `ren l`. -/
def relabelledMesh (m : MeshTopology) (ren : ℕ → ℕ) : MeshTopology :=
  ⟨m.nNode, m.conn.map (List.map ren)⟩

/-- A renumbering of the nodes `1..N`: new labels are again `1..N`, and different nodes get different
labels. -/
structure IsRenumbering (N : ℕ) (ren : ℕ → ℕ) : Prop where
  range : ∀ l, 1 ≤ l → l ≤ N → 1 ≤ ren l ∧ ren l ≤ N
  inj : ∀ l l', 1 ≤ l → l ≤ N → 1 ≤ l' → l' ≤ N → ren l = ren l' → l = l'

end Hooke.Spec
