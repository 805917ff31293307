import Verif.Spec.Continuum
import Verif.Model.Elastic

/-!
# Specification: linear elasticity

Stiffness tensors, their material symmetries, and what it means for a dictionary
of moduli to describe a stiffness tensor.
-/

namespace Hooke.Spec

/-- Minor and major symmetries of a stiffness tensor. -/
structure IsStiffness (C : T4 3) : Prop where
  left : ∀ i j k l, C i j k l = C j i k l
  right : ∀ i j k l, C i j k l = C i j l k
  major : ∀ i j k l, C i j k l = C k l i j

/-- `-1` for the axis `a`, `1` for the others. -/
def axisSign (a i : Fin 3) : ℝ := if i = a then -1 else 1

/-- The plane normal to the axis `a` is a plane of material symmetry: the
reflection of `a` leaves the stiffness unchanged. -/
def ReflectionInvariant (a : Fin 3) (C : T4 3) : Prop :=
  ∀ i j k l, axisSign a i * axisSign a j * axisSign a k * axisSign a l * C i j k l = C i j k l

/-- Stiffness tensors of each elastic symmetry (axes as in elastic.py: monoclinic
with symmetry plane normal to axis 3, transverse isotropy about axis 3). -/
def HasSymmetry : ElSym → T4 3 → Prop
  | .isotropic, C => ∃ lam G, ∀ i j k l, C i j k l =
      (if i = j ∧ k = l then lam else 0) + (if i = k ∧ j = l then G else 0)
        + (if i = l ∧ j = k then G else 0)
  | .transverse, C => (∀ a, ReflectionInvariant a C) ∧ C 0 0 0 0 = C 1 1 1 1 ∧
      C 0 0 2 2 = C 1 1 2 2 ∧ C 1 2 1 2 = C 0 2 0 2 ∧ C 0 1 0 1 = (C 0 0 0 0 - C 0 0 1 1) / 2
  | .orthotropic, C => ∀ a, ReflectionInvariant a C
  | .monoclinic, C => ReflectionInvariant 2 C
  | .triclinic, _ => True
  | .unknown, _ => False

/-- Axis named by a digit. -/
def axis : ℕ → Fin 3
  | 1 => 0
  | 2 => 1
  | _ => 2

/-- The entry of `C` named by a modulus `E` `ab` `cd`. -/
def entry (C : T4 3) (m : Modulus) : ℝ :=
  C (axis (m.1.getD 0 0)) (axis (m.1.getD 1 0)) (axis (m.2.getD 0 0)) (axis (m.2.getD 1 0))

/-- The dictionary holds the moduli required for the symmetry `s`, taken from `C`,
and not both technical constants in the isotropic case. -/
structure GivesModuli (d : Props) (s : ElSym) (C : T4 3) : Prop where
  present : ∀ req, requiredModuli s = some req → ∀ m ∈ req, d (.mod m) = some (entry C m)
  noTechnical : s = .isotropic → d .E = none ∨ d .v = none

end Hooke.Spec

namespace Hooke.Spec

/-- A strain tensor of a problem type as a 3D tensor: plane strain has no strain
out of the plane. -/
def embed : (p : PType) → T2 p.dim → T2 3
  | .plane, t => ![![t 0 0, t 0 1, 0], ![t 1 0, t 1 1, 0], ![0, 0, 0]]
  | .solid, t => t

/-- The in-plane (2D) part of a 3D tensor; the tensor itself in 3D. -/
def inPlane : (p : PType) → T2 3 → T2 p.dim
  | .plane, t => ![![t 0 0, t 0 1], ![t 1 0, t 1 1]]
  | .solid, t => t

/-- Symmetric tensor of a problem type. -/
def IsSymP (p : PType) (t : T2 p.dim) : Prop := ∀ i j, t i j = t j i

end Hooke.Spec
