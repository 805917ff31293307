import Verif.Model.FinderForward
import Verif.Spec.Mesh

/-!
# Specification vocabulary of the element-wise forward propagation
-/

noncomputable section

namespace Hooke.Spec

/-- A recurrent model whose inputs and outputs are not normalised, whose material parameters are
synchronised, and whose output has one row of at least the stress components for each time. -/
structure PlainModel (co : List Comp) (M : RecMaterial) : Prop where
  noIn : M.normIn = none
  noOut : M.denormOut = none
  synced : M.run true = M.run false
  rows : ∀ fin fout, M.run false fin = .ok fout →
    fout.length = fin.length ∧ ∀ r ∈ fout, co.length ≤ r.length

/-- A specimen of equal elements: a valid mesh whose elements have the same quadrature rule and the
same plain model, undeformed coordinates, at least one time, and the pointwise loss with the flags
of the mesh as boundary conditions of the first time. -/
structure UniformSpecimen {e : ElementType} {N T : ℕ} (co : List Comp) (S : FinderSpec e N e.dim T) :
    Prop where
  valid : ValidMesh S.mesh
  nNode : S.mesh.nNode = N
  nonempty : S.mesh.conn ≠ []
  equal : ∀ c ∈ S.mesh.conn, c.length = e.nNode
  coords : S.config.coords = S.config.coordsInit ∧ S.config.coordsOld = S.config.coordsInit
  points : S.rules 1 ≠ []
  rules : ∀ k, IsElement S.mesh k → S.rules k = S.rules 1
  mats : ∀ k, IsElement S.mesh k → S.mats k = S.mats 1
  plain : PlainModel co (S.mats 1)
  times : 0 < T
  pointwise : S.cfg.lossType = .pointwise
  flags : ∀ h : 0 < T, S.bc ⟨0, h⟩ = S.flags

/-- A specimen for which both element-wise modes are meant: its elements are equal and, if local
paths are requested for listed elements, the list is an increasing list of element labels. -/
structure ElementWise {e : ElementType} {N T : ℕ} (co : List Comp) (S : FinderSpec e N e.dim T) :
    Prop extends UniformSpecimen co S where
  paths : ∀ l, S.paths = some (some l) →
    l.Pairwise (· < ·) ∧ ∀ x ∈ l, 1 ≤ x ∧ x ≤ (S.mesh.conn.length : ℤ)

/-- The map from reference to physical coordinates is invertible at every integration point of every
element. -/
def Nonsingular {e : ElementType} {N n T : ℕ} (S : FinderSpec e N n T) : Prop :=
  ∀ k, IsElement S.mesh k → ∀ cw ∈ S.rules k,
    (e.jacobian (fun a d => S.config.coordsInit ((nodes S.mesh k).getD a 0 - 1) d) cw.1).det ≠ 0

end Hooke.Spec
