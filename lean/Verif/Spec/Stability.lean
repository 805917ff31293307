import Verif.Spec.Dissipation

/-!
# Specification of the sensitivity of the response to its history
-/

noncomputable section

namespace Hooke.Spec

/-- Energy norm of a strain: the root of twice its elastic energy. -/
def energyNorm (E v : ℝ) (e : V6) : ℝ := √(inner6 (hooke6 (lame E v) (shear E v) e) e)

/-- Distance of two states of a material with the hardening modulus `a`: the root of twice the energy of
the differences of the elastic strains and of the accumulated plastic strains. -/
def stateDistance {p : PType} (E v a : ℝ) (s t : VMState p) : ℝ :=
  √(inner6 (hooke6 (lame E v) (shear E v) fun k => elastic3D s k - elastic3D t k)
    (fun k => elastic3D s k - elastic3D t k) + a * (s.acc - t.acc) ^ 2)

/-- How far two histories of strain increments are apart: the sum of the energy norms of the differences of
their increments. -/
def historyDistance {p : PType} (E v : ℝ) (l m : List (T2 p.dim)) : ℝ :=
  (List.zipWith (fun i j => energyNorm E v (increment3D p (i - j))) l m).sum

end Hooke.Spec
