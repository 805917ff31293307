import Verif.Spec.Elastic
import Verif.Model.Hybrid
import Mathlib.Algebra.Polynomial.Eval.Degree

/-!
# Specification of the layers of hybrid models
-/

noncomputable section

namespace Hooke.Spec

/-- The feature vector of a symmetric tensor: its independent components, without factors. -/
def featuresOf : (p : PType) → T2 p.dim → List ℝ
  | .plane, t => [t 0 0, t 1 1, t 0 1]
  | .solid, t => [t 0 0, t 1 1, t 2 2, t 0 1, t 1 2, t 0 2]

/-- The stress of a strain under plane strain or 3D conditions, for a 3D stress function. -/
def stressOf (p : PType) (s : T2 3 → T2 3) (e : T2 p.dim) : T2 p.dim := inPlane p (s (embed p e))

/-- Spherical tensor. -/
def sphere (v : ℝ) : T2 3 := fun i j => if i = j then v else 0

end Hooke.Spec
