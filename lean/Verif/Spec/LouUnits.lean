import Verif.Model.LouVMAP
import Verif.Spec.Units

/-!
# Specification: a material of the Lou-Zhang-Yoon model in another unit of stress
-/

noncomputable section

namespace Hooke.Spec

/-- A material of the Lou-Zhang-Yoon model with the stresses in another unit: the Young modulus and the yield
stress are stresses, Poisson's ratio and the yield parameters are numbers. -/
def unitLou (k : ℝ) (m : LouParams) : LouParams := { m with E := k * m.E, y := unitLaw k m.y }

end Hooke.Spec
