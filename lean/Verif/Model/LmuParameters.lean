import Verif.Model.Hardening
import Verif.Model.StrainPath
import Mathlib.Analysis.SpecialFunctions.Exp

/-!
# Material parameters for a temperature and a composition

Model of `get_model_parameters` and `polynomial`
(user_scripts/complete_pipelines/local_model_update.py:831-940) over the real numbers.
-/

noncomputable section

namespace Hooke

/-- `polynomial`, local_model_update.py:919-940. -/
def pyPolynomial (cs : List ℝ) (x : ℝ) : ℝ := (cs.zipIdx.map fun c => c.1 * x ^ c.2).sum

/-- Parameters returned by `get_model_parameters` (the elastic symmetry is isotropic, the Euler angles
are zero and the hardening law is piecewise linear). -/
structure TcParams where
  young : ℝ
  poisson : ℝ
  points : List (ℝ × ℝ)

open Classical in
/-- `get_model_parameters`, local_model_update.py:831-917. -/
def tcParameters (name : String) (temperature composition : ℝ) : Py TcParams :=
  if name = "von_mises" then
    if temperature < 25 ∨ temperature > 625 then .error .runtimeError
    else if composition < 0 ∨ composition > 1 then .error .runtimeError
    else
      let tn := (temperature - 325) / 180.606
      let cn := (composition - 0.5) / 0.3168
      let young := (pyPolynomial [135.546, 20.186] cn + pyPolynomial [-8.489, 0.936] cn * tn) * 10 ^ 3
      let shear := (pyPolynomial [52.891, 8.843] cn + pyPolynomial [-3.340, 0.405] cn * tn) * 10 ^ 3
      let poisson := young / (2 * shear) - 1
      let s0 := pyPolynomial [25.107, -47.582, 39.738] cn *
          Real.exp (-pyPolynomial [0.883, 0.018, -0.091] cn * tn)
        + pyPolynomial [541.225, -74.391, -121.669, 29.518, 20.025] cn
      let s1 := pyPolynomial [7253.7, 2213.1] cn + pyPolynomial [-68.7, -57.7] cn * tn
      .ok ⟨young, poisson, (npLinspace 0 2 1000).map fun x => (x, s0 + s1 * x)⟩
  else .error .runtimeError

end Hooke
