import Verif.Model.LearnableParameters

/-!
# Specification: learnable parameters
-/

namespace Hooke.Spec

/-- Isotropic elasticity and isotropic hardening parameters: name, group and key of the material
parameter they set. -/
def commonLocations : List (String × String × String) :=
  [("E", "", "E"), ("v", "", "v"), ("s0", "hardening_parameters", "s0"),
   ("a", "hardening_parameters", "a"), ("b", "hardening_parameters", "b")]

/-- The learnable parameters of each material model, with the group and key of the material
parameter each sets (`""` for the top level). -/
def locations (material : String) : List (String × String × String) :=
  if material = "elastic" then [("E", "", "E"), ("v", "", "v")]
  else if material = "von_mises" ∨ material = "von_mises_vmap" then commonLocations
  else if material = "von_mises_mixed" ∨ material = "von_mises_mixed_vmap" then
    commonLocations ++
      [("kin_s0", "kinematic_hardening_parameters", "s0"),
       ("kin_a", "kinematic_hardening_parameters", "a"),
       ("kin_b", "kinematic_hardening_parameters", "b")]
  else if material = "drucker_prager" ∨ material = "drucker_prager_vmap" then
    commonLocations ++
      [("yield_cohesion_parameter", "", "yield_cohesion_parameter"),
       ("yield_pressure_parameter", "", "yield_pressure_parameter"),
       ("flow_pressure_parameter", "", "flow_pressure_parameter"),
       ("friction_angle", "", "friction_angle")]
  else if material = "lou_zhang_yoon" ∨ material = "lou_zhang_yoon_vmap" then
    commonLocations ++
      [("yield_a_s0", "a_hardening_parameters", "s0"), ("yield_a_a", "a_hardening_parameters", "a"),
       ("yield_a_b", "a_hardening_parameters", "b"), ("yield_b_s0", "b_hardening_parameters", "s0"),
       ("yield_b_a", "b_hardening_parameters", "a"), ("yield_b_b", "b_hardening_parameters", "b"),
       ("yield_c_s0", "c_hardening_parameters", "s0"), ("yield_c_a", "c_hardening_parameters", "a"),
       ("yield_c_b", "c_hardening_parameters", "b"), ("yield_d_s0", "d_hardening_parameters", "s0"),
       ("yield_d_a", "d_hardening_parameters", "a"), ("yield_d_b", "d_hardening_parameters", "b")]
  else []

/-- `param` is a learnable parameter of `material`, and it sets the material parameter `loc`. -/
def SetsLocation (material param : String) (loc : String × String) : Prop :=
  (param, loc) ∈ locations material

/-- The point halves and half-ranges of an interval: the normalised coordinate of `x` in
`[lo, hi]`, `-1` at `lo` and `1` at `hi`. -/
noncomputable def normCoord (lo hi x : ℝ) : ℝ := (x - (lo + hi) / 2) / ((hi - lo) / 2)

end Hooke.Spec
