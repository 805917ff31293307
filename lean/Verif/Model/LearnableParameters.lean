import Verif.Model.PyDict
import Verif.Model.Float
import Mathlib.Analysis.SpecialFunctions.Complex.Arg

/-!
# Learnable parameters of the recurrent constitutive model

`model_architectures/rc_base_model/model/recurrent_model.py`.  Parameter values are real numbers;
`torch.nn.Parameter`, gradients, dtype and device are not modelled.  An optimiser step is any change
of the values.
-/

namespace Hooke

noncomputable section

/-- The attributes of `RecurrentConstitutiveModel` that hold the learnable parameters:
`is_normalized_parameters`, `_model_parameters`, `_model_parameters_bounds` and
`_model_parameters_norm_bounds`. -/
structure LearnState where
  isNormalized : Bool
  params : PyDict ℝ
  bounds : PyDict (ℝ × ℝ)
  normBounds : PyDict (ℝ × ℝ)

/-- One item of `learnable_parameters`: name, initial value, bounds. -/
structure Learnable where
  name : String
  init : ℝ
  lower : ℝ
  upper : ℝ

/-- The argument `mode` of `transform_parameter`. -/
inductive TransformMode
  | normalize
  | denormalize
  | other

/-- `tmin + ((tmax - tmin)/(omax - omin))*(value - omin)` (`recurrent_model.py:749`); the bounds are
Python floats, whose division by zero raises. -/
def affineMap (o t : ℝ × ℝ) (value : ℝ) : Py ℝ := do
  raiseIf (o.2 - o.1 = 0) .zeroDivision
  .ok (t.1 + ((t.2 - t.1) / (o.2 - o.1)) * (value - o.1))

/-- `transform_parameter(name, value, mode)` (`recurrent_model.py:720-751`). -/
def transformParameter (s : LearnState) (name : String) (value : ℝ) : TransformMode → Py ℝ
  | .normalize => do
    let o ← orRaise (s.bounds.get? name) .keyError
    let t ← orRaise (s.normBounds.get? name) .keyError
    affineMap o t value
  | .denormalize => do
    let o ← orRaise (s.normBounds.get? name) .keyError
    let t ← orRaise (s.bounds.get? name) .keyError
    affineMap o t value
  | .other => .error .runtimeError

/-- The initial value of a parameter as it is stored (`recurrent_model.py:520-525`). -/
def storedInit (s : LearnState) (p : Learnable) : Py ℝ :=
  if s.isNormalized then transformParameter s p.name p.init .normalize else .ok p.init

/-- The body of the loop of `_set_model_parameters` (`recurrent_model.py:507-529`). -/
def setOneParameter (s : LearnState) (p : Learnable) : Py LearnState := do
  raiseIf (p.upper < p.lower) .runtimeError
  let s := { s with bounds := s.bounds.put p.name (p.lower, p.upper) }
  let s := if s.isNormalized
    then { s with normBounds := s.normBounds.put p.name (-1, 1) } else s
  let v ← storedInit s p
  .ok { s with params := s.params.put p.name v }

/-- `_set_model_parameters(learnable_parameters)` (`recurrent_model.py:488-529`). -/
def setModelParameters (isNormalized : Bool) (ps : List Learnable) : Py LearnState :=
  ps.foldlM setOneParameter ⟨isNormalized, [], [], []⟩

/-- `torch.clamp(x, lower, upper)`. -/
def clampR (lower upper x : ℝ) : ℝ := min (max x lower) upper

/-- The bounds used to clamp a parameter (`recurrent_model.py:814-819`). -/
def activeBounds (s : LearnState) (name : String) : Py (ℝ × ℝ) :=
  if s.isNormalized then orRaise (s.normBounds.get? name) .keyError
  else orRaise (s.bounds.get? name) .keyError

/-- `enforce_parameters_bounds()` (`recurrent_model.py:803-821`; the loop bodies of
`material_discovery.py:715-728`, `material_discovery.py:742-754` are the same). -/
def enforceBounds (s : LearnState) : Py LearnState := do
  let params ← s.params.mapM fun p => do
    let b ← activeBounds s p.1
    .ok (p.1, clampR b.1 b.2 p.2)
  .ok { s with params := params }

/-- `get_detached_model_parameters(is_normalized_out)` (`recurrent_model.py:892-925`). -/
def getDetached (s : LearnState) (isNormalizedOut : Bool) : Py (PyDict ℝ) :=
  if s.isNormalized = isNormalizedOut then .ok s.params
  else s.params.mapM fun p => do
    let v ← transformParameter s p.1 p.2
      (if s.isNormalized then .denormalize else .normalize)
    .ok (p.1, v)

/-- `torch.clamp` of a floating point value to finite bounds: NaN stays NaN. -/
def clampFl (lower upper : ℝ) (x : Fl) : Fl := Fl.min (Fl.max x (.fin lower)) (.fin upper)

/-! ### Synchronisation with the material model -/

/-- The material parameters of a constitutive model: the value stored at `d[key]` is at `("", key)`,
the value stored at `d[group][key]` at `(group, key)`. -/
abbrev MatParams := KDict (String × String) ℝ

/-- `s[n:]`. -/
def strDrop (s : String) (n : ℕ) : String := String.ofList (s.toList.drop n)

/-- Stores one synchronised value (`recurrent_model.py:546-708`). -/
def syncOne (material : String) (d : MatParams) (param : String) (v : ℝ) : Py MatParams :=
  if material ∈ ["von_mises", "von_mises_vmap"] then
    if param ∉ ["E", "v", "s0", "a", "b"] then .error .runtimeError
    else if param ∈ ["s0", "a", "b"] then .ok (d.put ("hardening_parameters", param) v)
    else .ok (d.put ("", param) v)
  else if material ∈ ["von_mises_mixed", "von_mises_mixed_vmap"] then
    if param ∉ ["E", "v", "s0", "a", "b", "kin_s0", "kin_a", "kin_b"] then .error .runtimeError
    else if param ∈ ["s0", "a", "b"] then .ok (d.put ("hardening_parameters", param) v)
    else if param ∈ ["kin_s0", "kin_a", "kin_b"] then
      .ok (d.put ("kinematic_hardening_parameters", strDrop param 4) v)
    else .ok (d.put ("", param) v)
  else if material ∈ ["drucker_prager", "drucker_prager_vmap"] then
    if param ∉ ["E", "v", "s0", "a", "b", "yield_cohesion_parameter", "yield_pressure_parameter",
      "flow_pressure_parameter", "friction_angle"] then .error .runtimeError
    else if param ∈ ["s0", "a", "b"] then .ok (d.put ("hardening_parameters", param) v)
    else if param = "friction_angle" then
      let d := d.put ("", param) v
      let d := d.put ("", "yield_cohesion_parameter") ((2 / √3) * Real.cos v)
      let d := d.put ("", "yield_pressure_parameter") ((3 / √3) * Real.sin v)
      .ok (d.put ("", "flow_pressure_parameter") ((3 / √3) * Real.sin v))
    else .ok (d.put ("", param) v)
  else if material ∈ ["lou_zhang_yoon", "lou_zhang_yoon_vmap"] then
    if param ∉ ["E", "v", "s0", "a", "b", "yield_a_s0", "yield_a_a", "yield_a_b", "yield_b_s0",
      "yield_b_a", "yield_b_b", "yield_c_s0", "yield_c_a", "yield_c_b", "yield_d_s0", "yield_d_a",
      "yield_d_b"] then .error .runtimeError
    else if param ∈ ["s0", "a", "b"] then .ok (d.put ("hardening_parameters", param) v)
    else if param ∈ ["yield_a_s0", "yield_a_a", "yield_a_b"] then
      .ok (d.put ("a_hardening_parameters", strDrop param 8) v)
    else if param ∈ ["yield_b_s0", "yield_b_a", "yield_b_b"] then
      .ok (d.put ("b_hardening_parameters", strDrop param 8) v)
    else if param ∈ ["yield_c_s0", "yield_c_a", "yield_c_b"] then
      .ok (d.put ("c_hardening_parameters", strDrop param 8) v)
    else if param ∈ ["yield_d_s0", "yield_d_a", "yield_d_b"] then
      .ok (d.put ("d_hardening_parameters", strDrop param 8) v)
    else .ok (d.put ("", param) v)
  else if material = "elastic" then
    if param ∉ ["E", "v"] then .error .runtimeError
    else .ok (d.put ("", param) v)
  else .error .runtimeError

/-- The value written to the material model (`recurrent_model.py:539-543`). -/
def syncValue (s : LearnState) (param : String) (v : ℝ) : Py ℝ :=
  if s.isNormalized then transformParameter s param v .denormalize else .ok (1 * v)

/-- `sync_material_model_parameters()` (`recurrent_model.py:531-708`): the material parameters
afterwards.  The nested dictionaries the code reads are taken to exist. -/
def syncParameters (material : String) (s : LearnState) (d : MatParams) : Py MatParams :=
  s.params.foldlM (fun d p => do
    let v ← syncValue s p.1 p.2
    syncOne material d p.1 v) d

/-! ### Convexity constraint of the Lou-Zhang-Yoon model -/

/-- The loop of `directional_convex_boundary`
(`simulators/fetorch/material/models/standard/lou.py:1673-1695`) from the search bounds
`(lo, hi)`, with the last trial radius, for at most `fuel` tests of the condition.  `convex r` is the
result of `check_yield_surface_convexity(r*cos(theta), r*sin(theta))`. -/
def bisectRadius (convex : ℝ → Bool) (tol : ℝ) : ℕ → ℝ → ℝ → Option ℝ → Option (Option ℝ)
  | 0, _, _, _ => none
  | fuel + 1, lo, hi, last =>
    open Classical in
    if hi - lo > tol then
      let mean := (hi + lo) / 2
      if convex mean then bisectRadius convex tol fuel mean hi (some mean)
      else bisectRadius convex tol fuel lo mean (some mean)
    else some last

/-- `directional_convex_boundary(theta)` (`lou.py:1640-1700`) with the default search window
`[0, 5]` and tolerance: the returned parameters are those of the last trial radius.
`check_yield_surface_convexity` is a parameter of the model. -/
def directionalConvexBoundary (convex : ℝ → ℝ → Bool) (fuel : ℕ) (theta : ℝ) :
    Option (Py (ℝ × ℝ)) :=
  (bisectRadius (fun r => convex (r * Real.cos theta) (r * Real.sin theta)) (1e-6) fuel 0 5
    none).map fun last =>
      (orRaise last .unboundLocal).map fun r => (r * Real.cos theta, r * Real.sin theta)

/-- `convexity_return_mapping(yield_c, yield_d)` (`lou.py:1571-1608`). -/
def convexityReturnMapping (convex : ℝ → ℝ → Bool) (fuel : ℕ) (c d : ℝ) :
    Option (Py (Bool × ℝ × ℝ)) :=
  if convex c d then some (.ok (true, c, d))
  else (directionalConvexBoundary convex fuel (Complex.arg ⟨c, d⟩)).map fun r =>
    r.map fun cd => (false, cd.1, cd.2)

/-- The current physical value of a yield parameter (`recurrent_model.py:839-868`): the learnable
parameter, denormalised if need be, or else the value of the material model. -/
def currentYield (s : LearnState) (name : String) (fixed : ℝ) : Py ℝ :=
  match s.params.get? name with
  | some v => if s.isNormalized then transformParameter s name v .denormalize else .ok v
  | none => .ok fixed

/-- Stores a yield parameter if it is learnable (`recurrent_model.py:876-890`). -/
def storeYield (s : LearnState) (name : String) (v : ℝ) : Py LearnState :=
  if s.params.has name then do
    let v ← if s.isNormalized then transformParameter s name v .normalize else .ok v
    .ok { s with params := s.params.put name v }
  else .ok s

/-- `enforce_parameters_constraints()` (`recurrent_model.py:823-890`) for a Lou-Zhang-Yoon model
whose material model holds the values `fixedC`, `fixedD`. -/
def enforceConstraints (convex : ℝ → ℝ → Bool) (fuel : ℕ) (fixedC fixedD : ℝ) (s : LearnState) :
    Option (Py LearnState) :=
  if s.params.has "yield_c_s0" || s.params.has "yield_d_s0" then
    match currentYield s "yield_c_s0" fixedC, currentYield s "yield_d_s0" fixedD with
    | .ok c, .ok d =>
      (convexityReturnMapping convex fuel c d).map fun r => do
        let r ← r
        if r.1 then .ok s
        else do
          let s ← storeYield s "yield_c_s0" r.2.1
          storeYield s "yield_d_s0" r.2.2
    | .error e, _ => some (.error e)
    | _, .error e => some (.error e)
  else some (.ok s)

end

end Hooke
