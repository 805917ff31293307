import Verif.Model.PyDict
import Mathlib.Data.Real.Basic
import Mathlib.Algebra.Order.Group.Abs

/-!
# Noise of paths

Models `NoiseGenerator` (`data_generation/strain_paths/noise_generator.py`).  The random draws of a
call are arguments: numbers of the unit interval, standard normal numbers and outcomes of trials.
-/

noncomputable section

namespace Hooke

/-- The known distributions. -/
inductive NoiseDist
  | uniform
  | gaussian
  | spiked
  deriving DecidableEq

/-- Attributes of a `NoiseGenerator` (noise_generator.py:45-50). -/
structure NoiseGen where
  dist : Option NoiseDist
  params : Option (KDict String ℝ)

/-- `__init__` (noise_generator.py:45-50). -/
def NoiseGen.new : NoiseGen := ⟨none, none⟩

/-- The distribution with a name. -/
def noiseDist? : String → Option NoiseDist
  | "uniform" => some .uniform
  | "gaussian" => some .gaussian
  | "spiked_gaussian" => some .spiked
  | _ => none

/-- `set_noise_distribution` (noise_generator.py:52-66). -/
def NoiseGen.setDistribution (g : NoiseGen) (name : String) : Py NoiseGen := do
  let d ← orRaise (noiseDist? name) .runtimeError
  return { g with dist := some d }

/-- `get_required_parameters` (noise_generator.py:90-113). -/
def requiredParameters : Option NoiseDist → Py (List String)
  | some .uniform => .ok ["amp"]
  | some .gaussian => .ok ["std"]
  | some .spiked => .ok ["std", "spike", "p_spike"]
  | none => .error .runtimeError

/-- `set_noise_parameters` (noise_generator.py:68-88). -/
def NoiseGen.setParameters (g : NoiseGen) (ps : KDict String ℝ) : Py NoiseGen := do
  let req ← requiredParameters g.dist
  raiseIf ((req.all fun p => ps.has p) = false) .runtimeError
  return { g with params := some ps }

/-- `self._noise_parameters[name]`. -/
def NoiseGen.param (g : NoiseGen) (name : String) : Py ℝ := do
  let ps ← orRaise g.params .typeError
  orRaise (ps.get? name) .keyError

/-- The random numbers of one call of `generate_noise_path`, by time and feature: two families of
numbers of the unit interval, two of standard normal numbers, and the outcomes of trials. -/
structure NoiseDraws where
  unit : ℕ → ℕ → ℝ
  unit' : ℕ → ℕ → ℝ
  normal : ℕ → ℕ → ℝ
  normal' : ℕ → ℕ → ℝ
  spike : ℕ → ℕ → Bool

/-- A number of `np.random.uniform(low, high)`. -/
def npUniform (low high u : ℝ) : ℝ := low + (high - low) * u

/-- A path of shape `(T, F)`. -/
def pathOfShape (T F : ℕ) (f : ℕ → ℕ → ℝ) : List (List ℝ) :=
  (List.range T).map fun t => (List.range F).map fun c => f t c

/-- Homoscedastic noise (noise_generator.py:150-165); `none` if the variable is not assigned.
`np.random.normal` refuses a negative deviation. -/
def homNoise (g : NoiseGen) (T F : ℕ) (d : NoiseDraws) : Py (Option (List (List ℝ))) :=
  match g.dist with
  | some .uniform => do
    let amp ← g.param "amp"
    let low := -(1 / 2) * |amp|
    return some (pathOfShape T F fun t c => npUniform low (-low) (d.unit t c))
  | some _ => do
    let std ← g.param "std"
    raiseIf (std < 0) .valueError
    return some (pathOfShape T F fun t c => std * d.normal t c)
  | none => .ok none

/-- A row of heteroscedastic noise (noise_generator.py:177-208). -/
def hetRow (g : NoiseGen) (F : ℕ) (d : NoiseDraws) (w : ℝ) (t : ℕ) : Py (List ℝ) :=
  match g.dist with
  | some .uniform => do
    let amp ← g.param "amp"
    let homLow := -(1 / 2) * |amp|
    let hetLow := -(1 / 2) * |amp| * w
    return (List.range F).map fun c => npUniform homLow (-homLow) (d.unit t c)
      + npUniform hetLow (-hetLow) (d.unit' t c)
  | some _ => do
    let std ← g.param "std"
    raiseIf (std < 0) .valueError
    raiseIf (std * w < 0) .valueError
    return (List.range F).map fun c => std * d.normal t c + std * w * d.normal' t c
  | none => .error .unboundLocal

/-- Heteroscedastic noise (noise_generator.py:167-208). -/
def hetNoise (g : NoiseGen) (T F : ℕ) (weights : Option (List ℝ)) (d : NoiseDraws) :
    Py (Option (List (List ℝ))) := do
  let ws := weights.getD (List.replicate T 1)
  let rows ← (List.range T).mapM fun t => do
    let w ← orRaise ws[t]? .indexError
    hetRow g F d w t
  return some rows

/-- The noise before the spikes (noise_generator.py:150-208). -/
def baseNoise (g : NoiseGen) (T F : ℕ) (variability : String) (weights : Option (List ℝ))
    (d : NoiseDraws) : Py (Option (List (List ℝ))) :=
  if variability = "homoscedastic" then homNoise g T F d
  else if variability = "heteroscedastic" then hetNoise g T F weights d
  else .ok none

/-- The spikes (noise_generator.py:211-219), if any; `np.random.binomial` refuses numbers that are
no probabilities. -/
def spikeNoise (g : NoiseGen) (T F : ℕ) (d : NoiseDraws) : Py (List (List ℝ)) :=
  if g.dist = some .spiked then do
    let spike ← g.param "spike"
    let p ← g.param "p_spike"
    raiseIf (p < 0 ∨ 1 < p) .valueError
    return pathOfShape T F fun t c => if d.spike t c then spike else 0
  else .ok (pathOfShape T F fun _ _ => 0)

/-- Sum of two paths of the same shape. -/
def addPaths (a b : List (List ℝ)) : List (List ℝ) :=
  List.zipWith (fun r s => List.zipWith (· + ·) r s) a b

/-- `generate_noise_path` (noise_generator.py:115-221) for a path of shape `(T, F)`. -/
def generateNoise (g : NoiseGen) (T F : ℕ) (variability : String) (weights : Option (List ℝ))
    (d : NoiseDraws) : Py (List (List ℝ)) := do
  let base ← baseNoise g T F variability weights d
  let spikes ← spikeNoise g T F d
  let noise ← orRaise base .unboundLocal
  return addPaths noise spikes

end Hooke
