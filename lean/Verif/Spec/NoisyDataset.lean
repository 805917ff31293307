import Verif.Spec.Noise
import Verif.Spec.Denoise
import Verif.Spec.ResponseDataset
import Verif.Model.NoisyDataset

/-!
# Specification of the noisy response data sets
-/

noncomputable section

namespace Hooke.Spec

variable {n : ℕ} {σ : Type}

/-- The array of shape `(T, F)` with the given entries. -/
def arrayOf (T F : ℕ) (f : ℕ → ℕ → ℝ) : List (List ℝ) :=
  (List.range T).map fun t => (List.range F).map fun c => f t c

/-- A noiseless path: at least one time, `k` strains and `k` stresses at every time. -/
structure NoiselessPath (k : ℕ) (x : ResponsePath) : Prop where
  nonempty : x.strain ≠ []
  strain : HasShape x.strain.length k x.strain
  stress : HasShape x.strain.length k x.stress

/-- The noise generator has the parameters of its distribution, and they make sense. -/
inductive ReadyNoise : NoiseGen → Prop
  | uniform {g a} : g.dist = some .uniform → g.param "amp" = .ok a → ReadyNoise g
  | gaussian {g s} : g.dist = some .gaussian → g.param "std" = .ok s → 0 ≤ s → ReadyNoise g
  | spiked {g s h p} : g.dist = some .spiked → g.param "std" = .ok s → 0 ≤ s →
      g.param "spike" = .ok h → g.param "p_spike" = .ok p → 0 ≤ p → p ≤ 1 → ReadyNoise g

/-- The value of a parameter. -/
def parameterOf (g : NoiseGen) (name : String) : ℝ := match g.param name with
  | .ok x => x
  | .error _ => 0

/-- The noise with the weight `w` (see C108). -/
def noiseValue (g : NoiseGen) (w : ℝ) (d : NoiseDraws) (t c : ℕ) : ℝ := match g.dist with
  | some .uniform => |parameterOf g "amp"| * (d.unit t c - 1 / 2)
      + w * (|parameterOf g "amp"| * (d.unit' t c - 1 / 2))
  | some .gaussian => parameterOf g "std" * (d.normal t c + w * d.normal' t c)
  | some .spiked => parameterOf g "std" * (d.normal t c + w * d.normal' t c)
      + if d.spike t c then parameterOf g "spike" else 0
  | none => 0

/-- Norm of the strain tensor with the components `r`. -/
def strainNorm (n : ℕ) (co : List Comp) (r : List ℝ) : ℝ :=
  √(∑ i : Fin n, ∑ j : Fin n, symTensor n co r i j ^ 2)

/-- `m` is the largest norm of the strains of a path. -/
def IsLargestNorm (n : ℕ) (co : List Comp) (sp : List (List ℝ)) (m : ℝ) : Prop :=
  (∃ r ∈ sp, strainNorm n co r = m) ∧ ∀ r ∈ sp, strainNorm n co r ≤ m

/-- The normalizer of heteroscedastic noise: the one given, or else the largest strain norm of the first
path. -/
def UsedNormalizer (S : NoisySetup) (n : ℕ) (co : List Comp) (l : List ResponsePath) (m : ℝ) : Prop :=
  0 < m ∧ (S.normalizer = some m ∨
    S.normalizer = none ∧ ∃ x, l.head? = some x ∧ IsLargestNorm n co x.strain m)

/-- Homoscedastic noise, or heteroscedastic noise with the normalizer `m`. -/
def UsedVariability (S : NoisySetup) (n : ℕ) (co : List Comp) (l : List ResponsePath) (m : ℝ) : Prop :=
  S.variability = "homoscedastic" ∨
    S.variability = "heteroscedastic" ∧ S.script = true ∧ UsedNormalizer S n co l m

/-- The weight of a time of a path. -/
def pathWeight (S : NoisySetup) (n : ℕ) (co : List Comp) (m : ℝ) (sp : List (List ℝ)) (t : ℕ) : ℝ :=
  if S.variability = "homoscedastic" then 0 else strainNorm n co (rowAt sp t) / m

/-- The factor between noise in the normalized space and noise of a strain component. -/
def noiseFactor : Option StrainScaler → ℕ → ℝ
  | none, _ => 1
  | some (.minMax _ lo hi mn mx), j => (mx j - mn j) / (hi - lo)
  | some (.standard _ _ std), j => std j

/-- A scaler for `k` components, none of which is constant. -/
def ScalerFits (k : ℕ) : Option StrainScaler → Prop
  | none => True
  | some (.minMax n lo hi mn mx) => n = k ∧ lo < hi ∧ ∀ j < k, mn j < mx j
  | some (.standard n _ std) => n = k ∧ ∀ j < k, 0 < std j

/-- The noise of a path: none at time zero. -/
def pathNoise (S : NoisySetup) (n : ℕ) (co : List Comp) (m : ℝ) (sp : List (List ℝ)) (d : NoiseDraws)
    (t c : ℕ) : ℝ :=
  if t = 0 then 0 else noiseValue S.gen (pathWeight S n co m sp t) d t c

/-- The strain path with noise. -/
def noisyStrain (S : NoisySetup) (n : ℕ) (co : List Comp) (m : ℝ) (sp : List (List ℝ)) (d : NoiseDraws)
    (t c : ℕ) : ℝ :=
  valueAt sp t c + noiseFactor S.scaler c * pathNoise S n co m sp d t c

/-- The strain path of a sample: with noise or, from time one on, the moving average over five times of
the path with noise. -/
def sampleStrain (S : NoisySetup) (n : ℕ) (co : List Comp) (m : ℝ) (sp : List (List ℝ))
    (d : NoiseDraws) : List (List ℝ) :=
  arrayOf sp.length co.length fun t c =>
    if S.denoise = true ∧ t ≠ 0 then (∑ i ∈ Finset.range 5, extended sp.length
      (fun s => noisyStrain S n co m sp d s c) ((t : ℤ) - 2 + i)) / 5
    else noisyStrain S n co m sp d t c

/-- A sample: the response to the strain path of the last of the at most ten trials, from call `a` of
the noise generator to call `b`, with the noise of this trial and the change of the stresses. -/
structure NoisySampled (S : NoisySetup) (co : List Comp) (M : RcModel n σ)
    (features : List (String × ℕ)) (m : ℝ) (draws : ℕ → NoiseDraws) (x : ResponsePath) (a b : ℕ)
    (y : NoisySample) : Prop where
  sampled : Sampled co features M (fun j => sampleStrain S n co m x.strain (draws j)) a b y.response
  strainNoise : y.strainNoise
    = arrayOf x.strain.length co.length (pathNoise S n co m x.strain (draws (b - 1)))
  stressNoise : y.stressNoise = arrayOf x.strain.length co.length fun t c =>
    valueAt y.response.stress t c - valueAt x.stress t c

/-- The settings: a constitutive model with the requested state variables, a noise generator that is set up,
a scaler that fits, and denoising only in double precision and without a scaler. -/
structure GoodNoise (S : NoisySetup) (n : ℕ) (co : List Comp) (features : List (String × ℕ))
    (M : RcModel n σ) : Prop where
  setting : GoodSetting co features M
  comps : co ≠ []
  noise : ReadyNoise S.gen
  scaler : ScalerFits co.length S.scaler
  denoise : S.denoise = true → S.dd = .float64 ∧ S.scaler = none

end Hooke.Spec
