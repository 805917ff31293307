import Verif.Model.Noise
import Verif.Model.Denoise
import Verif.Model.RecurrentForward
import Verif.Model.StrainPath

/-!
# Noisy response data sets

Models `NoisyMaterialResponseDatasetGenerator`
(`user_scripts/synthetic_data/gen_noisy_response_dataset.py`) for infinitesimal strains.
-/

noncomputable section

namespace Hooke

variable {n : ℕ} {σ : Type}

/-! ### Response of a strain path -/

/-- Update of the path of one state variable, gen_noisy_response_dataset.py:606-627.  A variable that is
not in the state is removed (`none`), without a check that it is still there. -/
def noisyFeature (n : ℕ) (co : List Comp) (M : RcModel n σ) (s : σ)
    (f : (String × ℕ) × Option (List (List ℝ))) : Py ((String × ℕ) × Option (List (List ℝ))) :=
  match M.var f.1.1 s, f.2 with
  | none, some _ => .ok (f.1, none)
  | none, none => .error .keyError
  | some _, none => .error .keyError
  | some v, some rows =>
    if isStrainVar f.1.1 then do
      let t ← getTensorFromMf v n co
      let r ← assignRow .valueError f.1.2 (storeTensorComps co t)
      return (f.1, some (rows ++ [r]))
    else do
      let r ← assignRow .valueError f.1.2 v.entries
      return (f.1, some (rows ++ [r]))

/-- Body of the time loop of `compute_stress_path`, gen_noisy_response_dataset.py:555-627; nothing is
done after the `break` of line 588.  The tensors are built as in gen_response_dataset.py. -/
def noisyStep (n : ℕ) (co : List Comp) (M : RcModel n σ) (sp : List (List ℝ)) (acc : GenAcc σ)
    (t : ℕ) : Py (GenAcc σ) :=
  if acc.fail then .ok acc else do
    let inc ← genIncrement n co sp t
    let s ← M.update inc acc.state
    if M.suFail s then return { acc with fail := true }
    else do
      let stress ← getTensorFromMf (M.stressMf s) n co
      let feats ← acc.feats.mapM (noisyFeature n co M s)
      return ⟨s, acc.stress ++ [storeTensorComps co stress], feats, false⟩

/-- `compute_stress_path`, gen_noisy_response_dataset.py:499-629. -/
def noisyStressPath (n : ℕ) (co : List Comp) (M : RcModel n σ) (features : List (String × ℕ)) (T : ℕ)
    (sp : List (List ℝ)) : Py (ResponsePath × Bool) := do
  let a ← (List.range' 1 (T - 1)).foldlM (noisyStep n co M sp)
    ⟨M.init, if T = 0 then [] else [List.replicate co.length 0],
      features.map fun f => (f, some (if T = 0 then [] else [List.replicate f.2 0])), false⟩
  return (⟨sp, padRows T co.length a.stress, a.feats.filterMap fun f =>
    f.2.map fun rows => (f.1.1, padRows T f.1.2 rows)⟩, a.fail)

/-! ### Noisy strain path -/

/-- A fitted data scaler for the strain components (data_scalers.py), over the real numbers. -/
inductive StrainScaler
  /-- Minimum and maximum of the `n` components, and the range they are mapped to. -/
  | minMax (n : ℕ) (lo hi : ℝ) (mn mx : ℕ → ℝ)
  /-- Mean and standard deviation of the `n` components. -/
  | standard (n : ℕ) (mean std : ℕ → ℝ)

/-- `_n_features`. -/
def StrainScaler.nFeat : StrainScaler → ℕ
  | .minMax n _ _ _ _ => n
  | .standard n _ _ => n

/-- `transform` of component `j` (data_scalers.py:247-251, 617-621). -/
def StrainScaler.to (s : StrainScaler) (j : ℕ) (x : ℝ) : ℝ :=
  match s with
  | .minMax _ lo hi mn mx => lo + (hi - lo) / (mx j - mn j) * (x - mn j)
  | .standard _ mean std => if std j ≠ 0 then (x - mean j) / std j else x - mean j

/-- `inverse_transform` of component `j` (data_scalers.py:313-317, 676-680). -/
def StrainScaler.back (s : StrainScaler) (j : ℕ) (x : ℝ) : ℝ :=
  match s with
  | .minMax _ lo hi mn mx => mn j + (mx j - mn j) / (hi - lo) * (x - lo)
  | .standard _ mean std => x * std j + mean j

/-- A transformation of the components of a path, if there is a scaler; the number of components is
checked (data_scalers.py:384-403, 746-764). -/
def scalePath (s : Option StrainScaler) (f : StrainScaler → ℕ → ℝ → ℝ) (sp : List (List ℝ)) :
    Py (List (List ℝ)) :=
  match s with
  | none => .ok sp
  | some s => do
    raiseIf (∃ r ∈ sp, r.length ≠ s.nFeat) .runtimeError
    return sp.map fun r => r.mapIdx fun j x => f s j x

/-- `np.linalg.norm(tensor)` of an `n` by `n` array. -/
def frobenius (n : ℕ) (t : Tensor) : ℝ :=
  √(((List.range n).map fun i => ((List.range n).map fun j => t.val [i, j] ^ 2).sum).sum)

/-- `compute_norm_path`, gen_noisy_response_dataset.py:632-670, for symmetric tensors. -/
def normPath (n : ℕ) (co : List Comp) (sp : List (List ℝ)) : Py (List ℝ) :=
  sp.mapM fun r => do
    let t ← npBuildTensor n co r
    return frobenius n t

/-- Arguments of `generate_noisy_dataset`; `dd` is the default floating point type, and `script` tells
whether the module is run as a script, which defines the global names `dataset_generator`, `n_dim` and
`strain_formulation` (gen_noisy_response_dataset.py:737). -/
structure NoisySetup where
  dd : DType
  script : Bool
  gen : NoiseGen
  variability : String
  normalizer : Option ℝ
  scaler : Option StrainScaler
  denoise : Bool

/-- Weights of heteroscedastic noise, gen_noisy_response_dataset.py:401-416, with the variable
`heteroscedastic_normalizer`, which keeps its value.  `NameError` is modelled as `unboundLocal`.
Division by a normalizer equal to zero is not modelled. -/
def hetWeights (S : NoisySetup) (n : ℕ) (co : List Comp) (sp : List (List ℝ)) (norm : Option ℝ) :
    Py (Option (List ℝ) × Option ℝ) :=
  if S.variability = "heteroscedastic" then do
    raiseIf (S.script = false) .unboundLocal
    let p ← normPath n co sp
    let m ← norm.elim (npMax p) .ok
    return (some (p.map fun x => x / m), some m)
  else .ok (none, norm)

/-- A path as an array of `float64`: the sum of an array of any type and the noise, which is of this
type. -/
def seriesOf (F : ℕ) (sp : List (List ℝ)) : Series :=
  ⟨.float64, sp.length, F, fun t c => (sp.getD t []).getD c 0⟩

/-- The rows of an array. -/
def rowsOf (x : Series) : List (List ℝ) := pathOfShape x.len x.nFeat x.val

/-- Denoising, gen_noisy_response_dataset.py:438-454; `base` is `noiseless_strain_path`.  The
coefficients of another method are not used. -/
def denoiseStrain (S : NoisySetup) (F : ℕ) (base sp : List (List ℝ)) : Py (List (List ℝ)) :=
  if S.denoise then do
    let y ← denoise S.dd (fun _ _ => .ok []) (.series (seriesOf F sp)) "moving_average" (.window 5) 1
    let r ← orRaise base[0]? .indexError
    return (rowsOf y).set 0 r
  else .ok sp

/-- The noise and the noisy strain path of a trial, gen_noisy_response_dataset.py:400-454, and the value
of `heteroscedastic_normalizer`. -/
def noisyStrainPath (S : NoisySetup) (n : ℕ) (co : List Comp) (sp : List (List ℝ)) (norm : Option ℝ)
    (d : NoiseDraws) : Py (List (List ℝ) × List (List ℝ) × Option ℝ) := do
  let w ← hetWeights S n co sp norm
  let F := (sp.headD []).length
  let noise0 ← generateNoise S.gen sp.length F S.variability w.1 d
  raiseIf (noise0 = []) .indexError
  let noise := noise0.set 0 (List.replicate F 0)
  let base ← scalePath S.scaler StrainScaler.to sp
  let strain ← scalePath S.scaler StrainScaler.back (addPaths base noise)
  let strain ← denoiseStrain S F base strain
  return (noise, strain, w.2)

/-- Difference of two arrays of the same shape; other shapes are refused (broadcasting is not
modelled). -/
def subPaths (a b : List (List ℝ)) : Py (List (List ℝ)) := do
  raiseIf (a.map List.length ≠ b.map List.length) .valueError
  return List.zipWith (fun r s => List.zipWith (· - ·) r s) a b

/-- A sample of a noisy data set. -/
structure NoisySample where
  response : ResponsePath
  strainNoise : List (List ℝ)
  stressNoise : List (List ℝ)

/-- The `while` loop of one sample, gen_noisy_response_dataset.py:373-469: `draws j` are the random
numbers of call `j` of the noise generator.  The first argument after the draws is the number of trials
that may still fail; in the last trial (number 11) the error is raised whatever the outcome.  As many
times as strains. -/
def noisySample (S : NoisySetup) (n : ℕ) (co : List Comp) (M : RcModel n σ)
    (features : List (String × ℕ)) (noiseless : ResponsePath) (draws : ℕ → NoiseDraws) :
    ℕ → ℕ → Option ℝ → Py (NoisySample × ℕ × Option ℝ)
  | 0, j, norm => do
    let p ← noisyStrainPath S n co noiseless.strain norm (draws j)
    let _ ← noisyStressPath n co M features noiseless.strain.length p.2.1
    .error .runtimeError
  | k + 1, j, norm => do
    let p ← noisyStrainPath S n co noiseless.strain norm (draws j)
    let r ← noisyStressPath n co M features noiseless.strain.length p.2.1
    let stressNoise ← subPaths r.1.stress noiseless.stress
    if r.2 then noisySample S n co M features noiseless draws k (j + 1) p.2.2
    else .ok (⟨r.1, p.1, stressNoise⟩, j + 1, p.2.2)

/-- `generate_noisy_dataset`, gen_noisy_response_dataset.py:302-497: the samples in order.  The average
time of line 489 divides by the number of paths. -/
def generateNoisyDataset (S : NoisySetup) (n : ℕ) (co : List Comp) (M : RcModel n σ)
    (features : List (String × ℕ)) (noiseless : List ResponsePath) (draws : ℕ → NoiseDraws) :
    Py (List NoisySample) := do
  let r ← noiseless.foldlM (fun (acc : List NoisySample × ℕ × Option ℝ) x => do
      let s ← noisySample S n co M features x draws 10 acc.2.1 acc.2.2
      return (acc.1 ++ [s.1], s.2))
    ([], 0, S.normalizer)
  raiseIf (noiseless = []) .zeroDivision
  return r.1

end Hooke
