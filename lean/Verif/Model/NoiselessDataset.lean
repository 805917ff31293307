import Verif.Model.NoisyDataset

/-!
# Noiseless data sets of the noisy data set generator

Models the noiseless part of user_scripts/synthetic_data/gen_noisy_response_dataset.py.  The time
history, the order of the components (both copied from the strain path generator) and the conversion to
the default floating point type of `build_response_path` (126-189) are not modelled.
-/

noncomputable section

namespace Hooke

variable {n : ℕ} {σ : Type}

/-- The `while` loop of one sample, gen_noisy_response_dataset.py:247-273: `draws j` is the strain path
(as many times as rows) of call `j` of the strain path generator.  The first number is the number of
trials that may still fail; in the last trial (number 11) the error is raised whatever the outcome. -/
def noiselessSample (n : ℕ) (co : List Comp) (M : RcModel n σ) (features : List (String × ℕ))
    (draws : ℕ → List (List ℝ)) : ℕ → ℕ → Py (ResponsePath × ℕ)
  | 0, j => do
    let _ ← noisyStressPath n co M features (draws j).length (draws j)
    .error .runtimeError
  | k + 1, j => do
    let r ← noisyStressPath n co M features (draws j).length (draws j)
    if r.2 then noiselessSample n co M features draws k (j + 1) else .ok (r.1, j + 1)

/-- `generate_noiseless_dataset`, gen_noisy_response_dataset.py:191-300: the samples in order.  Only two
types of strain paths are known (227-234).  The average time of line 290 divides by the number of
paths. -/
def generateNoiselessDataset (n : ℕ) (co : List Comp) (M : RcModel n σ) (features : List (String × ℕ))
    (pathType : String) (draws : ℕ → List (List ℝ)) (nPath : ℕ) : Py (List ResponsePath) := do
  raiseIf (pathType ≠ "random" ∧ pathType ≠ "proportional") .runtimeError
  let r ← (List.range nPath).foldlM (fun (acc : List ResponsePath × ℕ) _ => do
      let s ← noiselessSample n co M features draws 10 acc.2
      return (acc.1 ++ [s.1], s.2))
    ([], 0)
  raiseIf (nPath = 0) .zeroDivision
  return r.1

end Hooke
