import Verif.Model.PyUtil
import Mathlib.Analysis.SpecialFunctions.Trigonometric.Basic
import Mathlib.Algebra.BigOperators.Intervals

/-!
# Denoising of time series

`utilities/data_denoisers.py`.  `torch.nn.functional.pad`, `conv1d` and `torch.fft` are modelled by
their documented values over the reals, with the checks of shapes and floating point types that make
them raise.  `scipy.signal.savgol_coeffs` is a parameter.
-/

namespace Hooke

noncomputable section

/-- Floating point type of a tensor. -/
inductive DType
  | float32
  | float64
  deriving DecidableEq

/-- A tensor of shape `(sequence_length, n_features)`. -/
structure Series where
  dtype : DType
  len : ℕ
  nFeat : ℕ
  val : ℕ → ℕ → ℝ

/-- The first argument of `denoise`: a tensor with two dimensions, a tensor with another number of
dimensions, or something else. -/
inductive DnInput
  | series (x : Series)
  | otherShape
  | notTensor

/-- `_check_tensor` (`utilities/data_denoisers.py:300-313`). -/
def checkSeries : DnInput → Py Series
  | .series x => .ok x
  | .otherShape => .error .runtimeError
  | .notTensor => .error .runtimeError

/-- `F.pad(tensor, (p, q), mode='replicate')` along the sequence; raises for a tensor without
entries. -/
def replicatePad (p q : ℕ) (x : Series) : Py Series :=
  if x.len = 0 ∨ x.nFeat = 0 then .error .runtimeError
  else .ok ⟨x.dtype, x.len + p + q, x.nFeat, fun i j => x.val (min (i - p) (x.len - 1)) j⟩

/-- `F.conv1d(tensor, kernel, padding=0, groups=n_features)` with the same kernel for every feature;
raises for an empty kernel, a kernel longer than the sequence, and a kernel of another type. -/
def conv1d (kd : DType) (kernel : List ℝ) (x : Series) : Py Series :=
  if kernel = [] ∨ kd ≠ x.dtype ∨ x.len < kernel.length then .error .runtimeError
  else .ok ⟨x.dtype, x.len - kernel.length + 1, x.nFeat, fun t j =>
    ∑ i ∈ Finset.range kernel.length, kernel.getD i 0 * x.val (t + i) j⟩

/-- `_dn_moving_average(tensor, window_size)` (`utilities/data_denoisers.py:93-136`).  `dd` is the
default floating point type, the type of `torch.ones(...)/window_size`.  A window size that is not
positive raises in `torch.ones` or `F.conv1d`. -/
def movingAverage (dd : DType) (w : ℤ) (x : Series) : Py Series := do
  raiseIf (w ≤ 0) .runtimeError
  let n := w.toNat
  let y ← replicatePad (n / 2) (n - 1 - n / 2) x
  conv1d dd (List.replicate n (1 / (n : ℝ))) y

/-- `_dn_savitzky_golay(tensor, window_size, poly_order)`
(`utilities/data_denoisers.py:138-206`).  `coeffs` is `scipy.signal.savgol_coeffs`, an array of
`float64`, so that `torch.tensor(coeffs)` has this type whatever the default.  A window size that is
not positive is not modelled. -/
def savitzkyGolay (coeffs : ℕ → ℕ → Py (List ℝ)) (w p : ℕ) (x : Series) : Py Series := do
  let y ← replicatePad (w / 2) (w - 1 - w / 2) x
  let c ← coeffs w p
  conv1d .float64 c y

/-- `torch.fft.fft` of a real series of length `n` at index `k`. -/
def fft (n : ℕ) (x : ℕ → ℝ) (k : ℕ) : ℂ :=
  ∑ t ∈ Finset.range n, (x t : ℂ) * Complex.exp (-(2 * Real.pi * Complex.I * k * t / n))

/-- `torch.fft.ifft` at index `t`. -/
def ifft (n : ℕ) (X : ℕ → ℂ) (t : ℕ) : ℂ :=
  (∑ k ∈ Finset.range n, X k * Complex.exp (2 * Real.pi * Complex.I * k * t / n)) / n

/-- `torch.fft.fftfreq(n, 1)` at index `k`: `0, 1, ..., (n-1)//2, -(n//2), ..., -1` over `n`. -/
def fftfreq (n k : ℕ) : ℝ :=
  if k ≤ (n - 1) / 2 then (k : ℝ) / n else ((k : ℝ) - n) / n

/-- `_dn_frequency_low_pass(tensor, cutoff_frequency)` (`utilities/data_denoisers.py:208-298`)
without the plot of the spectrum.  The transform of an empty sequence raises. -/
def lowPass (cutoff : ℝ) (x : Series) : Py Series := do
  raiseIf (x.len = 0) .runtimeError
  .ok ⟨x.dtype, x.len, x.nFeat, fun t j =>
    (ifft x.len (fun k =>
      if |fftfreq x.len k| ≤ cutoff then fft x.len (fun s => x.val s j) k else 0) t).re⟩

/-- The parameters of a denoising method, `denoise_parameters`. -/
inductive DnParams
  | window (w : ℤ)
  | windowOrder (w p : ℕ)
  | cutoff (c : ℝ)

/-- One application `denoiser(dn_tensor, **denoise_parameters)`: parameters of another method are
unexpected keyword arguments. -/
def applyDenoiser (dd : DType) (coeffs : ℕ → ℕ → Py (List ℝ)) (method : String) (ps : DnParams)
    (x : Series) : Py Series :=
  match ps with
  | .window w => if method = "moving_average" then movingAverage dd w x else .error .typeError
  | .windowOrder w p =>
    if method = "savitzky_golay" then savitzkyGolay coeffs w p x else .error .typeError
  | .cutoff c => if method = "frequency_low_pass" then lowPass c x else .error .typeError

/-- `denoise(tensor, denoise_method, denoise_parameters, n_denoise_cycle)`
(`utilities/data_denoisers.py:49-91`). -/
def denoise (dd : DType) (coeffs : ℕ → ℕ → Py (List ℝ)) (input : DnInput) (method : String)
    (ps : DnParams) (nCycle : ℤ) : Py Series := do
  let x ← checkSeries input
  raiseIf (method ∉ ["moving_average", "savitzky_golay", "frequency_low_pass"]) .runtimeError
  (List.range nCycle.toNat).foldlM (fun y _ => applyDenoiser dd coeffs method ps y) x

end

end Hooke
