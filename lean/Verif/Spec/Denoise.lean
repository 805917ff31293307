import Verif.Model.Denoise

/-!
# Specification of denoising
-/

namespace Hooke.Spec

/-- Two series have the same shape and type. -/
def SameShape (x y : Series) : Prop := y.dtype = x.dtype ∧ y.len = x.len ∧ y.nFeat = x.nFeat

/-- The entry of a sequence of length `n` at time `i`, with the first and the last entry continued
before the beginning and after the end. -/
def extended (n : ℕ) (v : ℕ → ℝ) (i : ℤ) : ℝ := v (min (max i 0) (n - 1)).toNat

/-- The moments that define Savitzky-Golay coefficients of window `w` and order `p`: they are the
documented solution of the interpolation conditions of `scipy.signal.savgol_coeffs`, at the positions
`centre - i` with the centre of the window `(w - 1) / 2`. -/
def IsSavgol (w p : ℕ) (c : List ℝ) : Prop :=
  c.length = w ∧ ∀ k ≤ p, ∑ i ∈ Finset.range w, c.getD i 0 * (((w : ℝ) - 1) / 2 - i) ^ k
    = if k = 0 then 1 else 0

/-- Amplitude of the oscillation of frequency `k / n` in a sequence of length `n` (discrete Fourier
transform). -/
noncomputable def dftAt (n : ℕ) (x : ℕ → ℝ) (k : ℕ) : ℂ :=
  ∑ t ∈ Finset.range n, (x t : ℂ) * Complex.exp (-(2 * Real.pi * Complex.I * k * t / n))

end Hooke.Spec
