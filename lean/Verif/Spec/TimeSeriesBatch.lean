import Verif.Model.TimeSeriesBatch

/-!
# Specification of batches and prediction metrics
-/

namespace Hooke.Spec

/-- Sample `x` stores the time series `u` of shape `(T, F)` under the name `k`. -/
def HasSeries (x : PyDict FeatVal) (k : String) (T F : ℕ) (u : Tensor) : Prop :=
  x.get? k = some (.tensor u) ∧ u.shape = [T, F]

/-- Mean of `g` over the time steps of a series. -/
noncomputable def timeMean (len : ℕ) (g : ℕ → ℝ) : ℝ := (∑ i ∈ Finset.range len, g i) / len

end Hooke.Spec
