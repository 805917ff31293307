import Verif.Model.MeanMetrics
import Verif.Spec.TimeSeriesBatch

/-!
# Specification of the mean prediction metrics
-/

namespace Hooke.Spec

/-- The results are those of a sequence of `F` features with their ground truth. -/
def Measured (F : ℕ) (r : StoredResults) : Prop :=
  ∃ t, r.targets = some t ∧ t.len = r.out.len ∧ 0 < r.out.len ∧ r.out.nFeat = F ∧ t.nFeat = F

/-- Root of the mean square error of a feature. -/
noncomputable def sampleError (j : ℕ) (r : StoredResults) : ℝ :=
  match r.targets with
  | none => 0
  | some t => √(timeMean r.out.len fun i => (r.out.val i j - t.val i j) ^ 2)

/-- Mean absolute value of the ground truth of a feature. -/
noncomputable def sampleScale (j : ℕ) (r : StoredResults) : ℝ :=
  match r.targets with
  | none => 0
  | some t => timeMean r.out.len fun i => |t.val i j|

/-- Mean over the samples. -/
noncomputable def sampleMean (rs : List StoredResults) (f : StoredResults → ℝ) : ℝ :=
  (rs.map f).sum / rs.length

/-- The metrics of a process, as they are written. -/
structure ProcessRecord where
  /-- Label. -/
  label : Text
  /-- Number of samples. -/
  n : ℕ
  /-- Metrics. -/
  metrics : PyDict (List ℝ)

/-- The label is a piece of a line and does not contain `n_sample =`, in any case of the letters. -/
def PlainLabel (l : Text) : Prop :=
  '\n' ∉ l ∧ '\r' ∉ l ∧ ∀ pre suf, l.map Char.toLower ≠ pre ++ "n_sample =".toList ++ suf

/-- A name of letters, digits and underscores. -/
def MetricName (m : String) : Prop :=
  m.toList ≠ [] ∧ ∀ c ∈ m.toList, c.isAlphanum = true ∨ c = '_'

/-- There is at least a metric; the names of the metrics are distinct. -/
structure ProperRecord (p : ProcessRecord) : Prop where
  label : PlainLabel p.label
  some : p.metrics ≠ []
  nodup : p.metrics.keys.Nodup
  names : ∀ m ∈ p.metrics.keys, MetricName m

/-- Not a finite number. -/
def NotFinite (v : MetricVal) : Prop := ∀ x, v ≠ .num x

end Hooke.Spec
