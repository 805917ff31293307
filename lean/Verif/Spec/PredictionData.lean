import Verif.Model.PredictionData

/-!
# Specification of stored predictions
-/

namespace Hooke.Spec

/-- The name of the file of the sample `i`. -/
def sampleFile (i : ℕ) : Text := "prediction_sample_".toList ++ strNat i ++ ".pkl".toList

/-- The directory, listed in any order, holds the results of the samples 0, 1, ..., each in its file, and
other files whose names do not begin like those of samples. -/
structure StoresResults (d : PredDir) (rs : List StoredResults) : Prop where
  nodup : d.keys.Nodup
  stored : ∀ i r, rs[i]? = some r → (sampleFile i, PredEntry.results r) ∈ d
  others : ∀ name e, (name, e) ∈ d → (∃ i, i < rs.length ∧ name = sampleFile i) ∨
    ¬ "prediction_sample_".toList <+: name

/-- The first `n` features of the results can be compared with the ground truth. -/
def Comparable (n : ℕ) (r : StoredResults) : Prop :=
  ∃ t, r.targets = some t ∧ t.len = r.out.len ∧ n ≤ r.out.nFeat ∧ n ≤ t.nFeat

/-- Ground truth and prediction of a feature at each time. -/
def truthRows (i : ℕ) (r : StoredResults) : List (ℝ × ℝ) :=
  match r.targets with
  | none => []
  | some t => (List.range r.out.len).map fun k => (t.val k i, r.out.val k i)

/-- Time, ground truth and predictions of the models of a feature at each time: the rows for the time
history `time`, the first model `m` and the other models `ms`. -/
def seriesRows (i : ℕ) (time : List ℝ) (m : StoredResults) (ms : List StoredResults) :
    List (List ℝ) :=
  (List.range time.length).map fun k =>
    time.getD k 0 :: (m.targets.map fun t => t.val k i).getD 0 :: (m :: ms).map fun r => r.out.val k i

/-- Types of predictions whose components are the first output features. -/
def ByColumns (type : String) : Prop := type = "stress_comps" ∨ type = "p_strain_comps"

/-- The name of the directory of a model. -/
def modelDir (k : ℕ) : Text := "model_".toList ++ strNat k

end Hooke.Spec
