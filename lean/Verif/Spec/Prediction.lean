import Verif.Model.Prediction
import Verif.Spec.TimeSeriesBatch

/-!
# What the prediction of a data set returns

For one sample at a time: scale the input, evaluate the model on this sequence alone, scale
the output back and compare with the targets.
-/

namespace Hooke.Spec

noncomputable section

/-- A sample with input series `u`, targets `v` and, possibly, initial hidden state `h`. -/
structure IsSample (m : GruModel) (x : PyDict FeatVal) (T : ℕ) (u v : Tensor) (h : Option Tensor) :
    Prop where
  nodup : x.keys.Nodup
  pos : 0 < T
  input : HasSeries x "features_in" T m.nFeaturesIn u
  output : HasSeries x "features_out" T m.nFeaturesOut v
  hidden : match h with
    | none => ∀ T F t, ¬ HasSeries x "hidden_features_in" T F t
    | some t => HasSeries x "hidden_features_in" m.nRecurrentLayers m.hiddenLayerSize t

/-- The input of the model for one sample: each feature is scaled if the model works with
scaled inputs. -/
def scaledInput (c : PredCfg) (u : Tensor) : Tensor :=
  match c.inNormalized, c.scalers.featuresIn with
  | true, some s => ⟨u.shape, fun idx => s.fwd (idx.getLastD 0) (u.val idx)⟩
  | _, _ => u

/-- The output of the model, feature `g`, scaled back. -/
def scaledBack (c : PredCfg) (g : ℕ) (x : ℝ) : ℝ :=
  match c.outNormalized, c.scalers.featuresOut with
  | true, some s => s.inv g x
  | _, _ => x

/-- The value of feature `g` that enters the loss. -/
def lossValue (c : PredCfg) (g : ℕ) (x : ℝ) : ℝ :=
  match c.normalizedLoss, c.scalers.featuresOut with
  | true, some s => s.fwd g x
  | _, _ => x

/-- The saved result `r` is that of the sample evaluated alone. -/
def IsPrediction (c : PredCfg) (T : ℕ) (u v : Tensor) (h : Option Tensor) (r : SamplePrediction) :
    Prop :=
  ∃ out hn, c.model.forward (scaledInput c u) h = .ok (out, hn) ∧
    out.shape = [T, c.model.nFeaturesOut] ∧
    r.out.shape = [T, c.model.nFeaturesOut] ∧ r.targets.shape = [T, c.model.nFeaturesOut] ∧
    (∀ t < T, ∀ g < c.model.nFeaturesOut, r.out.val [t, g] = scaledBack c g (out.val [t, g])) ∧
    (∀ t < T, ∀ g < c.model.nFeaturesOut, r.targets.val [t, g] = v.val [t, g]) ∧
    r.loss = c.lossFn ((List.range T).flatMap fun t => (List.range c.model.nFeaturesOut).map fun g =>
      (lossValue c g (scaledBack c g (out.val [t, g])), lossValue c g (v.val [t, g])))

/-- The scalers needed by the configuration are fitted for the right numbers of features. -/
def ScalersReady (c : PredCfg) : Prop :=
  (c.inNormalized = true → ∃ s, c.scalers.featuresIn = some s ∧ s.nFeatures = c.model.nFeaturesIn) ∧
  (c.outNormalized = true ∨ c.normalizedLoss = true →
    ∃ s, c.scalers.featuresOut = some s ∧ s.nFeatures = c.model.nFeaturesOut)

end

end Hooke.Spec
