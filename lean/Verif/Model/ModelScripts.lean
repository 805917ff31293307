import Verif.Model.DatasetFeatures
import Verif.Model.StressFeatures
import Verif.Model.LmuUpdate
import Mathlib.Analysis.SpecialFunctions.Pow.Real

/-!
# Training and prediction scripts of the local material models

Model of `perform_model_standard_training` and `perform_model_prediction` of
`user_scripts/local_model_update/{rnn,rc,hybrid}_material_model/{train_model,predict}.py` up to the call of the
library: the table of feature options, the features built in the data sets, the decay of the learning rate and
the handling of the directory of the case study.  `features_option` is a variable of the scripts and an argument
here.  The component order, which is not a tensor, is kept apart from the features.
-/

namespace Hooke

noncomputable section

/-! ## Options -/

/-- `features_in_build` with `features_in_weights`, rnn_material_model/train_model.py:81-82, 114-115. -/
inductive FeatBuild
  | cat
  | sum (weights : PyDict ℝ)

/-- What an option of a script sets: the new strain features, the features of input and output with the way
they are put together, and the numbers of features of the model. -/
structure FeatOption where
  strain : List String
  inLabels : List String
  inBuild : FeatBuild
  outLabels : List String
  outBuild : FeatBuild
  nIn : ℕ
  nOut : ℕ

/-- rnn_material_model/train_model.py:84-178. -/
def rnnOption (name : String) : Py FeatOption :=
  if name = "strain_to_stress" then .ok ⟨[], ["strain_path"], .cat, ["stress_path"], .cat, 6, 6⟩
  else if name = "strain_i1_i2_to_stress" then
    .ok ⟨["i1_strain", "i2_strain"], ["strain_path", "i1_strain", "i2_strain"], .cat, ["stress_path"], .cat, 8, 6⟩
  else if name = "strain_to_p_strain" then
    .ok ⟨[], ["strain_path"], .sum [("strain_path", 1)],
      ["strain_path", "e_strain_mf"], .sum [("strain_path", 1), ("e_strain_mf", -1)], 6, 6⟩
  else if name = "strain_i1_i2_to_p_strain" then
    .ok ⟨["i1_strain", "i2_strain"], ["strain_path", "i1_strain", "i2_strain"], .cat,
      ["strain_path", "e_strain_mf"], .sum [("strain_path", 1), ("e_strain_mf", -1)], 8, 6⟩
  else if name = "stress_acc_p_strain" then
    .ok ⟨[], ["strain_path"], .cat, ["stress_path", "acc_p_strain"], .cat, 6, 7⟩
  else if name = "strain_vf_to_stress" then
    .ok ⟨[], ["strain_path", "vf_path"], .cat, ["stress_path"], .cat, 7, 6⟩
  else if name = "strain_temperature_composition_to_stress" then
    .ok ⟨[], ["strain_path", "temperature_hist", "composition_hist"], .cat, ["stress_path"], .cat, 8, 6⟩
  else .error .runtimeError

/-- rnn_material_model/predict.py:103-197. -/
def rnnPredictOption (name : String) : Py FeatOption :=
  if name = "strain_to_stress" then .ok ⟨[], ["strain_path"], .cat, ["stress_path"], .cat, 6, 6⟩
  else if name = "strain_i1_i2_to_stress" then
    .ok ⟨["i1_strain", "i2_strain"], ["strain_path", "i1_strain", "i2_strain"], .cat, ["stress_path"], .cat, 8, 6⟩
  else if name = "strain_to_p_strain" then
    .ok ⟨[], ["strain_path"], .sum [("strain_path", 1)],
      ["strain_path", "e_strain_mf"], .sum [("strain_path", 1), ("e_strain_mf", -1)], 6, 6⟩
  else if name = "strain_i1_i2_to_p_strain" then
    .ok ⟨["i1_strain", "i2_strain"], ["strain_path", "i1_strain", "i2_strain"], .cat,
      ["strain_path", "e_strain_mf"], .sum [("strain_path", 1), ("e_strain_mf", -1)], 8, 6⟩
  else if name = "stress_acc_p_strain" then
    .ok ⟨[], ["strain_path"], .cat, ["stress_path", "acc_p_strain"], .cat, 6, 7⟩
  else if name = "strain_vf_to_stress" then
    .ok ⟨[], ["strain_path", "vf_path"], .cat, ["stress_path"], .cat, 7, 6⟩
  else if name = "strain_temperature_composition_to_stress" then
    .ok ⟨[], ["strain_path", "temperature_hist", "composition_hist"], .cat, ["stress_path"], .cat, 8, 6⟩
  else .error .runtimeError

/-- rc_material_model/train_model.py:279-301. -/
def rcOption (name : String) : Py FeatOption :=
  if name = "strain_to_stress" then .ok ⟨[], ["strain_path"], .cat, ["stress_path"], .cat, 6, 6⟩
  else if name = "strain_to_stress_acc_p_strain" then
    .ok ⟨[], ["strain_path"], .cat, ["stress_path", "acc_p_strain"], .cat, 6, 7⟩
  else .error .runtimeError

/-- rc_material_model/predict.py:80-96, which sets no numbers of features: those of the saved model hold. -/
def rcPredictOption (name : String) (nIn nOut : ℕ) : Py FeatOption :=
  if name = "strain_to_stress" then .ok ⟨[], ["strain_path"], .cat, ["stress_path"], .cat, nIn, nOut⟩
  else if name = "strain_to_stress_acc_p_strain" then
    .ok ⟨[], ["strain_path"], .cat, ["stress_path", "acc_p_strain"], .cat, nIn, nOut⟩
  else .error .runtimeError

/-- hybrid_material_model/train_model.py:104-133. -/
def hybridOption (name : String) : Py FeatOption :=
  if name = "strain_to_stress" then .ok ⟨[], ["strain_path"], .cat, ["stress_path"], .cat, 6, 6⟩
  else if name = "strain_i1_i2_to_stress" then
    .ok ⟨["i1_strain", "i2_strain"], ["strain_path", "i1_strain", "i2_strain"], .cat, ["stress_path"], .cat, 8, 6⟩
  else .error .runtimeError

/-- hybrid_material_model/predict.py:97-131. -/
def hybridPredictOption (name : String) : Py FeatOption :=
  if name = "strain_to_stress" then .ok ⟨[], ["strain_path"], .cat, ["stress_path"], .cat, 6, 6⟩
  else if name = "strain_i1_i2_to_stress" then
    .ok ⟨["i1_strain", "i2_strain"], ["strain_path", "i1_strain", "i2_strain"], .cat, ["stress_path"], .cat, 8, 6⟩
  else .error .runtimeError

/-! ## Data sets -/

/-- The history of a strain feature of a sample, strain_features.py:94-108. -/
def strainValue (label : String) (order : List (ℕ × ℕ)) (d : Feats) : Py FTensor := do
  let path ← orRaise (d.get? "strain_path") .keyError
  let rows ← path.rows.mapM fun c => strainFeature c label (orderDim order) order
  .ok ⟨1, rows⟩

/-- `add_strain_features`, strain_features.py:32-115: `order` is the component order of the first sample, if
stored. -/
def addStrainToStore (ds : FDataset) (order : Option (List (ℕ × ℕ))) (label : String) (st : FStore) :
    Py Unit × FStore :=
  match firstHas ds st "strain_path" with
  | .error e => (.error e, st)
  | .ok false => (.error .runtimeError, st)
  | .ok true =>
    match order with
    | none => (.error .runtimeError, st)
    | some o =>
      if label ≠ "i1_strain" ∧ label ≠ "i2_strain" then (.error .runtimeError, st)
      else sampleLoop ds.kind (featureBody (strainValue label o) label [] false) ds.slots st

/-- The next statement of a script. -/
def thenDo (p : Py Unit × FStore) (f : FStore → Py Unit × FStore) : Py Unit × FStore :=
  match p with
  | (.ok _, st) => f st
  | (.error e, st) => (.error e, st)

/-- The loop over the new strain features, rnn_material_model/train_model.py:249-254. -/
def addStrainAll (ds : FDataset) (order : Option (List (ℕ × ℕ))) : List String → FStore → Py Unit × FStore
  | [], st => (.ok (), st)
  | l :: ls, st => thenDo (addStrainToStore ds order l st) (addStrainAll ds order ls)

/-- The features of input or output, rnn_material_model/train_model.py:256-264, 265-273. -/
def putTogether (ds : FDataset) (new : String) (labels : List String) (remove : Bool) (st : FStore) :
    FeatBuild → Py Unit × FStore
  | .cat => concatFeatures ds st new labels remove
  | .sum w => sumFeatures ds st new labels (some w) remove

/-- The features of a data set, rnn_material_model/train_model.py:213-239 (validation), 249-273 (training),
predict.py:206-230; rc_material_model/train_model.py:343-350, 357-363, predict.py:101-104;
hybrid_material_model/train_model.py:318-336, 344-360, predict.py:136-149.  `hidden` is the initial hidden state,
set for the GRU models only. -/
def scriptFeatures (ds : FDataset) (order : Option (List (ℕ × ℕ))) (o : FeatOption) (removeIn removeOut : Bool)
    (hidden : Option FTensor) (st : FStore) : Py Unit × FStore :=
  thenDo (addStrainAll ds order o.strain st) fun st =>
    thenDo (putTogether ds "features_in" o.inLabels removeIn st o.inBuild) fun st =>
      thenDo (putTogether ds "features_out" o.outLabels removeOut st o.outBuild) fun st =>
        match hidden with
        | none => (.ok (), st)
        | some h => addFeatureInit ds st "hidden_features_in" h

/-- `torch.zeros((n_recurrent_layers, hidden_layer_size))`, rnn_material_model/train_model.py:181-182. -/
def zeroHidden (layers size : ℕ) : FTensor := ⟨size, List.replicate layers (List.replicate size 0)⟩

/-- Training and validation data sets of the GRU models. -/
def rnnTrainFeatures (ds : FDataset) (order : Option (List (ℕ × ℕ))) (name : String) (layers size : ℕ)
    (st : FStore) : Py Unit × FStore :=
  match rnnOption name with
  | .error e => (.error e, st)
  | .ok o => scriptFeatures ds order o false false (some (zeroHidden layers size)) st

/-- Testing data set of the GRU models. -/
def rnnPredictFeatures (ds : FDataset) (order : Option (List (ℕ × ℕ))) (name : String) (layers size : ℕ)
    (st : FStore) : Py Unit × FStore :=
  match rnnPredictOption name with
  | .error e => (.error e, st)
  | .ok o => scriptFeatures ds order o false false (some (zeroHidden layers size)) st

/-- Training and validation data sets of the recurrent constitutive models. -/
def rcTrainFeatures (ds : FDataset) (order : Option (List (ℕ × ℕ))) (name : String) (st : FStore) :
    Py Unit × FStore :=
  match rcOption name with
  | .error e => (.error e, st)
  | .ok o => scriptFeatures ds order o true true none st

/-- Testing data set of the recurrent constitutive models. -/
def rcPredictFeatures (ds : FDataset) (order : Option (List (ℕ × ℕ))) (name : String) (nIn nOut : ℕ)
    (st : FStore) : Py Unit × FStore :=
  match rcPredictOption name nIn nOut with
  | .error e => (.error e, st)
  | .ok o => scriptFeatures ds order o true true none st

/-- Training data set (`validation = false`) or validation data set (`true`) of the hybrid models. -/
def hybridTrainFeatures (ds : FDataset) (order : Option (List (ℕ × ℕ))) (name : String) (validation : Bool)
    (st : FStore) : Py Unit × FStore :=
  match hybridOption name with
  | .error e => (.error e, st)
  | .ok o => scriptFeatures ds order o false validation none st

/-- Testing data set of the hybrid models. -/
def hybridPredictFeatures (ds : FDataset) (order : Option (List (ℕ × ℕ))) (name : String) (st : FStore) :
    Py Unit × FStore :=
  match hybridPredictOption name with
  | .error e => (.error e, st)
  | .ok o => scriptFeatures ds order o false false none st

/-! ## Learning rate -/

/-- `gamma = (lr_end/lr_init)**(1/n_max_epochs)`, rnn_material_model/train_model.py:193-194,
rc_material_model/train_model.py:320-322, hybrid_material_model/train_model.py:304-305. -/
def decayGamma (lrInit lrEnd : ℝ) (n : ℕ) : ℝ := (lrEnd / lrInit) ^ ((1 : ℝ) / n)

end

/-! ## Directory of the case study -/

/-- The directories `1_training_dataset`, `2_validation_dataset` and `3_model`; `none` is a directory that does
not exist. -/
structure CaseDir (D M : Type) where
  train : Option (KDict Text D)
  valid : Option (KDict Text D)
  model : Option M

/-- The validation data set: required by the GRU script (rnn_material_model/train_model.py:528-541), optional if
there is no directory for the others (rc_material_model/train_model.py:662-674,
hybrid_material_model/train_model.py:797-809). -/
def validationSet {D : Type} (required : Bool) (dir : Option (KDict Text D)) : Py (Option D) :=
  if required = false ∧ dir = none then .ok none
  else (searchDir isDatasetFile dir).map some

/-- The main program of a training script for a case study, rnn_material_model/train_model.py:499-553: `blank` is
the content of a new directory and `fit` is `perform_model_standard_training`. -/
def trainingMain {D M : Type} (required : Bool) (blank : M) (fit : D → Option D → M → Py Unit × M)
    (c : Option (CaseDir D M)) : Py Unit × Option (CaseDir D M) :=
  match c with
  | none => (.error .runtimeError, none)
  | some c =>
    match searchDir isDatasetFile c.train with
    | .error e => (.error e, some c)
    | .ok a =>
      match validationSet required c.valid with
      | .error e => (.error e, some { c with model := some blank })
      | .ok b => ((fit a b blank).1, some { c with model := some (fit a b blank).2 })

end Hooke
