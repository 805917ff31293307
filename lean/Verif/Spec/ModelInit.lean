import Verif.Model.ModelInit

/-!
# What a rebuilt model must agree on
-/

namespace Hooke.Spec

noncomputable section

/-- The attribute of a model that was set from each argument of the constructor. -/
def modelAttribute {σ : Type} (m : GruObj σ) : String → Option ArgVal
  | "n_features_in" => some m.nFeaturesIn
  | "n_features_out" => some m.nFeaturesOut
  | "hidden_layer_size" => some m.hiddenLayerSize
  | "n_recurrent_layers" => some m.nRecurrentLayers
  | "dropout" => some m.dropout
  | "model_name" => some m.name
  | "is_model_in_normalized" => some m.inNormalized
  | "is_model_out_normalized" => some m.outNormalized
  | "gru_model_source" => some m.source
  | "device_type" => some (.str m.device)
  | "model_directory" => some (match m.directory with | some s => .str s | none => .none)
  | _ => none

/-- Default value of each optional argument of the constructor. -/
def defaultArgument : String → Option ArgVal
  | "model_name" => some (.str "gru_material_model")
  | "is_model_in_normalized" => some (.bool false)
  | "is_model_out_normalized" => some (.bool false)
  | "n_recurrent_layers" => some (.nat 1)
  | "dropout" => some (.real 0)
  | "gru_model_source" => some (.str "torch")
  | "device_type" => some (.str "cpu")
  | _ => none

/-- The scalers a user set or fitted last. -/
def lastScalers {σ : Type} (s : Scalers2 σ) : List (ScalerOp σ) → Scalers2 σ
  | [] => s
  | .set i o :: ops => lastScalers ⟨i, o⟩ ops
  | .fit (.ok i) (.ok o) :: ops => lastScalers ⟨some i, some o⟩ ops
  | _ :: ops => lastScalers s ops

end

end Hooke.Spec
