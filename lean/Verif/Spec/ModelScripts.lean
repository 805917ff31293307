import Verif.Model.DatasetFeatures
import Verif.Spec.StressFeatures

/-! # Inputs and outputs of the local material models -/

namespace Hooke.Spec

/-- A point of a material response: tensors and scalars. -/
structure PathPoint where
  strain : Matrix (Fin 3) (Fin 3) ℝ
  stress : Matrix (Fin 3) (Fin 3) ℝ
  elastic : Matrix (Fin 3) (Fin 3) ℝ
  accPlastic : ℝ
  voidFraction : ℝ
  temperature : ℝ
  composition : ℝ

/-- What a feature of a data set holds at a point of the path, for the component order `o`. -/
noncomputable def quantity (o : List (Fin 3 × Fin 3)) (label : String) (x : PathPoint) : List ℝ :=
  if label = "strain_path" then compsOf o x.strain
  else if label = "stress_path" then compsOf o x.stress
  else if label = "e_strain_mf" then compsOf o x.elastic
  else if label = "acc_p_strain" then [x.accPlastic]
  else if label = "vf_path" then [x.voidFraction]
  else if label = "temperature_hist" then [x.temperature]
  else if label = "composition_hist" then [x.composition]
  else []

/-- The number of columns of a feature. -/
def quantityWidth (o : List (Fin 3 × Fin 3)) (label : String) : ℕ :=
  if label = "strain_path" ∨ label = "stress_path" ∨ label = "e_strain_mf" then o.length else 1

/-- The feature `label` of a sample holds the quantity along the path. -/
def HoldsPath (o : List (Fin 3 × Fin 3)) (P : List PathPoint) (label : String) (d : Feats) : Prop :=
  d.get? label = some ⟨quantityWidth o label, P.map (quantity o label)⟩

/-- The features that the data set of an option must hold. -/
def neededFeatures (name : String) : List String :=
  if name = "strain_to_p_strain" ∨ name = "strain_i1_i2_to_p_strain" then ["strain_path", "e_strain_mf"]
  else if name = "stress_acc_p_strain" ∨ name = "strain_to_stress_acc_p_strain" then
    ["strain_path", "stress_path", "acc_p_strain"]
  else if name = "strain_vf_to_stress" then ["strain_path", "stress_path", "vf_path"]
  else if name = "strain_temperature_composition_to_stress" then
    ["strain_path", "stress_path", "temperature_hist", "composition_hist"]
  else ["strain_path", "stress_path"]

/-- The input of the model: the strain, followed by its invariants, the void fraction, or the temperature and
the composition. -/
noncomputable def modelInput (o : List (Fin 3 × Fin 3)) (name : String) (x : PathPoint) : List ℝ :=
  if name = "strain_i1_i2_to_stress" ∨ name = "strain_i1_i2_to_p_strain" then
    compsOf o x.strain ++ [x.strain.trace, secondInvariant x.strain]
  else if name = "strain_vf_to_stress" then compsOf o x.strain ++ [x.voidFraction]
  else if name = "strain_temperature_composition_to_stress" then
    compsOf o x.strain ++ [x.temperature, x.composition]
  else compsOf o x.strain

/-- The output of the model: the plastic strain; or the stress, which may be followed by the accumulated plastic
strain. -/
noncomputable def modelOutput (o : List (Fin 3 × Fin 3)) (name : String) (x : PathPoint) : List ℝ :=
  if name = "strain_to_p_strain" ∨ name = "strain_i1_i2_to_p_strain" then compsOf o (x.strain - x.elastic)
  else if name = "stress_acc_p_strain" ∨ name = "strain_to_stress_acc_p_strain" then
    compsOf o x.stress ++ [x.accPlastic]
  else compsOf o x.stress

/-- The options of the scripts of the three kinds of models. -/
def rnnNames : List String :=
  ["strain_to_stress", "strain_i1_i2_to_stress", "strain_to_p_strain", "strain_i1_i2_to_p_strain",
    "stress_acc_p_strain", "strain_vf_to_stress", "strain_temperature_composition_to_stress"]
def rcNames : List String := ["strain_to_stress", "strain_to_stress_acc_p_strain"]
def hybridNames : List String := ["strain_to_stress", "strain_i1_i2_to_stress"]

/-- The data set of an option: samples in memory or in files, with the features that the option needs. -/
structure ReadyDataset (o : List (Fin 3 × Fin 3)) (P : ℕ → List PathPoint) (name : String) (ds : FDataset)
    (st : FStore) : Prop where
  kind : ds.kind ≠ .filesSubset
  nodup : ds.slots.Nodup
  nonempty : ds.slots ≠ []
  keys : ∀ r ∈ ds.slots, (st r).keys.Nodup
  holds : ∀ r ∈ ds.slots, ∀ l ∈ neededFeatures name, HoldsPath o (P r) l (st r)
  determines : ∀ r ∈ ds.slots, ∀ x ∈ P r, Determines o x.strain

end Hooke.Spec
