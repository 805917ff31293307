import Verif.Model.CompositeParameters

/-!
# Specification: parameters of composite material models
-/

namespace Hooke.Spec

/-- The models with explicit parameters among named models, with the text before the names of their
parameters in labels that start with `start`. -/
def explicitOf (start : String) (nms : List (String × SubModel)) : List (String × LearnState) :=
  nms.flatMap fun nm => match nm.2 with
    | .explicit s => [(start ++ nm.1 ++ "_", s)]
    | .opaque => []

/-- The models with explicit parameters of a specimen, with the text before the names of their
parameters in labels: `model_<key>_<submodel>_<parameter>` for hybrid models,
`model_<key>_<parameter>` for others. -/
def explicitModels (ms : MatModels) : List (String × LearnState) :=
  ms.flatMap fun km => match km.2 with
    | .hybrid h => explicitOf ("model_" ++ km.1 ++ "_") (h.names.zip h.models)
    | .single m => explicitOf "model_" [(km.1, m)]

/-- The labels of the parameters. -/
def labelsOf (l : List (String × LearnState)) : List String :=
  l.flatMap fun p => p.2.params.keys.map fun name => p.1 ++ name

/-- The parameters of a model have been created from declared parameters with distinct names and then
changed by a training. -/
def Declared (R : Bool → List Learnable → LearnState → Prop) (s : LearnState) : Prop :=
  ∃ isNorm ps, (ps.map Learnable.name).Nodup ∧ R isNorm ps s

end Hooke.Spec
