import Verif.Model.RecurrentInit

/-!
# Specification of the initialization file of recurrent constitutive models
-/

namespace Hooke.Spec

/-- Two dictionaries hold the same values. -/
def SameParams (d e : MatParams) : Prop := ∀ k, d.get? k = e.get? k

/-- The model has the same settings as another: arguments, learnable parameters with their bounds, and
scalers. -/
structure SameModel {σ : Type} (m m' : RcObj σ) : Prop where
  saved : m'.saved = m.saved
  directory : m'.directory = m.directory
  scalers : m'.scalers = m.scalers
  names : m'.learn.params.keys = m.learn.params.keys
  bounds : m'.learn.bounds = m.learn.bounds
  normBounds : m'.learn.normBounds = m.learn.normBounds
  normalized : m'.learn.isNormalized = m.learn.isNormalized

end Hooke.Spec
