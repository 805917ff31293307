import Verif.Model.Hybrid

/-!
# Specification of hybrid models
-/

namespace Hooke.Spec

/-- The models arranged in channels: models with the same first index are in the same channel, in order
of their second index; the channels are in order of the first index. -/
structure IsChannels (l : List HybEntry) (chs : List (List HybEntry)) : Prop where
  all : chs.flatten.Perm l
  nonempty : l ≠ [] → ∀ ch ∈ chs, ch ≠ []
  same : ∀ ch ∈ chs, ∀ a ∈ ch, ∀ b ∈ ch, a.indices.1 = b.indices.1
  order : ∀ ch ∈ chs, ch.Pairwise fun a b => a.indices.2 < b.indices.2
  increasing : chs.Pairwise fun c d => ∀ a ∈ c, ∀ b ∈ d, a.indices.1 < b.indices.1

/-- Tensors of the same shape. -/
def SameFeatShape (s t : FeatTensor) : Prop := s.map List.length = t.map List.length

/-- What the model gets from its data scalers: `b` from `a` by the scaler, or `a` itself if the model
does not ask for normalized features. -/
def Scaled (asks : Option Bool) (has : Bool) (s : Option HybScaler)
    (f : HybScaler → FeatTensor → Py FeatTensor) (a b : FeatTensor) : Prop :=
  (asks = some true ∧ has = true ∧ SameFeatShape a b ∧ ∃ sc, s = some sc ∧ f sc a = .ok b) ∨
    (asks ≠ some true ∧ b = a)

/-- The hybridized model computes `f` in physical units: normalizing the features with its input scaler
(if the model expects normalized input features), evaluating the model, taking the tensor it returns or
the first one of the tuple, and denormalizing it with its output scaler (if it is normalized) gives
`f`. -/
def Computes (e : HybEntry) (f : FeatTensor → FeatTensor) : Prop :=
  ∀ t, ∃ u v, Scaled e.inNorm e.hasTransform (e.scalers.bind Prod.fst) HybScaler.transform t u ∧
    (e.call u = .ok (.tensor v) ∨ ∃ rest, e.call u = .ok (.tuple (v :: rest))) ∧
    Scaled e.outNorm e.hasTransform (e.scalers.bind Prod.snd) HybScaler.inverse v (f t)

/-- Composition of the functions of a channel; a model with an input residual connection gets the
features of the previous model followed by those of the hybrid model. -/
def compose (f : HybEntry → FeatTensor → FeatTensor) (x : FeatTensor) :
    List HybEntry → FeatTensor → FeatTensor
  | [], t => t
  | e :: es, t => compose f x es (f e (if e.residual then List.zipWith (· ++ ·) t x else t))

end Hooke.Spec
