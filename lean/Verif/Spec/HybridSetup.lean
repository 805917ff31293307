import Verif.Model.HybridSetup

/-!
# Specification of the set-up of hybridized models
-/

namespace Hooke.Spec

/-- How a hybridized model comes about: from its initialization arguments, without writing an initialization
file of its own, or, only if there are none, from an initialization file. -/
def SubBuilt {μ σ ω : Type} (c : ClassOps μ σ ω) (a : HybSetupArgs σ) (d : InitDisk σ) (m : μ)
    (d' : InitDisk σ) : Prop :=
  (∃ args, a.initArgs = some args ∧
    ((c.hasSaveInit = true ∧ c.construct args (some false) d = .ok (m, d')) ∨
      (c.hasSaveInit = false ∧ c.construct args none d = .ok (m, d')))) ∨
  (a.initArgs = none ∧ d' = d ∧ ∃ p f, a.initPath = some p ∧ c.fromFile = some f ∧ f p d = .ok m)

/-- Its state is that of the state file, if one is given. -/
def SubLoaded {μ σ ω : Type} (c : ClassOps μ σ ω) (states : String → Option ω) (a : HybSetupArgs σ)
    (m m' : μ) : Prop :=
  (a.statePath = none ∧ m' = m) ∨
    ∃ p w, a.statePath = some p ∧ states p = some w ∧ c.loadState w m = .ok m'

/-- A scaler of a dictionary: missing scalers are `None`. -/
def scalerNamed {σ : Type} (k : PyDict (Option σ)) (name : String) : Option σ :=
  match k.get? name with
  | some s => s
  | none => none

/-- Its data scalers are the given ones, if any are given. -/
def SubScaled {μ σ ω : Type} (c : ClassOps μ σ ω) (a : HybSetupArgs σ) (m m' : μ) : Prop :=
  (a.scalers = .none ∧ m' = m) ∨
    ∃ k f, a.scalers = .dict k ∧ c.setScalers = some f ∧
      f (scalerNamed k "features_in") (scalerNamed k "features_out") m = .ok m'

end Hooke.Spec
