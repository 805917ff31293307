import Verif.Spec.RecurrentForward

/-!
# Specification vocabulary of the response data sets
-/

noncomputable section

namespace Hooke.Spec

variable {n : ℕ} {σ : Type}

/-- The recurrent constitutive model with the same constitutive model, component order and state
features as a data set generator. -/
def recurrentOf (co : List Comp) (features : List (String × ℕ)) (M : RcModel n σ) (check : Bool) :
    RcNet n σ where
  sf := .infinitesimal
  co := co
  features := features
  nOut := co.length + (features.map fun f => f.2).sum
  check := check
  model := M

/-- The setting of a data set generator: components, sizes, and every requested state variable is in the
state. -/
structure GoodSetting (co : List Comp) (features : List (String × ℕ)) (M : RcModel n σ) : Prop where
  comps : CompleteSym n co
  sized : Sized co features M
  present : ∀ s, ∀ f ∈ features, ∃ v, M.var f.1 s = some v

/-- The strain path with the rows `sp`. -/
def rowAt (sp : List (List ℝ)) (t : ℕ) : List ℝ := sp.getD t []

/-- No state update of the path fails. -/
def Succeeds (co : List Comp) (M : RcModel n σ) (sp : List (List ℝ)) (st : ℕ → σ) : Prop :=
  Trajectory M co (rowAt sp) sp.length st ∧ ∀ t, 0 < t → t < sp.length → M.suFail (st t) = false

/-- The first state update of the path that fails is that of time `t`. -/
def FailsAt (co : List Comp) (M : RcModel n σ) (sp : List (List ℝ)) (st : ℕ → σ) (t : ℕ) : Prop :=
  0 < t ∧ t < sp.length ∧ Trajectory M co (rowAt sp) (t + 1) st ∧ M.suFail (st t) = true ∧
    ∀ s, 0 < s → s < t → M.suFail (st s) = false

/-- The response with the states `st`: at time zero all stresses and state features are zero. -/
def responseOf (co : List Comp) (features : List (String × ℕ)) (M : RcModel n σ) (sp : List (List ℝ))
    (st : ℕ → σ) : ResponsePath where
  strain := sp
  stress := (List.range sp.length).map fun t =>
    if t = 0 then List.replicate co.length 0 else kelvinComps co (M.stressMf (st t))
  states := features.map fun f => (f.1, (List.range sp.length).map fun t =>
    if t = 0 then List.replicate f.2 0 else featureRow (recurrentOf co features M false) (st t) f)

/-- A strain path as a batch of one path. -/
def batchOf (k : ℕ) (sp : List (List ℝ)) : Tensor :=
  ⟨[sp.length, 1, k], fun idx => (rowAt sp (idx.getD 0 0)).getD (idx.getD 2 0) 0⟩

/-- Of the calls of the strain path generator, `draws j` the path of call `j`, those from `a` on until
`b`, of which there are at most ten, all but the last give paths with a failed state update, and the
last one gives the response `r`. -/
def Sampled (co : List Comp) (features : List (String × ℕ)) (M : RcModel n σ) (draws : ℕ → List (List ℝ))
    (a b : ℕ) (r : ResponsePath) : Prop :=
  a < b ∧ b ≤ a + 10 ∧ (∃ st, Succeeds co M (draws (b - 1)) st ∧
    r = responseOf co features M (draws (b - 1)) st) ∧
    ∀ j, a ≤ j → j < b - 1 → ∃ st t, FailsAt co M (draws j) st t

end Hooke.Spec
