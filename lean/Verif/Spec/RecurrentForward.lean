import Verif.Model.RecurrentForward
import Verif.Spec.Kelvin

/-!
# Specification vocabulary of the recurrent constitutive model and the response data sets
-/

noncomputable section

namespace Hooke.Spec

/-- The symmetric tensor with the components `row` in the order `co`: its entry `(i, j)` is the value of
the component that names `i` and `j` in either order. -/
def symTensor (n : ℕ) (co : List Comp) (row : List ℝ) : T2 n := fun i j =>
  row.getD (co.findIdx fun c =>
    decide ((c.i = i.1 ∧ c.j = j.1) ∨ (c.i = j.1 ∧ c.j = i.1))) 0

/-- `st t` is the state at time `t` of the strain path `p` (components at each time) with `T` times:
the initial state, and then the update of the previous state with the increment of the strain. -/
structure Trajectory {n : ℕ} {σ : Type} (M : RcModel n σ) (co : List Comp) (p : ℕ → List ℝ) (T : ℕ)
    (st : ℕ → σ) : Prop where
  init : st 0 = M.init
  step : ∀ t, t + 1 < T →
    M.update (symTensor n co (p (t + 1)) - symTensor n co (p t)) (st t) = .ok (st (t + 1))

/-- Tensor components of a Kelvin vector: shear entries are divided by `√2`. -/
def kelvinComps (co : List Comp) (m : Tensor) : List ℝ :=
  co.map fun c => m.val [co.idxOf c] / (if c.i = c.j then 1 else √2)

/-- The name of a strain variable contains `strain_mf`. -/
def StrainName (name : String) : Prop := "strain_mf".toList <:+: name.toList

instance (name : String) : Decidable (StrainName name) :=
  inferInstanceAs (Decidable ("strain_mf".toList <:+: name.toList))

/-- What a state feature should hold in a state. -/
def featureRow {n : ℕ} {σ : Type} (R : RcNet n σ) (s : σ) (f : String × ℕ) : List ℝ :=
  match R.model.var f.1 s with
  | none => List.replicate f.2 0
  | some v => if StrainName f.1 then kelvinComps R.co v else v.entries

/-- What the response should hold in a state: the stress components, then the state features. -/
def responseRow {n : ℕ} {σ : Type} (R : RcNet n σ) (s : σ) : List ℝ :=
  kelvinComps R.co (R.model.stressMf s) ++ R.features.flatMap (featureRow R s)

/-- Vectors of a state have the expected sizes: stresses and strain variables have one entry per
component, other requested variables as many as requested. -/
structure Sized {n : ℕ} {σ : Type} (co : List Comp) (features : List (String × ℕ)) (M : RcModel n σ) :
    Prop where
  stress : ∀ s, (M.stressMf s).shape = [co.length]
  strain : ∀ s, ∀ f ∈ features, StrainName f.1 → f.2 = co.length ∧
    ∀ v, M.var f.1 s = some v → v.shape = [co.length]
  other : ∀ s, ∀ f ∈ features, ¬ StrainName f.1 →
    ∀ v, M.var f.1 s = some v → v.entries.length = f.2

/-- A recurrent constitutive model set up for its constitutive model. -/
structure Compatible {n : ℕ} {σ : Type} (R : RcNet n σ) : Prop where
  infinitesimal : R.sf = .infinitesimal
  comps : CompleteSym n R.co
  sized : Sized R.co R.features R.model
  nOut : R.nOut = R.co.length + (R.features.map fun f => f.2).sum

/-- Path `i` of a batch of strain paths: the strain components at time `t`. -/
def pathOf (x : Tensor) (i t : ℕ) : List ℝ :=
  (List.range (x.shape.getD 2 0)).map fun k => x.val [t, i, k]

/-- A strain path without the batch dimension, as a batch of one path. -/
def unsqueezed (x : Tensor) : Tensor :=
  ⟨[x.shape.getD 0 0, 1, x.shape.getD 1 0], fun idx => x.val [idx.getD 0 0, idx.getD 2 0]⟩

/-- The requested variables are always in the state and are not strain variables. -/
def PlainFeatures {n : ℕ} {σ : Type} (R : RcNet n σ) : Prop :=
  ∀ f ∈ R.features, ¬ StrainName f.1 ∧ ∀ s, ∃ v, R.model.var f.1 s = some v

end Hooke.Spec
