import Verif.Model.FinderTraining
import Verif.Spec.Training
import Verif.Spec.CompositeParameters

/-!
# Specification: training of the material model finder
-/

namespace Hooke.Spec

noncomputable section

/-- The states of a training: `m 0` is the initial state with its bounds and constraints, `m (e + 1)`
the state after the step of epoch `e`. -/
def TrainingStates {σ : Type} (cfg : FinderCfg σ) (m0 : σ) (m : ℕ → σ) : Prop :=
  boundParams cfg m0 = .ok (m 0) ∧ ∀ e, finderUpdate cfg e (m e) = .ok (m (e + 1))

/-- `ph e` are the parameters of the state `m e`, always under the labels `keys`. -/
def Parameters {σ : Type} (cfg : FinderCfg σ) (m : ℕ → σ) (keys : List String) (ph : ℕ → PyDict ℝ) :
    Prop :=
  ∀ e, cfg.ops.detached (m e) = .ok (ph e) ∧ (ph e).keys = keys

/-- The value of a parameter in the state `m (e + 1)`. -/
def valueAfter (ph : ℕ → PyDict ℝ) (key : String) (e : ℕ) : ℝ := ((ph (e + 1)).get? key).getD 0

/-- The change between consecutive values: relative to the previous value, unless that is at most
`1e-8` in absolute value. -/
def change (prev next : ℝ) : ℝ :=
  open Classical in if 1e-8 < |prev| then |next - prev| / |prev| else |next - prev|

/-- The parameters have converged at epoch `e`: more than `minLen` and more than `trigger` epochs have
been run, and none of the last `trigger` changes of any parameter reaches the tolerance. -/
def ConvergedAt (c : StopCriterion) (keys : List String) (v : String → ℕ → ℝ) (e : ℕ) : Prop :=
  c.minLen < e + 1 ∧ c.trigger < e + 1 ∧
    ∀ key ∈ keys, ∀ i < e, e ≤ i + c.trigger → change (v key i) (v key (i + 1)) < c.tol

/-- For each epoch, the mean of the value before the epoch and the values after its steps. -/
def meansFrom (prev : ℝ) : List (List ℝ) → List ℝ
  | [] => []
  | vals :: rest =>
    (prev + vals.sum) / (vals.length + 1) :: meansFrom ((prev :: vals).getLast (by simp)) rest

/-- Training of at most `nMax + 1` epochs stops after epoch `e`: it is the last one or the first one
at which the parameters have converged. -/
def StopsAfter (nMax : ℕ) (conv : ℕ → Prop) (e : ℕ) : Prop :=
  e ≤ nMax ∧ (e = nMax ∨ conv e) ∧ ∀ i < e, ¬ conv i

end

end Hooke.Spec
