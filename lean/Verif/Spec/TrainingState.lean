import Verif.Spec.ModelState
import Verif.Model.TrainingState

/-!
# Specification of training states

What a user of `save_training_state` has in mind: one store of pairs (model state, optimizer state).
-/

namespace Hooke

/-- The model states of a store of pairs. -/
def Ckpt.models {σ ω : Type} (a : Ckpt (σ × ω)) : Ckpt (TrainFile σ ω) where
  default := a.default.map fun p => .inl p.1
  init := a.init.map fun p => .inl p.1
  epoch := fun k => (a.epoch k).map fun p => .inl p.1
  best := a.best.map fun p => (p.1, .inl p.2.1)

/-- The optimizer states of a store of pairs, each with the epoch of its entry; no optimizer state is
stored with the initial model state. -/
def Ckpt.optims {σ ω : Type} (a : Ckpt (σ × ω)) : Ckpt (TrainFile σ ω) where
  default := a.default.map fun p => .inr (p.2, none)
  init := none
  epoch := fun k => (a.epoch k).map fun p => .inr (p.2, some k)
  best := a.best.map fun p => (p.1, .inr (p.2.2, some p.1))

/-- The directory holds exactly the pairs of the store: model states in the model state files and
optimizer states in the optimizer state files. -/
def RepresentsPairs {σ ω : Type} (name : FName) (d : Dir (TrainFile σ ω)) (a : Ckpt (σ × ω)) : Prop :=
  Represents name d a.models ∧ Represents (optimName name) d a.optims

/-- Operations on a training directory. -/
inductive TrainOp (σ ω : Type)
  | save (s : σ) (o : ω) (t : StateType) (epoch : Option ℕ) (rm : Bool)
  | load (req : LoadState) (rm : Bool)
  | validate (s : σ) (o : ω) (epoch : ℕ)

/-- Best states are saved with their epoch, initial states without, and states are loaded without
removal (as `predict` does). -/
def TrainOp.Ok {σ ω : Type} : TrainOp σ ω → Prop
  | .save _ _ .best none _ => False
  | .save _ _ .init (some _) _ => False
  | .load _ true => False
  | _ => True

/-- Execution on the directory: the directory afterwards. -/
def TrainOp.run {σ ω : Type} (name : FName) (d : Dir (TrainFile σ ω)) :
    TrainOp σ ω → Dir (TrainFile σ ω)
  | .save s o t epoch rm => (saveTraining name d s o t epoch rm).2
  | .load req rm => (loadState name d req rm).2
  | .validate s o epoch => (validateTraining name d s o epoch).2

/-- Intended effect: saving stores the pair; loading and validating leave the saved pairs alone, except
that validating at an epoch which is not saved forgets the later epochs. -/
def TrainOp.effect {σ ω : Type} (a : Ckpt (σ × ω)) : TrainOp σ ω → Ckpt (σ × ω)
  | .save s o t epoch rm => a.save (s, o) t epoch rm
  | .load _ _ => a
  | .validate _ _ epoch => if (a.epoch epoch).isSome then a else a.dropAfter epoch

end Hooke
