import Verif.Model.ModelState

/-!
# Training states (`src/hookeai/model_architectures/procedures/model_training.py` 49-161)

A training state is a model state file together with an optimizer state file in the same directory.
The directory therefore holds two kinds of contents: model states and optimizer states, the latter
with the epoch recorded in the file.
-/

namespace Hooke

/-- Contents of the files of a training directory: a model state, or an optimizer state with its
recorded epoch (model_training.py:129-130). -/
abbrev TrainFile (σ ω : Type) := σ ⊕ (ω × Option ℕ)

/-- `model.model_name + '_optim'` (model_training.py:97). -/
def optimName (name : FName) : FName := name ++ "_optim".toList

/-- Removal of the best optimizer state files; the epoch is not parsed (model_training.py:107-124). -/
def removeBestOptim {τ : Type} (name : FName) (d : Dir τ) : Py Unit × List (FsOp τ) :=
  removeLoop (fun f => .ok (matchesBest (optimName name) f)) d.keys

/-- `remove_posterior_optim_state_files` (model_training.py:136-161). -/
def removePosteriorOptim {τ : Type} (name : FName) (d : Dir τ) (epoch : ℕ) :
    Py Unit × List (FsOp τ) :=
  removeLoop (fun f => (checkStateFile (optimName name) f).map fun
    | some e => decide (e > epoch)
    | none => false) d.keys

/-- Removal before writing (model_training.py:107-124). -/
def optimOps1 {τ : Type} (name : FName) (d : Dir τ) (t : StateType) : Py Unit × List (FsOp τ) :=
  if t = .best then removeBestOptim name d else (.ok (), [])

/-- Removal after writing (model_training.py:132-134). -/
def optimOps2 {τ : Type} (name : FName) (d : Dir τ) (epoch : Option ℕ) (rm : Bool) :
    Py Unit × List (FsOp τ) :=
  match epoch, rm with
  | some k, true => removePosteriorOptim name d k
  | _, _ => (.ok (), [])

/-- The optimizer part of `save_training_state` (model_training.py:96-134). -/
def optimOps {σ ω : Type} (name : FName) (d : Dir (TrainFile σ ω)) (o : ω) (t : StateType)
    (epoch : Option ℕ) (rm : Bool) : Py Unit × List (FsOp (TrainFile σ ω)) :=
  if t = .init then (.ok (), [])
  else
    match optimOps1 name d t with
    | (.error e, ops) => (.error e, ops)
    | (.ok _, ops1) =>
      let ops := ops1 ++ writeOps (stateFile (optimName name) t epoch) (.inr (o, epoch))
      ((optimOps2 name (applyOps d ops) epoch rm).1,
        ops ++ (optimOps2 name (applyOps d ops) epoch rm).2)

/-- `save_training_state` (model_training.py:49-134): outcome and file operations. -/
def trainingOps {σ ω : Type} (name : FName) (d : Dir (TrainFile σ ω)) (s : σ) (o : ω)
    (t : StateType) (epoch : Option ℕ) (rm : Bool) : Py Unit × List (FsOp (TrainFile σ ω)) :=
  match saveOps name d (.inl s) t epoch rm with
  | (.error e, ops) => (.error e, ops)
  | (.ok _, ops) =>
    ((optimOps name (applyOps d ops) o t epoch rm).1,
      ops ++ (optimOps name (applyOps d ops) o t epoch rm).2)

/-- `save_training_state`: outcome and directory afterwards. -/
def saveTraining {σ ω : Type} (name : FName) (d : Dir (TrainFile σ ω)) (s : σ) (o : ω)
    (t : StateType) (epoch : Option ℕ) (rm : Bool) : Py Unit × Dir (TrainFile σ ω) :=
  ((trainingOps name d s o t epoch rm).1, applyOps d (trainingOps name d s o t epoch rm).2)

/-- The temporary files of `EarlyStopper._validate_model` (rnn_base_model/train/training.py 759-776,
793-795): if the epoch has no model state file, the training state is saved (with `state_type`
'epoch', posterior files being removed), the model state is loaded and both files are removed;
otherwise the model state is loaded. `os.remove` raises if the file is missing.
The validation itself is left out. -/
def validateTraining {σ ω : Type} (name : FName) (d : Dir (TrainFile σ ω)) (s : σ) (o : ω)
    (epoch : ℕ) : Py Unit × Dir (TrainFile σ ω) :=
  match d.get? (stateFile name .epoch (some epoch)) with
  | some _ => ((loadState name d (.int epoch) false).1.map fun _ => (), d)
  | none =>
    match saveTraining name d s o .epoch (some epoch) true with
    | (.error e, d1) => (.error e, d1)
    | (.ok _, d1) =>
      match (loadState name d1 (.int epoch) false).1 with
      | .error e => (.error e, d1)
      | .ok _ =>
        match d1.get? (stateFile name .epoch (some epoch)) with
        | none => (.error .osError, d1)
        | some _ =>
          let d2 := d1.del (stateFile name .epoch (some epoch))
          match d2.get? (stateFile (optimName name) .epoch (some epoch)) with
          | none => (.error .osError, d2)
          | some _ => (.ok (), d2.del (stateFile (optimName name) .epoch (some epoch)))

/-- Validation of the recurrent constitutive and hybrid models (rc_base_model/train/training.py
1166-1173, hybrid_base_model/train/training.py 957-964): the call of `save_training_state` lacks the
required argument `state_type`, a `TypeError` before anything is written. -/
def validateTrainingNoType {σ ω : Type} (name : FName) (d : Dir (TrainFile σ ω)) (epoch : ℕ) :
    Py Unit × Dir (TrainFile σ ω) :=
  match d.get? (stateFile name .epoch (some epoch)) with
  | some _ => ((loadState name d (.int epoch) false).1.map fun _ => (), d)
  | none => (.error .typeError, d)

end Hooke
