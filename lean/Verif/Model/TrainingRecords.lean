import Verif.Model.ModelState
import Verif.Model.Float

/-!
# Records of a training: losses, learning rates and parameters

`model_architectures/procedures/model_training.py:163-340, 456-654`, `utilities/optimizers.py`,
`model_architectures/rc_base_model/train/training.py:633-775` (the functions of the same names of the
material model finder and of the hybrid models have the same text) and the learning rates of the training
loops (for example `rnn_base_model/train/training.py:244-250, 386-406`).  Floats are reals or `Fl`.
Learning rate schedulers are those of PyTorch, modelled by their recursive updates.  Figures are left
out, except the data that they show.
-/

noncomputable section

open Classical

namespace Hooke

/-- An entry of a history: a number, a tensor without dimensions, or the list of learning rates of
`lr_scheduler.get_last_lr()`. -/
inductive HistEntry where
  | num (x : Fl)
  | tensor (x : Fl)
  | rates (l : List ℝ)

/-- A pickled value of a record. -/
inductive RecVal (ω : Type) where
  | none
  | int (n : ℤ)
  | str (s : String)
  | list (l : List HistEntry)
  | obj (o : ω)

/-- `str(value)` of a value of a record; only texts are stored where it is used, and the texts of lists
and objects are left out. -/
def RecVal.text {ω : Type} : RecVal ω → String
  | .none => "None"
  | .int n => toString n
  | .str s => s
  | .list _ => ""
  | .obj _ => ""

/-- The files of the model directory that hold records. -/
abbrev RecDir (ω : Type) := Dir (PyDict (RecVal ω))

/-- The file of the loss history (model_training.py:194-195). -/
def lossRecordFile : FName := "loss_history_record.pkl".toList

/-- The file of the parameters history (rc training.py:655-656). -/
def paramsRecordFile : FName := "parameters_history_record.pkl".toList

/-- The file of the best parameters (rc training.py:729-730). -/
def bestParamsFile : FName := "parameters_best.pkl".toList

/-- A value or `None` (model_training.py:205-219). -/
def optVal {α ω : Type} (f : α → RecVal ω) : Option α → RecVal ω
  | some a => f a
  | none => .none

/-- The record of `save_loss_history` (model_training.py:198-219). -/
def lossRecord {ω : Type} (nMax : ℤ) (nature type : String) (train : List HistEntry)
    (lrType : Option String) (lr valid : Option (List HistEntry)) : PyDict (RecVal ω) :=
  let r : PyDict (RecVal ω) := []
  let r := r.put "n_max_epochs" (.int nMax)
  let r := r.put "loss_nature" (.str nature)
  let r := r.put "loss_type" (.str type)
  let r := r.put "training_loss_history" (.list train)
  let r := r.put "lr_scheduler_type" (optVal .str lrType)
  let r := r.put "lr_history_epochs" (optVal .list lr)
  r.put "validation_loss_history" (optVal .list valid)

/-- The file operations of `save_loss_history` (model_training.py:222-223). -/
def saveLossOps {ω : Type} (nMax : ℤ) (nature type : String) (train : List HistEntry)
    (lrType : Option String) (lr valid : Option (List HistEntry)) : List (FsOp (PyDict (RecVal ω))) :=
  writeOps lossRecordFile (lossRecord nMax nature type train lrType lr valid)

/-- The record in a file: `RuntimeError` if there is no file, and the error of `pickle.load`, here
`osError`, if it has not been written completely (model_training.py:250-256, 317-323). -/
def loadRecord {ω : Type} (d : RecDir ω) (f : FName) : Py (PyDict (RecVal ω)) :=
  match d.get? f with
  | none => .error .runtimeError
  | some .partialWrite => .error .osError
  | some (.full r) => .ok r

/-- `x.detach().cpu()` of tensors (model_training.py:278-282). -/
def detachEntry : HistEntry → HistEntry
  | .tensor x => .tensor x
  | e => e

/-- `read_loss_history_from_file` (model_training.py:225-296). -/
def readLoss {ω : Type} (d : RecDir ω) (f : FName) :
    Py (String × String × List HistEntry × Option (List HistEntry)) := do
  let r ← loadRecord d f
  raiseIf (r.has "loss_nature" = false) .runtimeError
  raiseIf (r.has "loss_type" = false) .runtimeError
  let train ← orRaise (r.get? "training_loss_history") .runtimeError
  let nature ← orRaise (r.get? "loss_nature") .keyError
  let type ← orRaise (r.get? "loss_type") .keyError
  match train with
  | .list train => do
    let valid ← orRaise (r.get? "validation_loss_history") .keyError
    let valid' := match valid with
      | .list v => some (v.map detachEntry)
      | _ => none
    .ok (nature.text, type.text, train.map detachEntry, valid')
  | _ => .error .runtimeError

/-- `read_lr_history_from_file` (model_training.py:298-340). -/
def readLr {ω : Type} (d : RecDir ω) (f : FName) : Py (RecVal ω × List HistEntry) := do
  let r ← loadRecord d f
  let type ← orRaise (r.get? "lr_scheduler_type") .runtimeError
  let hist ← orRaise (r.get? "lr_history_epochs") .runtimeError
  match hist with
  | .list l => .ok (type, l)
  | _ => .error .runtimeError

/-- `save_parameters_history` (rc training.py:633-667). -/
def saveParamsOps {ω : Type} (history bounds : ω) : List (FsOp (PyDict (RecVal ω))) :=
  let r : PyDict (RecVal ω) := []
  let r := r.put "model_parameters_history" (.obj history)
  writeOps paramsRecordFile (r.put "model_parameters_bounds" (.obj bounds))

/-- `save_best_parameters` (rc training.py:707-739). -/
def saveBestOps {ω : Type} (best bounds : ω) : List (FsOp (PyDict (RecVal ω))) :=
  let r : PyDict (RecVal ω) := []
  let r := r.put "best_model_parameters" (.obj best)
  writeOps bestParamsFile (r.put "model_parameters_bounds" (.obj bounds))

/-- `read_parameters_history_from_file` (rc training.py:669-705). -/
def readParams {ω : Type} (d : RecDir ω) (f : FName) : Py (RecVal ω × RecVal ω) := do
  let r ← loadRecord d f
  let h ← orRaise (r.get? "model_parameters_history") .keyError
  let b ← orRaise (r.get? "model_parameters_bounds") .keyError
  .ok (h, b)

/-- `read_best_parameters_from_file` (rc training.py:741-775). -/
def readBest {ω : Type} (d : RecDir ω) (f : FName) : Py (RecVal ω × RecVal ω) := do
  let r ← loadRecord d f
  let h ← orRaise (r.get? "best_model_parameters") .keyError
  let b ← orRaise (r.get? "model_parameters_bounds") .keyError
  .ok (h, b)

/-! ### Learning rates -/

/-- The keyword arguments of a scheduler; `other` are names that no scheduler of the code accepts
(`last_epoch` and `verbose` are left out). -/
structure SchedArgs where
  stepSize : Option ℕ := none
  gamma : Option ℝ := none
  startFactor : Option ℝ := none
  endFactor : Option ℝ := none
  totalIters : Option ℕ := none
  other : List String := []

/-- A learning rate scheduler. -/
inductive LrSched where
  | step (size : ℕ) (gamma : ℝ)
  | exp (gamma : ℝ)
  | linear (start stop : ℝ) (total : ℕ)

/-- `get_learning_rate_scheduler` (optimizers.py:52-102), with the checks of the constructors of
PyTorch: `TypeError` for other keywords, `ValueError` for factors out of range. -/
def getScheduler (type : String) (a : SchedArgs) : Py LrSched :=
  if type = "steplr" then do
    let size ← orRaise a.stepSize .runtimeError
    raiseIf (a.startFactor.isSome ∨ a.endFactor.isSome ∨ a.totalIters.isSome ∨ a.other ≠ []) .typeError
    .ok (.step size (a.gamma.getD 0.1))
  else if type = "explr" then do
    let g ← orRaise a.gamma .runtimeError
    raiseIf (a.stepSize.isSome ∨ a.startFactor.isSome ∨ a.endFactor.isSome ∨ a.totalIters.isSome
      ∨ a.other ≠ []) .typeError
    .ok (.exp g)
  else if type = "linlr" then do
    raiseIf (a.stepSize.isSome ∨ a.gamma.isSome ∨ a.other ≠ []) .typeError
    let s := a.startFactor.getD (1 / 3)
    let e := a.endFactor.getD 1
    raiseIf (s > 1 ∨ s ≤ 0) .valueError
    raiseIf (e > 1 ∨ e < 0) .valueError
    .ok (.linear s e (a.totalIters.getD 5))
  else .error .runtimeError

/-- The learning rate that a scheduler sets when it is built (`_initial_step` of PyTorch). -/
def LrSched.first (s : LrSched) (lr : ℝ) : ℝ :=
  match s with
  | .linear a _ _ => lr * a
  | _ => lr

/-- The learning rate after a step of a scheduler, the step number `k ≥ 1` (`get_lr` of PyTorch). -/
def LrSched.next (s : LrSched) (k : ℕ) (lr : ℝ) : Py ℝ :=
  match s with
  | .step size g => if size = 0 then .error .zeroDivision else .ok (if k % size = 0 then lr * g else lr)
  | .exp g => .ok (lr * g)
  | .linear a b n =>
      .ok (if n < k then lr else lr * (1 + (b - a) / (n * a + ((k : ℝ) - 1) * (b - a))))

/-- Learning rates of a training: the current one, the ones that the epochs have used, which
`lr_history_steps` holds for each step and no file stores, and `lr_history_epochs`. -/
structure LrState where
  lr : ℝ
  used : List ℝ
  recorded : List HistEntry

/-- The learning rates of an epoch: the steps of the epoch use the current one, then the scheduler makes
a step, and then its learning rate is recorded (rnn training.py:386-406). -/
def lrEpoch (sched : Option LrSched) (lrInit : ℝ) (S : LrState) (epoch : ℕ) : Py LrState :=
  match sched with
  | none => .ok ⟨S.lr, S.used ++ [S.lr], S.recorded ++ [.num (.fin lrInit)]⟩
  | some s => do
    let lr ← s.next (epoch + 1) S.lr
    .ok ⟨lr, S.used ++ [S.lr], S.recorded ++ [.rates [lr]]⟩

/-- The learning rates of the first `n` epochs of a training (rnn training.py:244-250, 304-406). -/
def lrRun (sched : Option LrSched) (lrInit : ℝ) (n : ℕ) : Py LrState :=
  (List.range n).foldlM (lrEpoch sched lrInit)
    ⟨match sched with
      | none => lrInit
      | some s => s.first lrInit, [], []⟩

/-! ### The data of the figures -/

/-- The array of `plot_training_loss_history` by rows, a pair of columns for each history: the epoch and
the loss, or nothing (model_training.py:492-517); `max` of no histories is an error. -/
def lossPlotData (hs : List (String × List HistEntry)) : Py (List (List (Option (ℕ × HistEntry)))) := do
  raiseIf (hs = []) .valueError
  let n := (hs.map fun h => h.2.length).foldl max 0
  .ok ((List.range n).map fun r => hs.map fun h => h.2[r]?.map fun v => (r, v))

/-- The two arrays of `plot_training_loss_and_lr_history` by rows (model_training.py:595-610). -/
def lrPlotData (loss lr : List HistEntry) : Py (List (ℕ × HistEntry) × List (ℕ × HistEntry)) := do
  raiseIf (lr.length ≠ loss.length) .runtimeError
  .ok ((List.range loss.length).zip loss, (List.range loss.length).zip lr)

/-- `generate_standard_training_plots` up to the figures (rc_material_model/train_model.py:408-446). -/
def standardPlots {ω : Type} (d : RecDir ω) :
    Py (List (List (Option (ℕ × HistEntry))) × List (ℕ × HistEntry) × List (ℕ × HistEntry)) := do
  let r ← readLoss d lossRecordFile
  let hs := match r.2.2.2 with
    | some v => [("Training", r.2.2.1), ("Validation", v)]
    | none => [("Training", r.2.2.1)]
  let l ← readLr d lossRecordFile
  let p1 ← lossPlotData hs
  let p2 ← lrPlotData r.2.2.1 l.2
  .ok (p1, p2)

end Hooke
