import Verif.Model.ModelState
import Verif.Model.Float

/-!
# Training loop and early stopping
(`src/hookeai/model_architectures/rnn_base_model/train/training.py`)

The optimisation itself is abstract: `fit e s` is the model state after the training steps of epoch
`e` started in state `s`, together with the average loss of the epoch (training.py 306-401).  The
optimiser state, its files, the learning rate history and the printed output are left out.  Files of
model states are those of `Model/ModelState.lean`.
-/

namespace Hooke

noncomputable section

/-- `a <= b` of floating point numbers. -/
def Fl.le : Fl → Fl → Prop
  | .fin x, .fin y => x ≤ y
  | .fin _, .inf s => s = false
  | .inf s, .fin _ => s = true
  | .inf s, .inf t => s = true ∨ t = false
  | .nan, _ => False
  | _, .nan => False

open Classical in
/-- Step of Python's `min`: replaced by a strictly smaller element. -/
def pyMinStep (m x : Fl) : Fl := if Fl.lt x m then x else m

/-- Python's `min` of a nonempty list. -/
def pyMin : List Fl → Py Fl
  | [] => .error .valueError
  | x :: xs => .ok (xs.foldl pyMinStep x)

open Classical in
/-- `l.index(x)`: first position of an equal element; NaN equals nothing. -/
def lossIndex (x : Fl) : List Fl → Py ℕ
  | [] => .error .valueError
  | y :: ys => if y = x ∧ x ≠ .nan then .ok 0 else (lossIndex x ys).map (· + 1)

/-- Attributes of `EarlyStopper` (training.py 582-603). The best model state comes with its epoch. -/
structure Stopper (σ : Type) where
  steps : List ℕ
  hist : List Fl
  minLoss : Fl
  notImprove : ℕ
  best : Option (σ × ℕ)

/-- `EarlyStopper.__init__` (training.py 590-603). -/
def Stopper.start (σ : Type) : Stopper σ := ⟨[], [], .inf false, 0, none⟩

/-- Parameters of early stopping; `vloss e s` is the average validation loss predicted in epoch `e`
with the model state `s`. -/
structure EarlyCfg (σ : Type) where
  freq : ℕ
  trigger : ℕ
  tol : ℝ
  vloss : ℕ → σ → Fl

/-- `EarlyStopper.is_evaluate_criterion` (training.py 615-629). -/
def isEvaluate (freq epoch : ℕ) : Py Bool :=
  if freq = 0 then .error .zeroDivision else .ok (decide (epoch % freq = 0))

/-- Update of the validation loss history (training.py 781-790). -/
def pushHistory (hist : List Fl) (epoch : ℕ) (v : Fl) : List Fl :=
  match hist.getLast? with
  | none => [v]
  | some l => hist ++ List.replicate (epoch - hist.length) l ++ [v]

open Classical in
/-- `EarlyStopper.evaluate_criterion` after the validation loss `v` has been computed
(training.py 667-710, 781-790). -/
def Stopper.evaluate {σ : Type} (cfg : EarlyCfg σ) (s : Stopper σ) (model : σ) (epoch : ℕ) (v : Fl) :
    Bool × Stopper σ :=
  let steps := s.steps ++ [epoch]
  let n :=
    if Fl.lt v s.minLoss then
      if 1 < steps.length then
        if Fl.lt (.fin cfg.tol) (Fl.div (Fl.sub s.minLoss v) (Fl.abs s.minLoss)) then 0
        else s.notImprove + 1
      else s.notImprove
    else s.notImprove + 1
  (decide (cfg.trigger ≤ n),
    { steps := steps
      hist := pushHistory s.hist epoch v
      minLoss := if Fl.lt v s.minLoss then v else s.minLoss
      notImprove := n
      best := if Fl.lt v s.minLoss then some (model, epoch) else s.best })

/-- Outcome of a save as a value. -/
def saved {σ : Type} (r : Py Unit × Dir σ) : Py (Dir σ) := r.1.map fun _ => r.2

/-- `EarlyStopper._validate_model`, up to the validation loss (training.py 748-776, 793-795): the
epoch file is written if there is none, the model state is loaded from it (without removal), and it
is removed again if it was written here. Returns the model state and the directory. -/
def validateModel {σ : Type} (name : FName) (d : Dir σ) (model : σ) (epoch : ℕ) : Py (σ × Dir σ) :=
  match d.get? (stateFile name .epoch (some epoch)) with
  | none => do
    let d1 ← saved (saveState name d model .epoch (some epoch) true)
    let r ← (loadState name d1 (.int epoch) false).1
    pure (r.2, d1.del (stateFile name .epoch (some epoch)))
  | some _ => do
    let r ← (loadState name d (.int epoch) false).1
    pure (r.2, d)

/-- Variables of the training loop. -/
structure TrainState (σ : Type) where
  dir : Dir σ
  model : σ
  losses : List Fl
  stopper : Stopper σ
  stop : Bool
  epoch : ℕ

/-- Parameters of `train_model`. -/
structure TrainCfg (σ : Type) where
  name : FName
  nMax : ℕ
  saveEvery : Option ℕ
  early : Option (EarlyCfg σ)
  fit : ℕ → σ → σ × Fl

/-- Saving every given number of epochs (training.py 409-411). -/
def saveEveryPart {σ : Type} (cfg : TrainCfg σ) (T : TrainState σ) : Py (TrainState σ) :=
  match cfg.saveEvery with
  | none => .ok T
  | some 0 => .error .zeroDivision
  | some k =>
    if T.epoch % k = 0 then
      (saved (saveState cfg.name T.dir T.model .epoch (some T.epoch) true)).map fun d =>
        { T with dir := d }
    else .ok T

open Classical in
/-- Saving the best state (training.py 415-417). -/
def saveBestPart {σ : Type} (cfg : TrainCfg σ) (T : TrainState σ) (loss : Fl) : Py (TrainState σ) :=
  pyMin T.losses >>= fun m =>
    if Fl.le loss m then
      (saved (saveState cfg.name T.dir T.model .best (some T.epoch) true)).map fun d =>
        { T with dir := d }
    else .ok T

/-- Evaluation of the early stopping criterion (training.py 422-426). -/
def evaluatePart {σ : Type} (cfg : TrainCfg σ) (ec : EarlyCfg σ) (T : TrainState σ) :
    Py (TrainState σ) :=
  isEvaluate ec.freq T.epoch >>= fun b =>
    if b then
      (validateModel cfg.name T.dir T.model T.epoch).map fun r =>
        { T with
          dir := r.2
          model := r.1
          stopper := (T.stopper.evaluate ec r.1 T.epoch (ec.vloss T.epoch r.1)).2
          stop := (T.stopper.evaluate ec r.1 T.epoch (ec.vloss T.epoch r.1)).1 }
    else .ok T

/-- Restoring and saving the best performing state when training stops (training.py 429-435, 799-829).
-/
def stopPart {σ : Type} (cfg : TrainCfg σ) (T : TrainState σ) : Py (TrainState σ) :=
  if T.stop then
    match T.stopper.best with
    | none => .error .runtimeError
    | some (s, e) =>
      (saved (saveState cfg.name T.dir s .best (some e) true)).map fun d =>
        { T with dir := d, model := s }
  else .ok T

/-- Early stopping part of an epoch (training.py 420-435). -/
def earlyPart {σ : Type} (cfg : TrainCfg σ) (T : TrainState σ) : Py (TrainState σ) :=
  match cfg.early with
  | none => .ok T
  | some ec => evaluatePart cfg ec T >>= stopPart cfg

/-- One epoch (training.py 306-435). -/
def epochBody {σ : Type} (cfg : TrainCfg σ) (T : TrainState σ) : Py (TrainState σ) := do
  let r := cfg.fit T.epoch T.model
  let T1 ← saveEveryPart cfg { T with model := r.1, losses := T.losses ++ [r.2] }
  let T2 ← saveBestPart cfg T1 r.2
  earlyPart cfg T2

/-- The loop (training.py 304-448), with the number of epochs which may follow the current one. -/
def trainLoop {σ : Type} (cfg : TrainCfg σ) : ℕ → TrainState σ → Py (TrainState σ)
  | 0, T => epochBody cfg T
  | rem + 1, T => epochBody cfg T >>= fun T1 =>
    if T1.stop then .ok T1 else trainLoop cfg rem { T1 with epoch := T1.epoch + 1 }

/-- Everything up to the final saves (training.py 218, 304-469), from a model state `s`. -/
def trainRun {σ : Type} (cfg : TrainCfg σ) (d : Dir σ) (s : σ) : Py (TrainState σ) := do
  let d0 ← saved (saveState cfg.name d s .init none true)
  let T ← trainLoop cfg cfg.nMax ⟨d0, s, [], Stopper.start σ, false, 0⟩
  let d1 ← saved (saveState cfg.name T.dir T.model .epoch (some T.epoch) true)
  pure { T with dir := d1 }

/-- Returned best loss and best epoch (training.py 472-507); the average time per epoch divides by
the last epoch. -/
def trainReturn {σ : Type} (T : TrainState σ) : Py (Fl × ℕ) := do
  let m ← pyMin T.losses
  let k ← lossIndex m T.losses
  raiseIf (T.epoch = 0) .zeroDivision
  pure (m, k)

end

end Hooke
