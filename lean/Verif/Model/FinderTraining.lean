import Verif.Model.CompositeParameters
import Verif.Model.Training
import Verif.Model.TimeSeriesBatch

/-!
# Training of the material model finder

`material_model_finder/train/training.py:50-420`, and the parts of the training of recurrent
constitutive and hybrid models that record parameters and decide when to stop
(`model_architectures/rc_base_model/train/training.py`).

The forward pass, the gradient and the optimiser are parameters of the model: `loss m` is the loss of
the model state `m`, `opt e m` the state after the optimiser step of epoch `e`.  Files are the subject
of `Model/ModelState.lean` and `Model/TrainingState.lean`: here a saved state is recorded with its
epoch.  Learning rates, printed output and the optimiser state are left out.
-/

namespace Hooke

noncomputable section

/-! ### Convergence of the parameters -/

/-- Arguments of `check_model_parameters_convergence`; the numbers are natural. -/
structure StopCriterion where
  tol : ℝ
  trigger : ℕ
  minLen : ℕ

open Classical in
/-- One entry of `rdiff_hist` from consecutive values
(`rc_base_model/train/training.py:830-835`). -/
def changeOf (prev next : ℝ) : ℝ :=
  if |prev| > 1e-8 then |(|next - prev|) / prev| else |(|next - prev|)|

/-- `rdiff_hist` (`rc_base_model/train/training.py:830-835`). -/
def changesOf (h : List ℝ) : List ℝ := List.zipWith changeOf h h.tail

/-- `l[-n:]`. -/
def lastEntries {α : Type} (n : ℕ) (l : List α) : List α :=
  if n = 0 then l else l.drop (l.length - n)

open Classical in
/-- `is_param_converged`, false for a history of at most one value
(`rc_base_model/train/training.py:817-818`, `828-845`). -/
def paramConverged (c : StopCriterion) (h : List ℝ) : Bool :=
  if 1 < h.length then
    if c.trigger < h.length then
      decide (∀ r ∈ lastEntries c.trigger (changesOf h), r < c.tol)
    else false
  else false

open Classical in
/-- `parameters_status` of one parameter: `is_converged`, `absolute_change`, `relative_change`
(`rc_base_model/train/training.py:851-882`). -/
def paramStatus (c : StopCriterion) (h : List ℝ) : Bool × Option ℝ × Option ℝ :=
  if 1 < h.length then
    let prev := (h[h.length - 2]?).getD 0
    let next := (h[h.length - 1]?).getD 0
    (paramConverged c h, some |next - prev|,
      if |prev| > 1e-8 then some (changeOf prev next) else none)
  else (false, none, none)

/-- `check_model_parameters_convergence(model_parameters_history_steps, ...)`
(`rc_base_model/train/training.py:777-904`): the convergence flag and the status of the parameters.
The last value of an empty history does not exist; without parameters `param_hist` is unbound. -/
def checkConvergence (c : StopCriterion) (hist : PyDict (List ℝ)) :
    Py (Bool × PyDict (Bool × Option ℝ × Option ℝ)) := do
  let status ← hist.mapM fun p => do
    raiseIf (p.2 = []) .indexError
    .ok (p.1, paramStatus c p.2)
  let last ← orRaise hist.getLast? .unboundLocal
  .ok (hist.all (fun p => paramConverged c p.2) && decide (c.minLen < last.2.length), status)

/-! ### The training loop -/

/-- What the training does with the parameters of the model. -/
structure ParamOps (σ : Type) where
  enforce : σ → Py σ
  constrain : σ → Py σ
  detached : σ → Py (PyDict ℝ)

/-- The operations of the material model finder; `con` is `enforce_parameters_constraints()` of one
model (`material_discovery.py:536-607`, `682-797`). -/
def finderOps (con : LearnState → Py LearnState) : ParamOps MatModels where
  enforce := finderEnforce
  constrain := finderConstrain con
  detached := finderDetached

/-- Arguments of `train_model` (`material_model_finder/train/training.py:50-56`): `n_max_epochs`,
`is_explicit_model_parameters`, `save_every`, `is_params_stopping` with `params_stopping_kwargs`. -/
structure FinderCfg (σ : Type) where
  nMax : ℕ
  isExplicit : Bool
  saveEvery : Option ℕ
  stopping : Option StopCriterion
  loss : σ → Fl
  opt : ℕ → σ → σ
  ops : ParamOps σ

/-- Variables of the loop.  `best` is the last saved state of type `best` with its epoch, `saved` the
states of type `epoch`. -/
structure FinderState (σ : Type) where
  model : σ
  lossSteps : List Fl
  losses : List Fl
  histSteps : PyDict (List ℝ)
  histEpochs : PyDict (List ℝ)
  best : Option (ℕ × σ)
  bestParams : Option (PyDict ℝ)
  saved : List (ℕ × σ)
  stop : Bool
  epoch : ℕ
  step : ℕ

/-- Bounds and constraints, if the parameters are explicit
(`material_model_finder/train/training.py:171-175`, `262-266`). -/
def boundParams {σ : Type} (cfg : FinderCfg σ) (m : σ) : Py σ :=
  if cfg.isExplicit then do
    let m ← cfg.ops.enforce m
    cfg.ops.constrain m
  else .ok m

/-- Optimiser step, bounds and constraints (`material_model_finder/train/training.py:246-266`). -/
def finderUpdate {σ : Type} (cfg : FinderCfg σ) (epoch : ℕ) (m : σ) : Py σ :=
  boundParams cfg (cfg.opt epoch m)

/-- `history[key].append(val)` for each item (`material_model_finder/train/training.py:295-296`). -/
def appendValues (hist : PyDict (List ℝ)) (items : PyDict ℝ) : Py (PyDict (List ℝ)) :=
  items.foldlM (fun h p => do
    let l ← orRaise (h.get? p.1) .keyError
    .ok (h.put p.1 (l ++ [p.2]))) hist

/-- The parameters after a step (`material_model_finder/train/training.py:291-296`). -/
def recordStep {σ : Type} (cfg : FinderCfg σ) (S : FinderState σ) : Py (FinderState σ) :=
  if cfg.isExplicit then do
    let items ← cfg.ops.detached S.model
    let h ← appendValues S.histSteps items
    .ok { S with histSteps := h }
  else .ok S

/-- The mean of the parameters in an epoch (`material_model_finder/train/training.py:315-319`). -/
def recordEpoch {σ : Type} (cfg : FinderCfg σ) (keys : List String) (init : ℕ) (S : FinderState σ) :
    Py (FinderState σ) :=
  if cfg.isExplicit then do
    let h ← keys.foldlM (fun h key => do
      let e ← orRaise (h.get? key) .keyError
      let s ← orRaise (S.histSteps.get? key) .keyError
      .ok (h.put key (e ++ [meanR (s.drop init)]))) S.histEpochs
    .ok { S with histEpochs := h }
  else .ok S

/-- Saving every given number of epochs (`material_model_finder/train/training.py:322-326`). -/
def finderSaveEvery {σ : Type} (cfg : FinderCfg σ) (S : FinderState σ) : Py (FinderState σ) :=
  match cfg.saveEvery with
  | none => .ok S
  | some 0 => .error .zeroDivision
  | some k => .ok (if S.epoch % k = 0 then { S with saved := S.saved ++ [(S.epoch, S.model)] } else S)

open Classical in
/-- Saving the best state (`material_model_finder/train/training.py:330-338`). -/
def finderSaveBest {σ : Type} (cfg : FinderCfg σ) (loss : Fl) (S : FinderState σ) :
    Py (FinderState σ) :=
  pyMin S.losses >>= fun m =>
    if Fl.le loss m then
      if cfg.isExplicit then do
        let items ← cfg.ops.detached S.model
        .ok { S with best := some (S.epoch, S.model), bestParams := some items }
      else .ok { S with best := some (S.epoch, S.model) }
    else .ok S

/-- The stopping criterion (`material_model_finder/train/training.py:341-345`). -/
def finderCheck {σ : Type} (cfg : FinderCfg σ) (S : FinderState σ) : Py (FinderState σ) :=
  match cfg.isExplicit, cfg.stopping with
  | true, some c => do
    let r ← checkConvergence c S.histEpochs
    .ok { S with stop := r.1 }
  | _, _ => .ok S

/-- One epoch (`material_model_finder/train/training.py:240-345`); `keys` are those of the initial
parameters. -/
def finderEpoch {σ : Type} (cfg : FinderCfg σ) (keys : List String) (S : FinderState σ) :
    Py (FinderState σ) := do
  let init := S.step
  let loss := cfg.loss S.model
  let m ← finderUpdate cfg S.epoch S.model
  let S1 ← recordStep cfg { S with model := m, lossSteps := S.lossSteps ++ [loss] }
  let avg := Fl.mean (S1.lossSteps.drop init)
  let S2 ← recordEpoch cfg keys init { S1 with step := S1.step + 1, losses := S1.losses ++ [avg] }
  let S3 ← finderSaveEvery cfg S2
  let S4 ← finderSaveBest cfg avg S3
  finderCheck cfg S4

/-- The loop (`material_model_finder/train/training.py:238-358`), with the number of epochs which may
follow the current one. -/
def finderLoop {σ : Type} (cfg : FinderCfg σ) (keys : List String) :
    ℕ → FinderState σ → Py (FinderState σ)
  | 0, S => finderEpoch cfg keys S
  | rem + 1, S => finderEpoch cfg keys S >>= fun S1 =>
    if S1.stop then .ok S1 else finderLoop cfg keys rem { S1 with epoch := S1.epoch + 1 }

/-- The keys of the initial parameters (`material_model_finder/train/training.py:212-219`). -/
def initialKeys {σ : Type} (cfg : FinderCfg σ) (m : σ) : Py (List String) :=
  if cfg.isExplicit then do
    let items ← cfg.ops.detached m
    .ok items.keys
  else .ok []

/-- Training up to the final save (`material_model_finder/train/training.py:153-367`). -/
def finderTrain {σ : Type} (cfg : FinderCfg σ) (m : σ) : Py (FinderState σ) := do
  let m ← boundParams cfg m
  let keys ← initialKeys cfg m
  let start := keys.map fun k => (k, ([] : List ℝ))
  let S ← finderLoop cfg keys cfg.nMax ⟨m, [], [], start, start, none, none, [], false, 0, 0⟩
  .ok { S with saved := S.saved ++ [(S.epoch, S.model)] }

/-- The saved best parameters and the returned best loss and best epoch
(`material_model_finder/train/training.py:375-391`, `420`); the average time per epoch divides by the
last epoch. -/
def finderReturn {σ : Type} (cfg : FinderCfg σ) (S : FinderState σ) :
    Py (Option (PyDict ℝ) × Fl × ℕ) := do
  raiseIf (cfg.isExplicit = true ∧ S.bestParams = none) .unboundLocal
  let m ← pyMin S.losses
  let k ← lossIndex m S.losses
  raiseIf (S.epoch = 0) .zeroDivision
  .ok (S.bestParams, m, k)

/-! ### Histories of the other trainings -/

/-- The history of one quantity over the epochs: the values of all steps, the value recorded for each
epoch and the number of steps, after an epoch with the step values `vals`
(`rc_base_model/train/training.py:352`, `462`, `471-475`, `482-483`, `491-493`; the same lines of
`hybrid_base_model/train/training.py:408-439`). -/
def historyEpoch (S : List ℝ × List ℝ × ℕ) (vals : List ℝ) : List ℝ × List ℝ × ℕ :=
  (S.1 ++ vals, S.2.1 ++ [meanR ((S.1 ++ vals).drop S.2.2)], S.2.2 + vals.length)

/-- `loss_history_epochs` for the losses of the steps of each epoch
(`rc_base_model/train/training.py:291-294`). -/
def lossHistory (epochs : List (List ℝ)) : List ℝ := (epochs.foldl historyEpoch ([], [], 0)).2.1

/-- `model_parameters_history_epochs` of one parameter with initial value `init`, for its values after
the steps of each epoch: both histories start with the initial value
(`rc_base_model/train/training.py:298-304`, `hybrid_base_model/train/training.py:255-261`). -/
def paramHistory (init : ℝ) (epochs : List (List ℝ)) : List ℝ :=
  (epochs.foldl historyEpoch ([init], [init], 0)).2.1

/-- The end of an epoch in the training of a recurrent constitutive model
(`rc_base_model/train/training.py:510-553`), for the flag `prev` of the previous epoch, the result of
the early stopping criterion if it is evaluated in this epoch, and the convergence of the parameters:
the flag `is_stop_training`, whether the best validated state is restored, and whether the training
ends before `n_max_epochs`. -/
def rcEpochEnd (isEarly isParams prev : Bool) (evaluated : Option Bool) (converged : Bool) :
    Bool × Bool × Bool :=
  let flag := if isEarly then evaluated.getD prev else prev
  let restored := isEarly && flag
  let flag := if isParams then converged else flag
  (flag, restored, (isParams && flag) || (isEarly && flag))

end

end Hooke
