import Verif.Model.ModelState

/-!
# Specification of the checkpoint store

What a user of `save_model_state` / `load_model_state` has in mind: a store with a default state, an
initial state, one state per epoch and a best state with its epoch.
-/

namespace Hooke

/-- Abstract checkpoint store. -/
structure Ckpt (σ : Type) where
  default : Option σ
  init : Option σ
  epoch : ℕ → Option σ
  best : Option (ℕ × σ)

namespace Ckpt

variable {σ : Type}

/-- Forget the epochs after `k`. -/
def dropAfter (a : Ckpt σ) (k : ℕ) : Ckpt σ :=
  { a with epoch := fun j => if k < j then none else a.epoch j }

/-- Forget the epochs after a known epoch, if requested. -/
def dropIf (a : Ckpt σ) (epoch : Option ℕ) (rm : Bool) : Ckpt σ :=
  match epoch, rm with
  | some k, true => a.dropAfter k
  | _, _ => a

/-- Storing a state, without removal. -/
def store (a : Ckpt σ) (s : σ) : StateType → Option ℕ → Ckpt σ
  | .init, _ => { a with init := some s }
  | .best, some k => { a with best := some (k, s) }
  | .best, none => a
  | _, some k => { a with epoch := fun j => if j = k then some s else a.epoch j }
  | _, none => { a with default := some s }

/-- Intended effect of saving. -/
def save (a : Ckpt σ) (s : σ) (t : StateType) (epoch : Option ℕ) (rm : Bool) : Ckpt σ :=
  (a.store s t epoch).dropIf epoch rm

/-- Outcome of a stored entry. -/
def found (o : Option σ) (epoch : Option ℕ) : Py (Option ℕ × σ) :=
  match o with
  | some s => .ok (epoch, s)
  | none => .error .runtimeError

/-- Effect and outcome of loading: `a.Load req rm r a'` means that loading returns (or raises) `r`
and leaves the store `a'`. -/
def Load (a : Ckpt σ) (req : LoadState) (rm : Bool) (r : Py (Option ℕ × σ)) (a' : Ckpt σ) : Prop :=
  match req with
  | .default => r = found a.default none ∧ a' = a
  | .init => r = found a.init (some 0) ∧ a' = a.dropIf (some 0) rm
  | .int k => r = found (a.epoch k) (some k) ∧ a' = a.dropIf (some k) rm
  | .best =>
    match a.best with
    | some (k, s) => r = .ok (some k, s) ∧ a' = a.dropIf (some k) rm
    | none => r = .error .runtimeError ∧ a' = a
  | .last => a' = a ∧
    ((∃ k s, a.epoch k = some s ∧ (∀ j, k < j → a.epoch j = none) ∧ r = .ok (some k, s)) ∨
      ((∀ k, a.epoch k = none) ∧ r = .error .runtimeError))

end Ckpt

/-- Operations of a history. -/
inductive CkptOp (σ : Type)
  | save (s : σ) (t : StateType) (epoch : Option ℕ) (rm : Bool)
  | load (req : LoadState) (rm : Bool)

/-- Best states are saved with their epoch. -/
def CkptOp.Ok {σ : Type} : CkptOp σ → Prop
  | .save _ .best none _ => False
  | _ => True

/-- What an operation returns: a save returns nothing. -/
abbrev CkptOut (σ : Type) := Py (Option (Option ℕ × σ))

/-- Execution of an operation on the directory. -/
def CkptOp.run {σ : Type} (name : FName) (d : Dir σ) : CkptOp σ → CkptOut σ × Dir σ
  | .save s t epoch rm => ((saveState name d s t epoch rm).1.map fun _ => none,
      (saveState name d s t epoch rm).2)
  | .load req rm => ((loadState name d req rm).1.map some, (loadState name d req rm).2)

/-- Execution of a history: outcomes and final directory. -/
def runCkpt {σ : Type} (name : FName) : Dir σ → List (CkptOp σ) → List (CkptOut σ) × Dir σ
  | d, [] => ([], d)
  | d, op :: ops => ((op.run name d).1 :: (runCkpt name (op.run name d).2 ops).1,
      (runCkpt name (op.run name d).2 ops).2)

/-- Intended behaviour of a history. -/
inductive CkptSpec {σ : Type} : Ckpt σ → List (CkptOp σ) → List (CkptOut σ) → Ckpt σ → Prop
  | nil (a : Ckpt σ) : CkptSpec a [] [] a
  | save {a : Ckpt σ} {s t epoch rm ops outs a'} :
      CkptSpec (a.save s t epoch rm) ops outs a' →
      CkptSpec a (.save s t epoch rm :: ops) (.ok none :: outs) a'
  | load {a a1 : Ckpt σ} {req rm r ops outs a'} : a.Load req rm r a1 → CkptSpec a1 ops outs a' →
      CkptSpec a (.load req rm :: ops) (r.map some :: outs) a'

/-- The empty store. -/
def Ckpt.empty {σ : Type} : Ckpt σ := ⟨none, none, fun _ => none, none⟩

/-- `f` is not a state file of the model as far as the code can tell. -/
def Unrelated (name f : FName) : Prop :=
  checkStateFile name f = .ok none ∧ checkBestFile name f = .ok none

/-- The directory `d` holds exactly the states of the store `a`, in complete files, besides unrelated
files. -/
structure Represents {σ : Type} (name : FName) (d : Dir σ) (a : Ckpt σ) : Prop where
  nodup : d.keys.Nodup
  default : d.get? (stateFile name .default none) = a.default.map .full
  init : d.get? (stateFile name .init none) = a.init.map .full
  epoch : ∀ k, d.get? (stateFile name .epoch (some k)) = (a.epoch k).map .full
  best : ∀ k, d.get? (stateFile name .best (some k))
    = (a.best.bind fun p => if p.1 = k then some p.2 else none).map .full
  known : ∀ f ∈ d.keys, Unrelated name f ∨ (∃ k, f = stateFile name .epoch (some k)) ∨
    ∃ k, f = stateFile name .best (some k)

end Hooke
