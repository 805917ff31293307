import Verif.Model.Py

namespace Hooke

/-- `d[key]` for a lookup result: the value, or the exception `e`. -/
def orRaise {α : Type*} (o : Option α) (e : PyErr) : Py α :=
  match o with
  | some a => .ok a
  | none => .error e

/-- `if cond: raise e`. -/
def raiseIf (cond : Prop) [Decidable cond] (e : PyErr) : Py Unit :=
  if cond then .error e else .ok ()

end Hooke
