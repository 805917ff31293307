import Verif.Model.ParameterDict

/-!
# Specification: reading a nested parameter dictionary
-/

namespace Hooke.Spec

/-- The parameter a user reads with `d[k₁][k₂]...[kₙ]`; none if a key is missing or the value found
is a dictionary. -/
def readParam {V : Type} : ParamDict V → List PName → Option V
  | _, [] => none
  | d, [k] =>
    match d.get? k with
    | some (.leaf v) => some v
    | _ => none
  | d, k :: k' :: rest =>
    match d.get? k with
    | some (.node items) => readParam items (k' :: rest)
    | _ => none

/-- The name `a` is a proper dotted prefix of the name `b`: `b` is `a`, a dot, and more. -/
def DottedPrefix (a b : PName) : Prop := ∃ s, b = a ++ '.' :: s

end Hooke.Spec
