import Verif.Model.PyUtil

/-!
# Type conversion of parameter dictionaries (`src/hookeai/utilities/type_conversion.py`)

A dictionary is the list of its items; nested dictionaries are not shared and not cyclic.  Because
dictionaries are mutable, the model of a function returns the returned value together with the
contents of the argument after the call.
-/

namespace Hooke

/-- Floating point precisions. -/
inductive FPrec
  | f16 | f32 | f64
  deriving DecidableEq

/-- Values stored in the dictionaries. `num` is a Python int, float or bool (tagged), `ftensor` a
floating point tensor, `itensor` any other tensor; tensor contents are abstract. -/
inductive PVal
  | num (x : ℤ)
  | ftensor (prec : FPrec) (data : ℕ)
  | itensor (data : ℕ)
  | ofNum (x : ℤ)
  | dict (items : List (String × PVal))
  | other (tag : ℕ)

/-- Dictionary items. -/
abbrev Items := List (String × PVal)

/-- `torch.tensor(value)` of a number, `PVal.ofNum`. -/
def toTensor (x : ℤ) : PVal := .ofNum x

/-- One entry of `convert_dict_to_tensor` in place (type_conversion.py 54-62). A dictionary value
leads to the call `convert_dict_to_tensor(value, in_place=True)`, whose keyword does not exist. -/
def toTensorEntry : PVal → Py PVal
  | .dict _ => .error .typeError
  | .num x => .ok (toTensor x)
  | v => .ok v

/-- Loop of `convert_dict_to_tensor` in place (type_conversion.py 52-62): the result (or the
exception) and the contents of the dictionary afterwards. -/
def toTensorInplace : Items → Py Unit × Items
  | [] => (.ok (), [])
  | (k, v) :: rest =>
    match toTensorEntry v with
    | .error e => (.error e, (k, v) :: rest)
    | .ok v' => ((toTensorInplace rest).1, (k, v') :: (toTensorInplace rest).2)

/-- Loop of `convert_dict_to_tensor` not in place (type_conversion.py 63-78): only numbers are
stored in the new dictionary. -/
def toTensorNew : Items → Py Items
  | [] => .ok []
  | (k, v) :: rest =>
    match v with
    | .dict _ => .error .typeError
    | .num x => (toTensorNew rest).map fun r => (k, toTensor x) :: r
    | _ => toTensorNew rest

/-- `convert_dict_to_tensor` (type_conversion.py 30-80): returned dictionary (or exception) and the
argument afterwards. -/
def convertDictToTensor (d : Items) (inplace : Bool) : Py Items × Items :=
  if inplace then ((toTensorInplace d).1.map fun _ => (toTensorInplace d).2, (toTensorInplace d).2)
  else (toTensorNew d, d)

mutual
/-- In-place conversion of a value to precision `p`: a nested dictionary is converted in place and
returned (type_conversion.py 126-136, 202-212). -/
def castVal (p : FPrec) : PVal → PVal
  | .dict items => .dict (castItems p items)
  | .ftensor _ data => .ftensor p data
  | .num x => .num x
  | .itensor data => .itensor data
  | .ofNum x => .ofNum x
  | .other t => .other t
/-- In-place conversion of all entries. -/
def castItems (p : FPrec) : List (String × PVal) → List (String × PVal)
  | [] => []
  | (k, v) :: rest => (k, castVal p v) :: castItems p rest
end

/-- Side effect on a value of the argument when not in place: a nested dictionary is converted by
the recursive call with its default `is_inplace=True` (type_conversion.py 145, 221). -/
def castNestedVal (p : FPrec) : PVal → PVal
  | .dict items => .dict (castItems p items)
  | v => v

/-- Side effect on the argument when not in place. -/
def castNested (p : FPrec) (d : Items) : Items := d.map fun kv => (kv.1, castNestedVal p kv.2)

/-- `convert_dict_to_float32` / `convert_dict_to_float64` (type_conversion.py 105-156, 181-232):
returned dictionary and argument afterwards. -/
def convertDictToFloat (p : FPrec) (d : Items) (inplace : Bool) : Items × Items :=
  if inplace then (castItems p d, castItems p d) else (castItems p d, castNested p d)

end Hooke
