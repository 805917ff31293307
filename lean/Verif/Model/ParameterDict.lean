import Verif.Model.PyDict

/-!
# Nested parameter dictionaries

`material_model_finder/utilities/torch_parameters.py`.  A `torch.nn.ParameterDict` is a tree: each
key holds a parameter or another dictionary.  Names are lists of characters.  Keys that are already
attributes of `torch.nn.ParameterDict` (`keys`, `values`, `training`, ...), which `__setitem__`
refuses, are outside the model.
-/

namespace Hooke

/-- A name, as a list of characters. -/
abbrev PName := List Char

/-- A value stored in a `torch.nn.ParameterDict`: a parameter or a nested dictionary. -/
inductive PNode (V : Type)
  | leaf (v : V)
  | node (items : List (PName × PNode V))

/-- The items of a `torch.nn.ParameterDict`. -/
abbrev ParamDict (V : Type) := KDict PName (PNode V)

/-- `set_parameter_in_dict(param_dict, split_name, value)`
(`material_model_finder/utilities/torch_parameters.py:24-53`), returning the updated dictionary.
An empty `split_name` fails at `split_name[0]` (line 40); descending into a parameter, which is a
tensor, fails when it is indexed or searched with a string (lines 46, 49), modelled as `TypeError`. -/
def setParameterInDict {V : Type} : ParamDict V → List PName → V → Py (ParamDict V)
  | _, [], _ => .error .indexError
  | d, [key], v => .ok (d.put key (.leaf v))
  | d, key :: key' :: rest, v =>
    match d.get? key with
    | none => do
      let sub ← setParameterInDict [] (key' :: rest) v
      .ok (d.put key (.node sub))
    | some (.node items) => do
      let sub ← setParameterInDict items (key' :: rest) v
      .ok (d.put key (.node sub))
    | some (.leaf _) => .error .typeError

/-- `get_model_parameter_dict(model)`
(`material_model_finder/utilities/torch_parameters.py:55-80`) for the pairs
`model.named_parameters()` yields.  `name.split('.')` is `List.splitOn '.'`. -/
def getModelParameterDict {V : Type} (params : List (PName × V)) : Py (ParamDict V) :=
  params.foldlM (fun d p => setParameterInDict d (p.1.splitOn '.') p.2) []

end Hooke
