import Verif.Model.PyUtil

/-!
# Python dictionaries

A dictionary is the list of its items in insertion order.  `put` keeps the position of an existing
key and appends a new one; `pop` removes the item.
-/

namespace Hooke

/-- A `dict` with keys of type `K`. -/
abbrev KDict (K β : Type) := List (K × β)

/-- A `dict` with string keys. -/
abbrev PyDict (β : Type) := KDict String β

namespace KDict

variable {K β : Type} [DecidableEq K]

/-- `d.keys()`. -/
def keys (d : KDict K β) : List K := d.map Prod.fst

/-- `d.get(k)`. -/
def get? : KDict K β → K → Option β
  | [], _ => none
  | (k', v) :: rest, k => if k' = k then some v else get? rest k

/-- `d[k] = v`. -/
def put : KDict K β → K → β → KDict K β
  | [], k, v => [(k, v)]
  | (k', v') :: rest, k, v => if k' = k then (k', v) :: rest else (k', v') :: put rest k v

/-- `del d[k]` for a key of `d`; nothing for another. -/
def del : KDict K β → K → KDict K β
  | [], _ => []
  | (k', v') :: rest, k => if k' = k then rest else (k', v') :: del rest k

/-- `k in d.keys()`. -/
def has (d : KDict K β) (k : K) : Bool := (d.get? k).isSome

end KDict

end Hooke
