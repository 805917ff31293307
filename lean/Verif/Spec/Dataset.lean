import Verif.Model.Dataset

/-!
# Specification vocabulary for data sets
-/

namespace Hooke

/-- What a user sees in an in-memory data set: the current contents of its samples, in order. -/
def InMemory.view {α : Type} (ds : InMemory) (h : Samples α) : List α := ds.refs.map h.obj

/-- The list without the positions in `indices`. -/
def withoutPositions {α : Type} (l : List α) (indices : List ℤ) : List α :=
  (l.zipIdx.filter fun p => (p.2 : ℤ) ∉ indices).map Prod.fst

/-- What a client does with an in-memory data set: add new samples with given contents, remove by
index, get all samples (copies), change the `j`-th sample of the `k`-th list of copies obtained. -/
inductive DsOp (α : Type)
  | add (contents : List α)
  | remove (indices : List ℤ)
  | getAll
  | change (k j : ℕ) (f : α → α)

/-- Program state: heap, data set, lists of copies obtained so far. -/
structure DsState (α : Type) where
  heap : Samples α
  ds : InMemory
  copies : List (List ℕ)

/-- Execution of an operation. -/
def DsState.step {α : Type} (s : DsState α) : DsOp α → DsState α
  | .add contents =>
    { s with heap := (s.heap.allocAll contents).1, ds := s.ds.add (s.heap.allocAll contents).2 }
  | .remove indices => { s with ds := s.ds.remove indices }
  | .getAll =>
    { s with heap := (s.ds.getSamples s.heap).1, copies := s.copies ++ [(s.ds.getSamples s.heap).2] }
  | .change k j f =>
    match s.copies[k]?.bind (·[j]?) with
    | some r => { s with heap := s.heap.modify r f }
    | none => s

/-- The intended effect on the contents: adding appends, removing drops the positions, getting
copies and changing the copies has no effect. -/
def DsOp.effect {α : Type} (l : List α) : DsOp α → List α
  | .add contents => l ++ contents
  | .remove indices => withoutPositions l indices
  | .getAll => l
  | .change _ _ _ => l

/-- A data set newly created from samples with the given contents. -/
def DsState.start {α : Type} (h : Samples α) (contents : List α) : DsState α :=
  ⟨(h.allocAll contents).1, InMemory.new (h.allocAll contents).2, []⟩

/-- All samples of a data set, in order. -/
def DS.samples {α : Type} (d : DS α) : List (Py α) := (List.range d.len).map fun (i : ℕ) => d.item (i : ℤ)

/-- Going up from indexes of a subset to indexes of an ancestor by repeated calls of
`get_parent_dataset_indices`. -/
inductive Up {α : Type} : DS α → List ℤ → DS α → List ℤ → Prop
  | refl (d : DS α) (l : List ℤ) : Up d l d l
  | step {p : DS α} {idx : List ℕ} {l : List ℤ} {out : List ℕ} {r : DS α} {l' : List ℤ} :
      parentIndices (.subset p idx) l = .ok out → Up p (out.map fun (i : ℕ) => (i : ℤ)) r l' →
      Up (.subset p idx) l r l'

end Hooke
