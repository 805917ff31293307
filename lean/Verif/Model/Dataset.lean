import Verif.Model.PyUtil
import Mathlib.Algebra.Order.Floor.Ring
import Mathlib.Data.Real.Archimedean
import Mathlib.Logic.Function.Basic

/-!
# Time series data sets (`src/hookeai/time_series_data/time_dataset.py`)

`TimeSeriesDatasetInMemory` stores references to the samples (Python dictionaries), so that several
holders may share one sample.  The model has a heap of sample objects; a sample together with the
tensors in it is one object.

`split_dataset` calls `torch.utils.data.random_split`, modelled after its documentation and source;
fractions are real numbers, the random permutation is an argument.
-/

namespace Hooke

/-- `l[index]` of a Python list: negative indexes count from the end. -/
def pyIndex {γ : Type} (l : List γ) (i : ℤ) : Py γ :=
  orRaise (if 0 ≤ i then l[i.toNat]? else if -(l.length : ℤ) ≤ i then l[(l.length + i).toNat]?
    else none) .indexError

/-! ## In-memory data set -/

/-- Heap of sample objects, `next` is the first unused reference. -/
structure Samples (α : Type) where
  obj : ℕ → α
  next : ℕ

namespace Samples

variable {α : Type}

/-- A new sample object. -/
def alloc (h : Samples α) (v : α) : Samples α × ℕ :=
  (⟨Function.update h.obj h.next v, h.next + 1⟩, h.next)

/-- New sample objects for a list of values. -/
def allocAll (h : Samples α) : List α → Samples α × List ℕ
  | [] => (h, [])
  | v :: vs => (((h.alloc v).1.allocAll vs).1, (h.alloc v).2 :: ((h.alloc v).1.allocAll vs).2)

/-- In-place change of the sample object `r` through any reference to it. -/
def modify (h : Samples α) (r : ℕ) (f : α → α) : Samples α :=
  ⟨Function.update h.obj r (f (h.obj r)), h.next⟩

/-- `copy.deepcopy` of a list of references: every reachable object is copied once (the memo of
`deepcopy` keeps sharing), here at the reference shifted by `next`. -/
def deepcopyList (h : Samples α) (l : List ℕ) : Samples α × List ℕ :=
  (⟨fun i => if i < h.next then h.obj i else h.obj (i - h.next), 2 * h.next⟩, l.map (· + h.next))

end Samples

/-- `TimeSeriesDatasetInMemory`: the attribute `_dataset_samples`, a list of references
(time_dataset.py 502-516). -/
structure InMemory where
  refs : List ℕ

namespace InMemory

variable {α : Type}

/-- `__init__` and `from_dataset`: a new list of the same references (time_dataset.py 516, 606). -/
def new (samples : List ℕ) : InMemory := ⟨samples⟩

/-- `__len__` (time_dataset.py 518-526). -/
def len (ds : InMemory) : ℕ := ds.refs.length

/-- `__getitem__`: the reference itself (time_dataset.py 528-546). -/
def getitem (ds : InMemory) (i : ℤ) : Py ℕ := pyIndex ds.refs i

/-- `get_dataset_samples` (time_dataset.py 548-558). -/
def getSamples (ds : InMemory) (h : Samples α) : Samples α × List ℕ := h.deepcopyList ds.refs

/-- `add_dataset_samples` (time_dataset.py 560-571). -/
def add (ds : InMemory) (samples : List ℕ) : InMemory := ⟨ds.refs ++ samples⟩

/-- `[x for i, x in enumerate(l, start) if i not in set(indices)]` (time_dataset.py 584-585). -/
def removeFrom {γ : Type} (indices : List ℤ) : ℕ → List γ → List γ
  | _, [] => []
  | i, x :: xs =>
    if (i : ℤ) ∈ indices then removeFrom indices (i + 1) xs
    else x :: removeFrom indices (i + 1) xs

/-- `remove_dataset_samples` (time_dataset.py 573-585). -/
def remove (ds : InMemory) (indices : List ℤ) : InMemory := ⟨removeFrom indices 0 ds.refs⟩

end InMemory

/-! ## Splitting -/

/-- A data set: any map-style data set with samples of type `α`, or a `torch.utils.data.Subset` of
a data set. -/
inductive DS (α : Type)
  | base (samples : List α)
  | subset (parent : DS α) (indices : List ℕ)

namespace DS

variable {α : Type}

/-- `len(dataset)`. -/
def len : DS α → ℕ
  | base s => s.length
  | subset _ idx => idx.length

/-- `dataset[i]`; `Subset.__getitem__` is `self.dataset[self.indices[idx]]`. -/
def item : DS α → ℤ → Py α
  | base s, i => pyIndex s i
  | subset p idx, i => pyIndex idx i >>= fun j => p.item j

end DS

noncomputable section

/-- `np.isclose(a, 1.0)` with the default tolerances (time_dataset.py 914). -/
def npIsCloseOne (a : ℝ) : Prop := |a - 1| ≤ 1 / 10 ^ 8 + 1 / 10 ^ 5

/-- `math.isclose(a, 1)` with the default tolerances (in `random_split`). -/
def mathIsCloseOne (a : ℝ) : Prop := |a - 1| ≤ 1 / 10 ^ 9 * max |a| 1

/-- `lengths[i % k] += 1` for `i in range(remainder)` (in `random_split`). -/
def distribute (lengths : List ℕ) (remainder : ℕ) : List ℕ :=
  (List.range remainder).foldl
    (fun ls i => ls.modify (i % ls.length) (· + 1)) lengths

/-- `indices[offset - length : offset]` for consecutive lengths (in `random_split`). -/
def chunks : List ℕ → List ℕ → List (List ℕ)
  | _, [] => []
  | idx, n :: ns => idx.take n :: chunks (idx.drop n) ns

open Classical in
/-- `torch.utils.data.random_split(dataset, fractions)` for a data set of length `n` where
`torch.randperm(n)` returns `perm`: the index lists of the subsets.  Fractions not adding to (almost,
and at most) one are taken as lengths and the sum check raises `ValueError`, or they are exact
integers adding to `n`, which after the checks of `split_dataset` requires `n = 1` and a sum of
exactly one, a case of the first branch. -/
def randomSplit (n : ℕ) (fractions : List ℝ) (perm : List ℕ) : Py (List (List ℕ)) :=
  if mathIsCloseOne fractions.sum ∧ fractions.sum ≤ 1 then
    let lengths := fractions.map fun f => ⌊(n : ℝ) * f⌋₊
    .ok (chunks perm (distribute lengths (n - lengths.sum)))
  else .error .valueError

/-- Validation loop (time_dataset.py 904-911). -/
def checkSizes : List (String × ℝ) → Py Unit
  | [] => .ok ()
  | (_, v) :: rest => open Classical in if v < 0 ∨ v > 1 then .error .runtimeError else checkSizes rest

/-- Collection of the subsets, none empty (time_dataset.py 933-941). The names are the distinct keys
of the dictionary `split_sizes`, so that no item is overwritten. -/
def collectSubsets {α : Type} (d : DS α) : List (String × List ℕ) → Py (List (String × DS α))
  | [] => .ok []
  | (name, idx) :: rest =>
    if idx.length < 1 then .error .runtimeError
    else (collectSubsets d rest).map fun r => (name, .subset d idx) :: r

open Classical in
/-- `split_dataset` without saving (time_dataset.py 870-941). A deep copy of the data set has the
same samples. -/
def splitDataset {α : Type} (d : DS α) (sizes : List (String × ℝ)) (perm : List ℕ) :
    Py (List (String × DS α)) := do
  checkSizes sizes
  raiseIf (¬ npIsCloseOne (sizes.map Prod.snd).sum) .runtimeError
  let idx ← randomSplit d.len (sizes.map Prod.snd) perm
  collectSubsets d ((sizes.map Prod.fst).zip idx)

end

/-- `get_parent_dataset_indices` (time_dataset.py 968-994). -/
def parentIndices {α : Type} : DS α → List ℤ → Py (List ℕ)
  | .base _, _ => .error .runtimeError
  | .subset _ idx, l => l.mapM (pyIndex idx)

end Hooke
