import Verif.Model.PyDict
import Mathlib.Logic.Function.Basic

/-!
# Features of time series data sets (`src/hookeai/time_series_data/time_dataset.py` 197-436)

A sample is a dictionary from feature labels to two-dimensional tensors.  The samples of a data set
live in slots of a store: for `TimeSeriesDatasetInMemory` a slot is a dictionary object, which
indexing returns itself; for `TimeSeriesDataset` a slot is a sample file, which indexing reads into a
new dictionary and `update_dataset_sample` writes.  A `torch.utils.data.Subset` of the former behaves
like the former; a `Subset` of the latter reads new dictionaries but is not a `TimeSeriesDataset`.
-/

namespace Hooke

/-- A two-dimensional tensor: number of columns and rows. -/
structure FTensor where
  cols : ℕ
  rows : List (List ℝ)

/-- A sample of a time series data set. -/
abbrev Feats := PyDict FTensor

/-- Class of the data set. -/
inductive DsKind
  | inMemory
  | files
  | filesSubset
  deriving DecidableEq

/-- A data set: its class and the slots of its samples. -/
structure FDataset where
  kind : DsKind
  slots : List ℕ

/-- Contents of all slots. -/
abbrev FStore := ℕ → Feats

/-- `dataset[0].keys()` contains a label (time_dataset.py 222, 317, 389). -/
def firstHas (ds : FDataset) (st : FStore) (label : String) : Py Bool :=
  match ds.slots with
  | [] => .error .indexError
  | r :: _ => .ok ((st r).has label)

/-- One iteration of a loop over samples whose body changes the sample dictionary by `f`: an
in-memory sample is changed in place, also when the body raises; a file is overwritten at the end. -/
def sampleStep (kind : DsKind) (f : Feats → Py Unit × Feats) (st : FStore) (r : ℕ) :
    Py Unit × FStore :=
  match kind with
  | .inMemory => ((f (st r)).1, Function.update st r (f (st r)).2)
  | .files =>
    match f (st r) with
    | (.ok _, d) => (.ok (), Function.update st r d)
    | (.error e, _) => (.error e, st)
  | .filesSubset => ((f (st r)).1, st)

/-- `for i in range(len(dataset))`: stops at the first exception. -/
def sampleLoop (kind : DsKind) (f : Feats → Py Unit × Feats) : List ℕ → FStore → Py Unit × FStore
  | [], st => (.ok (), st)
  | r :: rs, st =>
    match sampleStep kind f st r with
    | (.ok _, st') => sampleLoop kind f rs st'
    | (.error e, st') => (.error e, st')

/-- `for label in labels: sample.pop(label)` (time_dataset.py 341-344, 426-429). -/
def popAll : List String → Feats → Py Unit × Feats
  | [], d => (.ok (), d)
  | l :: ls, d => if d.has l then popAll ls (d.del l) else (.error .keyError, d)

/-- `[sample[label] for label in labels]`. -/
def getAll : List String → Feats → Py (List FTensor)
  | [], _ => .ok []
  | l :: ls, d => (orRaise (d.get? l) .keyError) >>= fun t => (getAll ls d).map fun ts => t :: ts

/-- `torch.cat((a, b), dim=1)`. -/
def FTensor.cat (a b : FTensor) : FTensor := ⟨a.cols + b.cols, a.rows.zipWith (· ++ ·) b.rows⟩

/-- `torch.cat(tensors, dim=1)`: the numbers of rows must agree. -/
def catAll : List FTensor → Py FTensor
  | [] => .error .runtimeError
  | t :: ts =>
    if ∀ u ∈ ts, u.rows.length = t.rows.length then .ok (ts.foldl FTensor.cat t)
    else .error .runtimeError

/-- The new feature of `concatenate_dataset_features` (time_dataset.py 331-337). -/
def concatValue (labels : List String) (d : Feats) : Py FTensor :=
  match labels with
  | [] => .error .indexError
  | [l] => orRaise (d.get? l) .keyError
  | l :: l' :: ls => getAll (l :: l' :: ls) d >>= catAll

/-- Body of the loop over samples: store the new feature, then remove the old ones from in-memory
samples if requested (time_dataset.py 330-344, 412-429). -/
def featureBody (value : Feats → Py FTensor) (new : String) (labels : List String) (remove : Bool)
    (d : Feats) : Py Unit × Feats :=
  match value d with
  | .error e => (.error e, d)
  | .ok t => if remove then popAll labels (d.put new t) else (.ok (), d.put new t)

/-- Probe of the labels in the first sample (time_dataset.py 315-320, 387-392). -/
def probe (ds : FDataset) (st : FStore) : List String → Py Unit
  | [] => .ok ()
  | l :: ls => firstHas ds st l >>= fun b => if b then probe ds st ls else .error .runtimeError

/-- `concatenate_dataset_features` (time_dataset.py 284-350): outcome and contents afterwards. -/
def concatFeatures (ds : FDataset) (st : FStore) (new : String) (labels : List String)
    (remove : Bool) : Py Unit × FStore :=
  match probe ds st labels with
  | .error e => (.error e, st)
  | .ok _ =>
    sampleLoop ds.kind
      (featureBody (concatValue labels) new labels (remove && decide (ds.kind ≠ .files))) ds.slots st

noncomputable section

/-- Multiplication by a number. -/
def FTensor.scale (w : ℝ) (t : FTensor) : FTensor := ⟨t.cols, t.rows.map fun r => r.map (w * ·)⟩

/-- Entrywise sum of tensors of the same shape. -/
def FTensor.add (a b : FTensor) : FTensor := ⟨a.cols, a.rows.zipWith (fun r s => r.zipWith (· + ·) s) b.rows⟩

/-- `torch.sum(torch.stack(tensors, dim=0), dim=0)`: the shapes must agree. -/
def sumAll : List FTensor → Py FTensor
  | [] => .error .runtimeError
  | t :: ts =>
    if ∀ u ∈ ts, u.rows.length = t.rows.length ∧ u.cols = t.cols then .ok (ts.foldl FTensor.add t)
    else .error .runtimeError

/-- `sum_weights[label]`: the given weight or one (time_dataset.py 397-401). -/
def weightOf (weights : PyDict ℝ) (label : String) : ℝ := (weights.get? label).getD 1

/-- The new feature of `sum_dataset_features` (time_dataset.py 413-424). -/
def sumValue (weights : PyDict ℝ) (labels : List String) (d : Feats) : Py FTensor :=
  match labels with
  | [] => .error .indexError
  | [l] => (orRaise (d.get? l) .keyError).map (FTensor.scale (weightOf weights l))
  | l :: l' :: ls =>
    getAll (l :: l' :: ls) d >>= fun ts =>
      sumAll (((l :: l' :: ls).map (weightOf weights)).zipWith FTensor.scale ts)

/-- `sum_dataset_features` (time_dataset.py 353-436). Without weights (`None`, the default) the
attribute access `features_weights.keys()` raises. -/
def sumFeatures (ds : FDataset) (st : FStore) (new : String) (labels : List String)
    (weights : Option (PyDict ℝ)) (remove : Bool) : Py Unit × FStore :=
  match probe ds st labels with
  | .error e => (.error e, st)
  | .ok _ =>
    match weights, labels with
    | none, _ :: _ => (.error .attributeError, st)
    | none, [] =>
      sampleLoop ds.kind (featureBody (sumValue [] []) new [] (remove && decide (ds.kind ≠ .files)))
        ds.slots st
    | some w, _ =>
      sampleLoop ds.kind
        (featureBody (sumValue w labels) new labels (remove && decide (ds.kind ≠ .files))) ds.slots st

end

/-- `sample[new] = sample.pop(old)` (time_dataset.py 229). -/
def renameOne (old new : String) (d : Feats) : Py Unit × Feats :=
  match d.get? old with
  | none => (.error .keyError, d)
  | some t => (.ok (), (d.del old).put new t)

/-- Loop body of `change_dataset_features_labels` followed by the write: data sets that are not
`TimeSeriesDataset` do not support item assignment (time_dataset.py 225-236). -/
def renameLoop (kind : DsKind) (old new : String) : List ℕ → FStore → Py Unit × FStore
  | [], st => (.ok (), st)
  | r :: rs, st =>
    match sampleStep kind (renameOne old new) st r with
    | (.error e, st') => (.error e, st')
    | (.ok _, st') => if kind = .files then renameLoop kind old new rs st' else (.error .typeError, st')

/-- `change_dataset_features_labels` (time_dataset.py 197-238): outcome and contents afterwards. -/
def changeLabels (ds : FDataset) : List (String × String) → FStore → Py Unit × FStore
  | [], st => (.ok (), st)
  | (old, new) :: rest, st =>
    match firstHas ds st old with
    | .error e => (.error e, st)
    | .ok false => changeLabels ds rest st
    | .ok true =>
      match renameLoop ds.kind old new ds.slots st with
      | (.error e, st') => (.error e, st')
      | (.ok _, st') => changeLabels ds rest st'

/-- `add_dataset_feature_init` for a two-dimensional tensor (time_dataset.py 240-282). -/
def addFeatureInit (ds : FDataset) (st : FStore) (label : String) (init : FTensor) : Py Unit × FStore :=
  sampleLoop ds.kind (fun d => (.ok (), d.put label init)) ds.slots st

end Hooke
