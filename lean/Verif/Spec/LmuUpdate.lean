import Verif.Model.LmuUpdate
import Verif.Spec.ConvergenceData
import Verif.Spec.UncertaintyRuns

/-!
# Specification of a local model update
-/

namespace Hooke.Spec

/-- A name in which `ss_paths_dataset_n`, a number and `.pkl` follow each other. -/
def NamesDataset (name : Text) : Prop :=
  ∃ pre digits post : Text, name = pre ++ "ss_paths_dataset_n".toList ++ digits ++ ".pkl".toList ++ post ∧
    digits ≠ [] ∧ ∀ c ∈ digits, c.isDigit = true

/-- The three directories of data sets hold one data set each. -/
structure HasDatasets {D M P : Type} (s : LmuDir D M P) (a b c : D) : Prop where
  train : ∃ files, s.train = some files ∧ HoldsOne NamesDataset files a
  valid : ∃ files, s.valid = some files ∧ HoldsOne NamesDataset files b
  test : ∃ files, s.test = some files ∧ HoldsOne NamesDataset files c

/-- A directory that does not exist or has no data set. -/
def NoDataset {D : Type} (dir : Option (KDict Text D)) : Prop :=
  ∀ files, dir = some files → ∀ f ∈ files.keys, ¬NamesDataset f

end Hooke.Spec
