import Verif.Spec.ResponseDataset
import Verif.Model.ResponseFiles

/-!
# Specification vocabulary of the response data sets of stored paths
-/

noncomputable section

namespace Hooke.Spec

/-- Names of the columns of a csv file: the time, the six strains and the six stresses. -/
def csvHeader : List String :=
  ["TIME", "E11", "E22", "E33", "E12", "E23", "E13", "S11", "S22", "S33", "S12", "S23", "S13"]

/-- The column with a name. -/
def csvColumn (f : Frame) (name : String) : List ℝ :=
  f.rows.map fun row => row.getD (csvHeader.idxOf name) 0

/-- Names of the components of a problem. -/
def problemComps (nDim : ℕ) : List (String × Comp) :=
  if nDim = 2 then [("11", [1, 1]), ("22", [2, 2]), ("12", [1, 2])]
  else [("11", [1, 1]), ("22", [2, 2]), ("33", [3, 3]), ("12", [1, 2]), ("23", [2, 3]), ("13", [1, 3])]

/-- The sample `r` holds the columns of the table `f` that belong to the components of the problem. -/
structure SampleOf (nDim : ℕ) (f : Frame) (r : CsvResponse) : Prop where
  comps : r.comps = (problemComps nDim).map Prod.snd
  times : r.times = csvColumn f "TIME"
  steps : r.strain.length = f.rows.length ∧ r.stress.length = f.rows.length
  sizes : (∀ row ∈ r.strain, row.length = r.comps.length) ∧ ∀ row ∈ r.stress, row.length = r.comps.length
  strain : ∀ k (c : String × Comp), (problemComps nDim)[k]? = some c →
    (r.strain.map fun row : List ℝ => row.getD k 0) = csvColumn f ("E" ++ c.1)
  stress : ∀ k (c : String × Comp), (problemComps nDim)[k]? = some c →
    (r.stress.map fun row : List ℝ => row.getD k 0) = csvColumn f ("S" ++ c.1)

/-- Some stress of the problem in the table is larger than the tolerance `1e-8`. -/
def Loaded (nDim : ℕ) (f : Frame) : Prop :=
  ∃ c ∈ problemComps nDim, ∃ x ∈ csvColumn f ("S" ++ c.1), 1 / 10 ^ 8 < |x|

/-- Files with increasing numbers at the end of their paths. -/
structure Numbered (files : List (Text × Frame)) : Prop where
  number : ∀ f ∈ files, ∃ k, lastNumber f.1 = some k
  increasing : files.Pairwise fun a b => ∀ j k, lastNumber a.1 = some j → lastNumber b.1 = some k → j < k

end Hooke.Spec
