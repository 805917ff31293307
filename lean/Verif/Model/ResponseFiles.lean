import Verif.Model.SpecimenHistory
import Verif.Model.RecurrentForward

/-!
# Response data sets of stored paths

Model of `gen_response_dataset_from_csv` and `gen_response_dataset_from_strain_dataset`
(user_scripts/synthetic_data/gen_response_dataset.py:577-945).  A csv file is its path and the table
that `pandas.read_csv` reads from it.  Numbers are real: the conversion to the default precision of
`torch` is not modelled, and neither are figures, messages and the disabled branch for volume
fractions (line 645 sets `is_input_volume_fraction` to `False`).
-/

namespace Hooke

noncomputable section

/-- A sample read from a csv file: its component order is that of the generator. -/
structure CsvResponse where
  comps : List Comp
  times : List ℝ
  strain : List (List ℝ)
  stress : List (List ℝ)

/-- `response_path_data[:, cols]`. -/
def pickCols (f : Frame) (cols : List ℕ) : List (List ℝ) :=
  (List.range f.rows.length).map fun t => cols.map fun j => f.at t j

/-- Body of the reading loop, gen_response_dataset.py:674-706. -/
def csvResponse (nDim : ℕ) (f : Frame) : Py CsvResponse := do
  raiseIf (f.cols ≠ 13) .runtimeError
  return {
    comps := if nDim = 2 then sym2d else sym3d
    times := (List.range f.rows.length).map fun t => f.at t 0
    strain := pickCols f (if nDim = 2 then [1, 2, 4] else List.range' 1 6)
    stress := pickCols f (if nDim = 2 then [7, 8, 10] else List.range' 7 6) }

open Classical in
/-- `torch.allclose(stress_path, zeros)`, gen_response_dataset.py:722-723: the relative tolerance
multiplies zero, the absolute tolerance is `1e-8`. -/
def isNegligible (r : CsvResponse) : Bool :=
  r.stress.all fun row => row.all fun x => decide (|x - 0| ≤ 1 / 10 ^ 8 + 1 / 10 ^ 5 * |(0 : ℝ)|)

/-- `sorted(response_file_paths, key=...)`, gen_response_dataset.py:635-637. -/
def sortCsv (files : List (Text × Frame)) : Py (List (Text × Frame)) := do
  let keyed ← files.mapM fun f =>
    (orRaise (lastNumber f.1) .attributeError).map fun n : ℕ => (n, f)
  return sortByKey keyed

/-- `gen_response_dataset_from_csv`, gen_response_dataset.py:577-812: the samples.  Without an in-memory
data set, line 622 reads the unknown name `dataset_basename` (`NameError`).  Line 766 divides by the
number of files and line 791 by the number of samples. -/
def responsesFromCsv (infinitesimal : Bool) (nDim : ℕ) (inMemory hasDir : Bool)
    (files : List (Text × Frame)) : Py (List CsvResponse) := do
  raiseIf (inMemory = false ∧ hasDir = false) .runtimeError
  raiseIf (inMemory = false) .unboundLocal
  raiseIf (infinitesimal = false) .runtimeError
  let sorted ← sortCsv files
  let rs ← sorted.mapM fun f => csvResponse nDim f.2
  raiseIf (files = []) .zeroDivision
  let kept := rs.filter fun r => !isNegligible r
  raiseIf (kept = []) .zeroDivision
  return kept

variable {n : ℕ} {σ : Type}

/-- A sample of a stored data set, as far as it is read: strains and times.  Its component order is
that of the generator. -/
structure StrainSample where
  strain : List (List ℝ)
  times : List ℝ

/-- Body of the loop over samples, gen_response_dataset.py:887-927. -/
def responseOfSample (n : ℕ) (co : List Comp) (M : RcModel n σ) (features : List (String × ℕ))
    (s : StrainSample) : Py (ResponsePath × List ℝ) := do
  let r ← genStressPath n co M features s.times.length s.strain
  raiseIf (r.2 = true) .runtimeError
  return (r.1, s.times)

/-- `gen_response_dataset_from_strain_dataset`, gen_response_dataset.py:814-945: responses and times of
the samples.  The file is absent (`none`) or holds the samples; `M` is the model of the name.  Line 937
divides by the number of samples. -/
def responsesFromStrains (n : ℕ) (co : List Comp) (name : String) (M : RcModel n σ)
    (features : List (String × ℕ)) (file : Option (List StrainSample)) :
    Py (List (ResponsePath × List ℝ)) := do
  let samples ← orRaise file .runtimeError
  raiseIf (name ∉ ["elastic", "von_mises", "drucker_prager", "lou_zhang_yoon"]) .runtimeError
  let rs ← samples.mapM (responseOfSample n co M features)
  raiseIf (samples = []) .zeroDivision
  return rs

end

end Hooke
