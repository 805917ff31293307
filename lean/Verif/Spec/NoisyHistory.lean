import Verif.Model.NoisyHistory
import Verif.Spec.Noise

/-!
# Specification of noise in the history of a specimen
-/

noncomputable section

open Classical

namespace Hooke.Spec

/-- The name of a file of time step `n`: digits between `_tstep_` and `.csv`. -/
def IsStepName (f : Text) (n : ℕ) : Prop :=
  ∃ p w : Text, f = p ++ "_tstep_".toList ++ w ++ ".csv".toList ∧ parseInt w = some n

/-- The time steps of a directory: all its files with the name of a time step, by increasing number. -/
structure StepsOf (D : CsvDir) (steps : List (ℕ × Text × Frame)) : Prop where
  mem : ∀ n f fr, (n, f, fr) ∈ steps ↔ (f, fr) ∈ D.files ∧ IsStepName f n
  sorted : (steps.map fun s => s.1).Pairwise (· < ·)

/-- A name for the new files that is not in use, and directories that are not taken for files. -/
structure FreshName (D : CsvDir) (dirname : Text) : Prop where
  name : dirname ≠ [] ∧ dirname ≠ ['.'] ∧ dirname ∉ D.files.keys
  files : D.files.keys.Nodup
  subs : ∀ s, s ∈ D.subs.keys ∨ s = dirname → ∀ n, ¬ IsStepName s n

/-- All rows of the table have ten entries. -/
def TenColumns (fr : Frame) : Prop := fr.cols = 10 ∧ ∀ r ∈ fr.rows, r.length = 10

/-- The second table is the first one with other displacements. -/
def OtherDisps (fr fr' : Frame) (u : ℕ → ℕ → ℝ) : Prop :=
  fr'.cols = fr.cols ∧ fr'.rows.length = fr.rows.length ∧ (∀ r ∈ fr'.rows, r.length = 10) ∧
    ∀ i < fr.rows.length, ∀ j < 10,
      fr'.at i j = if 4 ≤ j ∧ j < 7 then u i (j - 4) else fr.at i j

/-- The displacement component `c` of node `i` in a table. -/
def dispAt (fr : Frame) (i c : ℕ) : ℝ := fr.at i (4 + c)

/-- The directory `D'` is the directory `D` with the files `out` in the subdirectory `dirname`. -/
def WithSub (D D' : CsvDir) (dirname : Text) (out : KDict Text Frame) : Prop :=
  D'.files = D.files ∧ D'.subs.get? dirname = some out ∧
    ∀ s, s ≠ dirname → D'.subs.get? s = D.subs.get? s

/-- What the injection of a noise leaves: the data files and other directories as they were, and in the
new directory a file for each time step, of the same name, the first one as it was and the others with
noise in the displacements only. -/
def Injected (D D' : CsvDir) (dirname : Text) (steps : List (ℕ × Text × Frame))
    (noise : ℕ → ℕ → ℕ → ℝ) : Prop :=
  ∃ out : KDict Text Frame, WithSub D D' dirname out ∧ out.keys = steps.map (fun s => s.2.1) ∧
    ∀ (k : ℕ) (h : k < steps.length), ∃ fr', out.get? steps[k].2.1 = some fr' ∧
      if k = 0 then fr' = steps[k].2.2
      else OtherDisps steps[k].2.2 fr' fun i c => dispAt steps[k].2.2 i c + noise k i c

/-- The displacements of node `i` over time, in double precision. -/
def dispSeries (frs : List Frame) (i : ℕ) : Series :=
  ⟨.float64, frs.length, 3, fun t c => dispAt (frs.getD t ⟨0, []⟩) i c⟩

end Hooke.Spec
