import Verif.Model.ConvergenceData
import Verif.Spec.NumberFormat

/-!
# Specification vocabulary of convergence analyses and uncertainty quantifications
-/

noncomputable section

namespace Hooke.Spec

open Hooke

/-- Name found by the search of a data set file: digits, any character, `pkl`, perhaps a newline. -/
def DatasetName (name : Text) : Prop :=
  ∃ (w : Text) (c : Char), w ≠ [] ∧ (∀ x ∈ w, x.isDigit = true) ∧ c ≠ '\n' ∧
    (name = "ss_paths_dataset_n".toList ++ w ++ c :: "pkl".toList ∨
      name = "ss_paths_dataset_n".toList ++ w ++ c :: "pkl".toList ++ ['\n'])

/-- Name found by the search of a summary file: any character between `summary` and `dat`, perhaps a
newline. -/
def SummaryName (name : Text) : Prop :=
  ∃ c : Char, c ≠ '\n' ∧ (name = "summary".toList ++ c :: "dat".toList ∨
    name = "summary".toList ++ c :: "dat".toList ++ ['\n'])

/-- The directory holds `x` in the only file with a name satisfying `p`. -/
def HoldsOne {α : Type} (p : Text → Prop) (dir : KDict Text α) (x : α) : Prop :=
  ∃ f, p f ∧ dir.get? f = some x ∧ ∀ g ∈ dir.keys, p g → g = f

/-- The text with which the line of the loss is found. -/
def lossPhrase : Text := "Avg. prediction loss per sample".toList

/-- The summary of a prediction with loss `x`, in which no line before that of the loss contains the text
of the loss. -/
def SummaryOf (x : Option ℝ) (file : Text) : Prop :=
  ∃ before after, file = predictionSummary before after x ∧
    ∀ l ∈ fileLines (summaryText (some "Summary: Model prediction".toList) before), ¬lossPhrase <:+: l

/-- The directory of a prediction with loss `x`. -/
def PredictedWith (x : Option ℝ) (dir : KDict Text Text) : Prop :=
  ∃ file, SummaryOf x file ∧ HoldsOne SummaryName dir file

/-- `y` is `x` to nine significant digits. -/
def NineDigits (x y : ℝ) : Prop := |y - x| ≤ 5e-9 * |x|

/-- Directory of the realization with number `k`. -/
def realizationName (k : ℕ) : Text := "model_".toList ++ strNat k

/-- An uncertainty quantification: the entries of its directory, in any order, are the realizations with
the given numbers (ascending) and entries whose names do not begin with `model_` and a digit. -/
def UqListing {α : Type} (dirs : List (Text × α)) (samples : List (ℕ × α)) : Prop :=
  (samples.map Prod.fst).Pairwise (· < ·) ∧ ∃ others : List (Text × α),
    dirs.Perm ((samples.map fun p => (realizationName p.1, p.2)) ++ others) ∧
    ∀ o ∈ others, ¬∃ (c : Char) (r : Text), c.isDigit = true ∧ o.1 = "model_".toList ++ c :: r

/-- The realizations of a model with testing type `type`: losses in the order of the numbers. -/
def UqModel (type : Text) (m : Option (List (Text × Realization))) (losses : List ℝ) : Prop :=
  ∃ dirs samples, m = some dirs ∧ UqListing dirs samples ∧
    List.Forall₂ (fun (s : ℕ × Realization) x => x ≠ 0 ∧ ∃ k, s.2.get? type = some k ∧
      PredictedWith (some x) k) samples losses

/-- Entries of the directory of the analyses of patches, in any order: the analyses with the given numbers
(ascending) and entries with names other than the name of the patch, a line and digits. -/
def PatchListing (name : Text) (names : List Text) (ids : List ℕ) : Prop :=
  ids.Pairwise (· < ·) ∧ ∃ others : List Text,
    names.Perm ((ids.map fun k => name ++ '_' :: strNat k) ++ others) ∧
    ∀ o ∈ others, ¬∃ w : Text, w ≠ [] ∧ (∀ x ∈ w, x.isDigit = true) ∧
      (o = name ++ '_' :: w ∨ o = name ++ '_' :: w ++ ['\n'])

end Hooke.Spec
