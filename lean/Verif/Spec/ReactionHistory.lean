import Verif.Model.ReactionHistory
import Verif.Spec.ForceEquilibrium

/-!
# Specification: reactions of Dirichlet sets
-/

noncomputable section

namespace Hooke.Spec

variable {N n : ℕ}

/-- Sum of `f` over the nodes with a label in one dimension. -/
def dimSum (bc : Fin N → Fin n → ℤ) (j : Fin n) (l : ℤ) (f : Fin N → Fin n → ℝ) : ℝ :=
  ∑ i ∈ Finset.univ.filter (fun i : Fin N => bc i j = l), f i j

/-- The labels of one dimension. -/
def dimLabels (bc : Fin N → Fin n → ℤ) (j : Fin n) : Finset ℤ := Finset.univ.image fun i => bc i j

/-- The numbers, from one, of the nodes with a label in one dimension. -/
def dimNodes (bc : Fin N → Fin n → ℤ) (j : Fin n) (l : ℤ) : Finset ℕ :=
  (Finset.univ.filter (fun i : Fin N => bc i j = l)).image fun i => i.val + 1

/-- `r` is the target with the labels of the source, row by row. -/
def HasLabelsOf (src target r : LabelTable) : Prop :=
  r.n = target.n ∧
  (∀ c ∈ ["DBC1", "DBC2", "DBC3"], ∃ from_ to_, src.cols.get? c = some from_ ∧
    r.cols.get? c = some to_ ∧ to_.length = target.n ∧
    ∀ k < target.n, to_[k]? = some ((from_[k]?).getD none)) ∧
  (∀ c, c ∉ ["DBC1", "DBC2", "DBC3"] → r.cols.get? c = target.cols.get? c) ∧
  ((∀ c ∈ ["DBC1", "DBC2", "DBC3"], c ∈ target.cols.keys) → r.cols.keys = target.cols.keys)

end Hooke.Spec
