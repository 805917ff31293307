import Verif.Model.AbaqusLinks
import Verif.Spec.LinksFile

/-!
# Specification of the conversion between Links and ABAQUS files
-/

namespace Hooke.Spec

/-- `float(str(x))` is `rs x`: the text of a number is a word of characters of numbers that is read as
`rs x` (`x` itself if all its digits are written). -/
def StrReadsAs (F : NumberText) (rs : ℝ → ℝ) : Prop :=
  ∀ x, F.str x ≠ [] ∧ F.parse (F.str x) = some (rs x)

/-- The displacement of the node `n` in the direction `d` (from 1) is prescribed as `u`. -/
def PrescribedAs (bcs : DirichletBcs) (n : ℤ) (d : ℕ) (u : ℝ) : Prop :=
  ∃ ds, (n, ds) ∈ bcs ∧ (d, u) ∈ ds

/-- The elements of the dictionary under the labels 1, 2, ... are those of the list. -/
def ElementsInOrder (d : KDict ℤ (List ℤ)) (conns : List (List ℤ)) : Prop :=
  conns.length = d.length ∧ ∀ i : ℕ, i < d.length → d.get? ((i + 1 : ℕ) : ℤ) = conns[i]?

/-- A line of a boundary section: the displacements of a node in the directions from a first to a last
one (counted from 1) are prescribed. -/
structure BoundaryEntry where
  /-- Label of the node. -/
  node : ℤ
  /-- First direction. -/
  first : ℤ
  /-- Last direction. -/
  last : ℤ
  /-- Displacement. -/
  value : ℝ

/-- The fields of the line are the node, the first and the last direction and the displacement. -/
def EntryLine (F : NumberText) (l : Text) (e : BoundaryEntry) : Prop :=
  ∃ a b c w rest, splitComma l = a :: b :: c :: w :: rest ∧ intOfText a = .ok e.node ∧
    intOfText b = .ok e.first ∧ intOfText c = .ok e.last ∧ F.float w = .ok e.value

/-- The displacement prescribed by the last line for a node and a direction (from 1). -/
noncomputable def lastEntry (es : List BoundaryEntry) (n d : ℤ) : Option ℝ :=
  ((es.filter fun e => decide (e.node = n ∧ e.first ≤ d ∧ d ≤ e.last)).getLast?).map
    BoundaryEntry.value

/-- The lines of the boundary sections of a file. -/
def boundaryLines (file : Text) : List Text :=
  dataLines (scanLines (searchWord "*boundary".toList) false false (fileLines file))

end Hooke.Spec
