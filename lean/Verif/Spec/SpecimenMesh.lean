import Verif.Model.SpecimenMesh

/-!
# Specification of the specimen mesh files
-/

namespace Hooke.Spec

/-- The characters of the texts of numbers. -/
def NumeralChar (c : Char) : Prop :=
  c.isDigit = true ∨ c ∈ ['+', '-', '.', 'e', 'i', 'n', 'f', 'a']

/-- A formatting of numbers that `float` reads back as `rd x` (`x` rounded to the digits written):
leading blanks and a word of characters of numbers. -/
structure FaithfulText (F : NumberText) (rd : ℝ → ℝ) : Prop where
  fmt : ∀ x, ∃ k w, F.fmt x = List.replicate k ' ' ++ w ∧ w ≠ [] ∧ (∀ c ∈ w, NumeralChar c) ∧
    F.parse w = some (rd x)
  str : ∀ x, ∀ c ∈ F.str x, NumeralChar c

/-- The element types that can be read: name in the file, class and number of Gauss points. -/
def elementTable : List (String × String × ℕ) :=
  [("CPE3", "FETri3", 1), ("CPE4", "FEQuad4", 4), ("C3D4", "FETetra4", 4), ("C3D8", "FEHexa8", 8),
    ("C3D8R", "FEHexa8", 1), ("C3D20R", "FEHexa20", 8)]

/-- A mesh: some nodes with coordinates in at least `nDim` directions, elements made of its nodes
and having all of them, and prescribed displacements of its nodes. -/
structure ProperMesh (nDim : ℕ) (coords : List (List ℝ)) (conns : List (List ℤ))
    (bcs : Option DirichletBcs) : Prop where
  dim : 0 < nDim
  nonempty : coords ≠ []
  width : ∃ w, nDim ≤ w ∧ ∀ r ∈ coords, r.length = w
  connNonempty : ∀ e ∈ conns, e ≠ []
  connRange : ∀ e ∈ conns, ∀ v ∈ e, 1 ≤ v ∧ v ≤ coords.length
  covered : ∀ v : ℤ, 1 ≤ v → v ≤ coords.length → ∃ e ∈ conns, v ∈ e
  bcsRange : ∀ b, bcs = some b → ∀ n ds, (n, ds) ∈ b → 1 ≤ n ∧ n ≤ coords.length

/-- The displacement of the node `n` in the direction `d` (from 1) is prescribed. -/
def Prescribed (bcs : Option DirichletBcs) (n : ℤ) (d : ℕ) : Prop :=
  ∃ b ds u, bcs = some b ∧ (n, ds) ∈ b ∧ (d, u) ∈ ds

/-- The mesh read is the mesh written: the rounded coordinates, all elements of the given kind with
labels from 1 on, their nodes, and the marks of the prescribed displacements. -/
structure ReadsBack (rd : ℝ → ℝ) (nDim : ℕ) (coords : List (List ℝ)) (conns : List (List ℤ))
    (kind : FEKind) (bcs : Option DirichletBcs) (m : SpecimenMesh) : Prop where
  readCoords : m.coords = coords.map fun r => (r.take nDim).map rd
  types : m.types = (List.range conns.length).map fun i => (((i + 1 : ℕ) : ℤ), kind)
  labels : m.conns.map Prod.fst = (List.range conns.length).map fun i => ((i + 1 : ℕ) : ℤ)
  nodes : m.conns.map Prod.snd = conns
  marked : ∀ i d, i < coords.length → d < nDim → Prescribed bcs ((i : ℤ) + 1) (d + 1) → m.flags i d = 1
  unmarked : ∀ i d, i < coords.length → d < nDim → ¬ Prescribed bcs ((i : ℤ) + 1) (d + 1) →
    m.flags i d = 0

end Hooke.Spec
