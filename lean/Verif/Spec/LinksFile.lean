import Verif.Model.LinksFile
import Verif.Spec.SpecimenMesh

/-!
# Specification of the Links input data files
-/

namespace Hooke.Spec

/-- The keywords of the sections that are read. -/
def linksKeywords : List Text :=
  ["ELEMENT_TYPES", "ELEMENTS", "NODE_COORDINATES", "NODES_WITH_PRESCRIBED_DISPLACEMENTS"].map
    String.toList

/-- No keyword occurs in the text, in upper or lower case. -/
def KeywordFree (s : Text) : Prop :=
  ∀ kw ∈ linksKeywords, ¬ ∃ a w b, s = a ++ w ++ b ∧ w.map Char.toLower = kw.map Char.toLower

/-- The dictionary holds the items of the list under the labels 1, 2, ... -/
def LabelledFromOne {β : Type} (d : KDict ℕ β) (l : List β) : Prop :=
  d.length = l.length ∧ ∀ i, d.get? (i + 1) = l[i]?

/-- Data of a simulation: nodes with coordinates in `w` directions, elements of `k` nodes,
a material phase of every element, and three prescribed displacements (two for a problem in the
plane) of some nodes. -/
structure LinksData (nDim : ℕ) (coords : List (List ℝ)) (conns : List (List ℤ))
    (coordsDict : KDict ℕ (List ℝ)) (elements : KDict ℕ (List ℤ)) (phase : KDict ℕ ℕ)
    (disps : KDict ℕ (List (Option ℝ))) : Prop where
  coordsLabels : LabelledFromOne coordsDict coords
  connsLabels : LabelledFromOne elements conns
  coordsWidth : ∃ w, ∀ r ∈ coords, r.length = w
  connsWidth : ∃ k, ∀ e ∈ conns, e.length = k
  phases : ∀ i, i < conns.length → ∃ m, phase.get? (i + 1) = some m
  dispsLabels : (disps.map Prod.fst).Nodup
  dispsValues : ∀ n u, (n, u) ∈ disps → ∃ v : List ℝ, u = v.map some ∧
    v.length = (if nDim = 2 then 2 else 3)

/-- The text of the first displacement of every node begins with a blank. -/
def BlankBefore (F : NumberText) (disps : KDict ℕ (List (Option ℝ))) : Prop :=
  ∀ n x u, (n, some x :: u) ∈ disps → (F.fmt x).head? = some ' '

/-- The numbers of the material phases have at most three digits. -/
def ShortPhases (phase : KDict ℕ ℕ) : Prop := ∀ i m, phase.get? i = some m → m < 1000

/-- The prescribed displacements of a node that are read: all three of them. -/
def readDisps (rd : ℝ → ℝ) (nDim : ℕ) (v : List ℝ) : KDict ℕ ℝ :=
  ((v ++ (if nDim = 2 then [0] else [])).zipIdx 1).map fun p : ℝ × ℕ => (p.2, rd p.1)

/-- The finite elements of the element types of a simulation: class and number of Gauss points. -/
def linksKinds : List (String × String × ℕ) :=
  [("SQUAD4", "FEQuad4", 4), ("SHEXA8", "FEHexa8", 8), ("SHEXA20", "FEHexa20", 8)]

/-- The nodes of the elements are the nodes of the mesh; prescribed displacements are of nodes of the
mesh. -/
structure LinksMesh (nDim : ℕ) (coords : List (List ℝ)) (conns : List (List ℤ))
    (disps : KDict ℕ (List (Option ℝ))) : Prop where
  dim : nDim = 2 ∨ nDim = 3
  nonempty : coords ≠ []
  width : ∀ r ∈ coords, nDim ≤ r.length
  connNonempty : ∀ e ∈ conns, e ≠ []
  connRange : ∀ e ∈ conns, ∀ v ∈ e, 1 ≤ v ∧ v ≤ coords.length
  covered : ∀ v : ℤ, 1 ≤ v → v ≤ coords.length → ∃ e ∈ conns, v ∈ e
  dispsRange : ∀ n u, (n, u) ∈ disps → 1 ≤ n ∧ n ≤ coords.length

end Hooke.Spec
