import Verif.Model.MeshRemoval

/-!
# Specification: removal of elements of a mesh
-/

namespace Hooke.Spec

/-- The labels of a dictionary are distinct. -/
def Labelled {α : Type} (d : KDict ℕ α) : Prop := (d.map Prod.fst).Nodup

/-- The nodes, elements, phases and displacements of the mesh have distinct labels. -/
def FeMesh.Labelled {X P D : Type} (m : FeMesh X P D) : Prop :=
  Spec.Labelled m.coords ∧ Spec.Labelled m.elements ∧ Spec.Labelled m.phases ∧
    ∀ d, m.disps = some d → Spec.Labelled d

/-- The node `v` is lost: it belongs to removed elements only. -/
def LostNode {X P D : Type} (remove : List ℕ) (m : FeMesh X P D) (v : ℕ) : Prop :=
  (∃ p ∈ m.elements, v ∈ p.2) ∧ ∀ p ∈ m.elements, v ∈ p.2 → p.1 ∈ remove

/-- The entries of `d` of which the label satisfies `P`, in their order. -/
noncomputable def keptEntries {α : Type} (P : ℕ → Prop) (d : KDict ℕ α) : List (ℕ × α) :=
  open Classical in d.filter fun p => decide (P p.1)

/-- The entries of a list labelled 1, 2, ... -/
def renumbered {α : Type} (l : List (ℕ × α)) : KDict ℕ α :=
  l.zipIdx.map fun a => (a.2 + 1, a.1.2)

/-- `φ` gives the position, counted from one, of the labels of a list of entries. -/
def NumbersEntries {α : Type} (φ : ℕ → ℕ) (l : List (ℕ × α)) : Prop :=
  ∀ k p, l[k]? = some p → φ p.1 = k + 1

/-- The mesh `m'` is the mesh `m` without the elements `remove` and the lost nodes: nodes and elements
are numbered from one in their old order, every remaining element has the nodes and the phase it had,
and every displacement belongs to the node it belonged to. -/
def IsReducedMesh {X P D : Type} (remove : List ℕ) (m m' : FeMesh X P D) : Prop :=
  let keptN := keptEntries (fun v => ¬ LostNode remove m v) m.coords
  let keptE := keptEntries (fun l => l ∉ remove) m.elements
  ∃ φ : ℕ → ℕ, NumbersEntries φ keptN ∧
    m'.coords = renumbered keptN ∧
    m'.elements = (renumbered keptE).map (fun p => (p.1, p.2.map φ)) ∧
    (∀ l ns, (l, ns) ∈ keptE → ∀ v ∈ ns, v ∈ keptN.map Prod.fst) ∧
    (∀ k p, keptE[k]? = some p → m'.phases.get? (k + 1) = m.phases.get? p.1) ∧
    (∀ j ∈ m'.phases.map Prod.fst, 1 ≤ j ∧ j ≤ keptE.length) ∧
    m'.disps = m.disps.map (fun d => d.map fun p => (φ p.1, p.2)) ∧
    (∀ d, m.disps = some d → ∀ p ∈ d, p.1 ∈ keptN.map Prod.fst)

end Hooke.Spec
