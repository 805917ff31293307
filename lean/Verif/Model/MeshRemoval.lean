import Verif.Model.Py
import Verif.Model.PyDict

/-!
# Model of the removal of elements of a mesh (src/hookeai/simulators/links/links.py)

The keys of the dictionaries are decimal representations of labels; they are the labels here.
Coordinates, material phases and displacements are values of arbitrary types.
-/

namespace Hooke

/-- The data of a finite element mesh given to and returned by `remove_mesh_elements`
(links.py:1080-1112). -/
structure FeMesh (X P D : Type) where
  /-- `node_coords`. -/
  coords : KDict ℕ X
  /-- `elements`. -/
  elements : KDict ℕ (List ℕ)
  /-- `elements_mat_phase`. -/
  phases : KDict ℕ P
  /-- `node_disps`; `none` if it is not a dictionary. -/
  disps : Option (KDict ℕ D)

/-- The relabelled entries, the mapping of the old labels and the next label. -/
structure Relabel (α : Type) where
  /-- Entries with their new labels. -/
  entries : KDict ℕ α
  /-- New label of an old label. -/
  map : KDict ℕ ℕ
  /-- Next label. -/
  next : ℕ

/-- One iteration of the loops over the old elements and over the old nodes (links.py:1129-1137,
1171-1179). -/
def relabelStep {α : Type} (keep : ℕ → Bool) (s : Relabel α) (p : ℕ × α) : Relabel α :=
  if keep p.1 then
    { entries := s.entries.put s.next p.2, map := s.map.put p.1 s.next, next := s.next + 1 }
  else s

/-- The loops over the old elements (links.py:1122-1137) and over the old nodes
(links.py:1164-1179). -/
def relabelLoop {α : Type} (keep : ℕ → Bool) (d : KDict ℕ α) : Relabel α :=
  d.foldl (relabelStep keep) ⟨[], [], 1⟩

/-- `set(itertools.chain(*list(elements.values())))` (links.py:1120, 1140), as a list. -/
def meshNodes (elements : KDict ℕ (List ℕ)) : List ℕ := elements.flatMap Prod.snd

/-- `remove_nodes_labels` (links.py:1142), as a list. -/
def removedNodes (old new : KDict ℕ (List ℕ)) : List ℕ :=
  (meshNodes old).filter fun v => decide (v ∉ meshNodes new)

/-- Check of the boundary nodes (links.py:1145-1162).  The nodes of all elements to be removed are
looked up to build the message; which node is found first does not matter. -/
def checkBoundary (remove : List ℕ) (old : KDict ℕ (List ℕ)) (removed : List ℕ)
    (boundary : Option (List ℕ)) : Py Unit :=
  match boundary with
  | none => pure ()
  | some b =>
    if removed.any (fun v => decide (v ∈ b)) then do
      remove.forM fun l => do
        let _ ← orRaise (old.get? l) .keyError
        pure ()
      raiseIf True .runtimeError
    else pure ()

/-- New nodes of an element (links.py:1181-1188). -/
def mapElement (m : KDict ℕ ℕ) (p : ℕ × List ℕ) : Py (ℕ × List ℕ) := do
  let ns ← p.2.mapM fun v => orRaise (m.get? v) .keyError
  pure (p.1, ns)

/-- Material phase of a remaining element (links.py:1193-1197). -/
def mapPhase {P : Type} (m : KDict ℕ ℕ) (acc : KDict ℕ P) (p : ℕ × P) : KDict ℕ P :=
  match m.get? p.1 with
  | some l => acc.put l p.2
  | none => acc

/-- Displacement of a node (links.py:1206-1210). -/
def mapDisp {D : Type} (m : KDict ℕ ℕ) (acc : KDict ℕ D) (p : ℕ × D) : Py (KDict ℕ D) := do
  let v ← orRaise (m.get? p.1) .keyError
  pure (acc.put v p.2)

/-- Displacements of the nodes (links.py:1200-1212). -/
def mapDisps {D : Type} (m : KDict ℕ ℕ) : Option (KDict ℕ D) → Py (Option (KDict ℕ D))
  | none => pure none
  | some d => do
    let r ← d.foldlM (mapDisp m) []
    pure (some r)

/-- `remove_mesh_elements(remove_elements_labels, node_coords, elements, elements_mat_phase,
node_disps, boundary_nodes_labels)` (links.py:1113-1214).  The elements are assigned to keys that they
have, in place. -/
def removeMeshElements {X P D : Type} (remove : List ℕ) (m : FeMesh X P D)
    (boundary : Option (List ℕ)) : Py (FeMesh X P D) := do
  let e := relabelLoop (fun l => decide (l ∉ remove)) m.elements
  let removed := removedNodes m.elements e.entries
  checkBoundary remove m.elements removed boundary
  let n := relabelLoop (fun v => decide (v ∉ removed)) m.coords
  let elements ← e.entries.mapM (mapElement n.map)
  let disps ← mapDisps n.map m.disps
  pure { coords := n.entries, elements := elements, phases := m.phases.foldl (mapPhase e.map) [],
         disps := disps }

end Hooke
