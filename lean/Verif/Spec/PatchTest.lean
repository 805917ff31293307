import Verif.Spec.FrameForces

/-!
# Specification: a homogeneous specimen and the nodes in its interior
-/

noncomputable section

namespace Hooke.Spec

/-- The edges of a plane element, each as its nodes (from 0) in the order in which the boundary is run
through, and the facets of a solid element, each as its corners seen counter-clockwise from outside. -/
def elementBoundary : ElementType → List (List ℕ)
  | .tri3 => [[0, 1], [1, 2], [2, 0]]
  | .tri6 => [[0, 3, 1], [1, 4, 2], [2, 5, 0]]
  | .quad4 => [[0, 1], [1, 2], [2, 3], [3, 0]]
  | .quad8 => [[0, 4, 1], [1, 5, 2], [2, 6, 3], [3, 7, 0]]
  | .tetra4 => [[0, 2, 1], [0, 1, 3], [1, 2, 3], [0, 3, 2]]
  | .hexa8 => [[0, 3, 2, 1], [4, 5, 6, 7], [0, 1, 5, 4], [1, 2, 6, 5], [2, 3, 7, 6], [3, 0, 4, 7]]
  | .tetra10 | .hexa20 => []

/-- The edges or facets of all elements of the mesh, with the labels of their nodes; `typ k` is the type of
element `k`. -/
def meshBoundary (m : MeshTopology) (typ : ℕ → ElementType) : List (List ℕ) :=
  (List.range m.conn.length).flatMap fun k =>
    (elementBoundary (typ (k + 1))).map (List.map fun i : ℕ => (nodes m (k + 1)).getD i 0)

/-- The edges or facets that contain the node `n`. -/
def boundaryAt (m : MeshTopology) (typ : ℕ → ElementType) (n : ℕ) : List (List ℕ) :=
  (meshBoundary m typ).filter (n ∈ ·)

/-- The node `n` is inside a plane mesh: every edge that contains it is run through in one direction by an
element and in the opposite direction by another one. -/
def InteriorPlane (m : MeshTopology) (typ : ℕ → ElementType) (n : ℕ) : Prop :=
  (boundaryAt m typ n).Perm ((boundaryAt m typ n).map List.reverse)

/-- The corners of a facet, listed from the node `n` on. -/
def startAt (n : ℕ) (E : List ℕ) : List ℕ := E.rotate (E.idxOf n)

/-- The node `n` is inside a solid mesh: every facet that contains it belongs, seen from the other side, to
another element. -/
def InteriorSolid (m : MeshTopology) (typ : ℕ → ElementType) (n : ℕ) : Prop :=
  ((boundaryAt m typ n).map (startAt n)).Perm ((boundaryAt m typ n).map fun E => startAt n E.reverse)

instance (m : MeshTopology) (typ : ℕ → ElementType) (n : ℕ) : Decidable (InteriorPlane m typ n) :=
  inferInstanceAs (Decidable (List.Perm _ _))

instance (m : MeshTopology) (typ : ℕ → ElementType) (n : ℕ) : Decidable (InteriorSolid m typ n) :=
  inferInstanceAs (Decidable (List.Perm _ _))

/-- Coordinates of the nodes of element `k`, of type `e`; `xs l i` is coordinate `i` of node `l`. -/
def specimenCoords (m : MeshTopology) (xs : ℕ → ℕ → ℝ) (e : ElementType) (k : ℕ) :
    Fin e.nNode → Fin e.dim → ℝ :=
  fun a i => xs ((nodes m k).getD a 0) i

/-- Displacement increments `t + G x` of the nodes of element `k`. -/
def affineIncrement (m : MeshTopology) (xs : ℕ → ℕ → ℝ) (t : ℕ → ℝ) (G : ℕ → ℕ → ℝ) (e : ElementType)
    (k : ℕ) : Tensor :=
  Tensor.ofFin2 fun (a : Fin e.nNode) (i : Fin e.dim) =>
    t i + ∑ j : Fin e.dim, G i j * specimenCoords m xs e k a j

/-- The internal forces `r k` of the elements `1..n`, as the dictionary that is assembled. -/
def forceArrays {σ : Type} (m : MeshTopology) (typ : ℕ → ElementType) (r : ℕ → IFState σ) :
    List (ℕ × Arr) :=
  (List.range m.conn.length).map fun k : ℕ =>
    (k + 1, ⟨(typ (k + 1)).nNode * (typ (k + 1)).dim, fun q => (r (k + 1)).forces.val [q]⟩)

/-- The material answers alike in like situations: `same s s'` says that two states are not told apart;
equal strain increments lead to such states, and these have equal stresses. -/
structure Repeatable {σ : Type} (mat : Material σ) (n : ℕ) (co : List Comp) (same : σ → σ → Prop) :
    Prop where
  update : ∀ inc inc' s s' new rest new' rest', IsSym2 n inc → IsSym2 n inc' →
    tens2 n inc' = tens2 n inc → same s s' → mat.stateUpdate inc s = .ok (new, rest) →
    mat.stateUpdate inc' s' = .ok (new', rest') → same new new'
  stress : ∀ s s' t t', same s s' → getTensorFromMf (mat.stressMf s) n co true = .ok t →
    getTensorFromMf (mat.stressMf s') n co true = .ok t' → tens2 n t' = tens2 n t

/-- Element type and number of Gauss points for which the specimen test is claimed: plane elements. -/
def planePairs : List (ElementType × ℕ) :=
  [(.tri3, 1), (.tri6, 3), (.quad4, 1), (.quad4, 4), (.quad8, 4), (.quad8, 9)]

/-- The same for solid elements. -/
def solidPairs : List (ElementType × ℕ) := [(.tetra4, 1), (.tetra4, 4), (.hexa8, 8)]

/-- A specimen of one material: every element has a type and number of Gauss points of the list, its rule,
as many nodes as the type asks for, and `r k` is what the internal force computation returns for the
displacement increments `t + G x` from the old states `old k`. -/
structure Specimen {σ : Type} (pairs : List (ElementType × ℕ)) (p : ℕ) (mat : Material σ)
    (m : MeshTopology) (xs : ℕ → ℕ → ℝ) (t : ℕ → ℝ) (G : ℕ → ℕ → ℝ) (typ : ℕ → ElementType)
    (ng : ℕ → ℕ) (rule : ∀ k, GaussRule (typ k).dim) (old : ℕ → GpDict σ) (r : ℕ → IFState σ) : Prop where
  mesh : ValidMesh m
  nonempty : 0 < m.conn.length
  pairs : ∀ k, IsElement m k → (typ k, ng k) ∈ pairs
  rules : ∀ k, IsElement m k → (typ k).init (ng k) = .ok (rule k)
  nodes : ∀ k, IsElement m k → (nodes m k).length = (typ k).nNode
  forces : ∀ k, IsElement m k → computeElementInternalForces .infinitesimal p (typ k) (ng k) (rule k) mat
    (old k) (specimenCoords m xs (typ k) k) (affineIncrement m xs t G (typ k) k) = .ok (r k)

end Hooke.Spec
