import Verif.Lemmas.PatchHexa

/-!
# C147: a homogeneous specimen under affine displacements is in equilibrium
-/

noncomputable section

namespace Hooke

open Spec

/-- What the computation did at a Gauss point under affine increments. -/
theorem affine_states {σ : Type} {p n : ℕ} {e : ElementType} (hn : e.dim = n)
    {co cn : List Comp} (hp : getProblemTypeParameters p = .ok (n, co, cn))
    {nGauss : ℕ} {rule : GaussRule e.dim} {mat : Material σ} {old : GpDict σ}
    {X : Fin e.nNode → Fin e.dim → ℝ} {t : ℕ → ℝ} {G : ℕ → ℕ → ℝ} {r : IFState σ}
    (h : computeElementInternalForces .infinitesimal p e nGauss rule mat old X
      (Tensor.ofFin2 fun (a : Fin e.nNode) (i : Fin e.dim) => t i + ∑ j : Fin e.dim, G i j * X a j) = .ok r)
    {g : ℕ} (hg : g < nGauss) :
    ∃ s new inc rest ten, old (g + 1) = some s ∧ r.state (g + 1) = some (some new) ∧
      mat.stateUpdate inc s = .ok (new, rest) ∧ IsSym2 n inc ∧
      tens2 n inc = (fun i j : Fin n => (G i j + G j i) / 2) ∧
      getTensorFromMf (mat.stressMf new) n co true = .ok ten := by
  subst hn
  have hco := (problemType_orders_complete hp).1
  obtain ⟨-, c, w, d, det, s, new, stress, b, hd, ho, hst, hsh, hq⟩ := internalForces_ok hp h
  obtain ⟨si, ni, -, hni, hdone⟩ := hd g hg
  obtain ⟨J, hJ⟩ := hdone.deriv
  obtain ⟨hJ0, hdet, hds, hdv⟩ := evalShapefunDeriv_inv hJ
  obtain ⟨_, sv, _, _, hsv, _⟩ := hdone.force
  obtain ⟨gr, v, inc, rest, hgr, hv, hinc, hup⟩ := hdone.update
  have hsame := incStrain_same hco hds rfl hgr hv hinc
  obtain ⟨t1, ht1, -⟩ := fromMf_of_v hco hdone.stressOk hsv
  refine ⟨si, ni, inc, rest, t1, hdone.oldState, ?_, hup, SameTensor_isSym2 hsame
    (strainTensor_isSym _ _ _ _), ?_, ht1⟩
  · rw [hst, if_pos (by omega), Nat.add_sub_cancel, hni]
  · rw [SameTensor_tens2 hsame rfl]
    funext i j
    have e1 := affine_gradient e X (c g) hJ0 (fun i => t i) (fun i j => G i j) hds hdv
    simp only [tens2, strainTensor, List.getD_cons_zero, List.getD_cons_succ]
    rw [e1 i j, e1 j i]

/-- Contribution of one element with uniform stress to a node, as shares of its boundary. -/
theorem element_contribution {σ : Type} {p n : ℕ} {e : ElementType} (hn : e.dim = n)
    {co cn : List Comp} (hp : getProblemTypeParameters p = .ok (n, co, cn))
    {nGauss : ℕ} {rule : GaussRule e.dim} {mat : Material σ} {old : GpDict σ} {x : ℕ → ℕ → ℝ} {L : ℕ → ℕ}
    {u : Tensor} {r : IFState σ}
    (h : computeElementInternalForces .infinitesimal p e nGauss rule mat old
      (fun (a : Fin e.nNode) (i : Fin e.dim) => x (L a) i) u = .ok r)
    {S : T2 n} (hS : ∀ g < nGauss, ∀ new t, r.state (g + 1) = some (some new) →
      getTensorFromMf (mat.stressMf new) n co true = .ok t → tens2 n t = S)
    {share : List (ℕ → ℝ) → ℕ → ℕ → ℝ}
    (harea : ∀ (y : ℕ → ℕ → ℝ) (a : Fin e.nNode) (l : Fin e.dim), nodeArea e nGauss rule
      (fun (a : Fin e.nNode) (i : Fin e.dim) => y a i) a l =
        ((elementBoundary e).map fun E => nodeShare share y E a l).sum)
    (node : ℕ) (q : Fin n) :
    ∑ a ∈ Finset.range e.nNode, (if L a = node then r.forces.val [a * n + q] else 0) =
      ∑ l : Fin n, S q l * ((elementBoundary e).map fun E => nodeShare share x (E.map L) node l).sum := by
  subst hn
  have hE : ∀ E ∈ elementBoundary e, ∀ i ∈ E, i < e.nNode := by
    cases e <;> decide
  have h1 : ∀ a ∈ Finset.range e.nNode, (if L a = node then r.forces.val [a * e.dim + q] else 0) =
      ∑ l : Fin e.dim, S q l * ((elementBoundary e).map fun E =>
        if L a = node then nodeShare share (fun a => x (L a)) E a l else 0).sum := by
    intro a ha
    have ha := Finset.mem_range.1 ha
    have := uniform_force hp h hS ⟨a, ha⟩ q
    by_cases hL : L a = node
    · simp only [if_pos hL]
      rw [this]
      refine Finset.sum_congr rfl fun l _ => ?_
      rw [harea (fun a => x (L a)) ⟨a, ha⟩ l]
    · simp only [if_neg hL]
      rw [Finset.sum_eq_zero]
      intro l _
      rw [List.map_const', List.sum_replicate, smul_zero, mul_zero]
  rw [Finset.sum_congr rfl h1, Finset.sum_comm]
  refine Finset.sum_congr rfl fun l _ => ?_
  rw [← Finset.mul_sum]
  congr 1
  have hswap : ∀ Es : List (List ℕ), (∀ E ∈ Es, ∀ i ∈ E, i < e.nNode) →
      ∑ a ∈ Finset.range e.nNode, (Es.map fun E =>
        if L a = node then nodeShare share (fun a => x (L a)) E a l else 0).sum =
      (Es.map fun E => nodeShare share x (E.map L) node l).sum := by
    intro Es
    induction Es with
    | nil => simp
    | cons E Es ih =>
      intro hEs
      simp only [List.map_cons, List.sum_cons, Finset.sum_add_distrib]
      rw [ih fun E hE => hEs E (List.mem_cons_of_mem _ hE),
        share_labels share x L e.nNode E (hEs E List.mem_cons_self)]
  exact hswap _ hE

/-- Like states stay alike. -/
theorem specimen_same {σ : Type} {P : List (ElementType × ℕ)} {p n : ℕ} {co cn : List Comp}
    (hp : getProblemTypeParameters p = .ok (n, co, cn)) {mat : Material σ} {same : σ → σ → Prop}
    (hmat : Repeatable mat n co same)
    {m : MeshTopology} {xs : ℕ → ℕ → ℝ} {t : ℕ → ℝ} {G : ℕ → ℕ → ℝ} {typ : ℕ → ElementType}
    {ng : ℕ → ℕ} {rule : ∀ k, GaussRule (typ k).dim} {old : ℕ → GpDict σ} {r : ℕ → IFState σ}
    (h : Specimen P p mat m xs t G typ ng rule old r)
    (hold : ∀ k k' g g' s s', old k g = some s → old k' g' = some s' → same s s')
    (hdim : ∀ k, IsElement m k → (typ k).dim = n) :
    ∀ k k' g g' s s', IsElement m k → IsElement m k' → g < ng k → g' < ng k' →
      (r k).state (g + 1) = some (some s) → (r k').state (g' + 1) = some (some s') → same s s' := by
  intro k k' g g' s s' hk hk' hg hg' hs hs'
  obtain ⟨s0, new, inc, rest, ten, h1, h2, h3, h4, h5, -⟩ :=
    affine_states (hdim k hk) hp (h.forces k hk) hg
  obtain ⟨s0', new', inc', rest', ten', h1', h2', h3', h4', h5', -⟩ :=
    affine_states (hdim k' hk') hp (h.forces k' hk') hg'
  have e1 := hs.symm.trans h2
  have e2 := hs'.symm.trans h2'
  simp only [Option.some.injEq] at e1 e2
  subst e1
  subst e2
  exact hmat.update inc inc' s0 s0' _ rest _ rest' h4 h4' (h5'.trans h5.symm) (hold _ _ _ _ _ _ h1 h1') h3 h3'

/-- A specimen whose interior shares cancel is in equilibrium and stays homogeneous. -/
theorem specimen_equilibrium {σ : Type} {P : List (ElementType × ℕ)} {p n : ℕ} {co cn : List Comp}
    (hp : getProblemTypeParameters p = .ok (n, co, cn)) {mat : Material σ} {same : σ → σ → Prop}
    (hmat : Repeatable mat n co same)
    {m : MeshTopology} {xs : ℕ → ℕ → ℝ} {t : ℕ → ℝ} {G : ℕ → ℕ → ℝ} {typ : ℕ → ElementType}
    {ng : ℕ → ℕ} {rule : ∀ k, GaussRule (typ k).dim} {old : ℕ → GpDict σ} {r : ℕ → IFState σ}
    (h : Specimen P p mat m xs t G typ ng rule old r)
    (hold : ∀ k k' g g' s s', old k g = some s → old k' g' = some s' → same s s')
    (hP : ∀ en ∈ P, en.1.dim = n ∧ 0 < en.2)
    {share : List (ℕ → ℝ) → ℕ → ℕ → ℝ}
    (harea : ∀ e ng, (e, ng) ∈ P → ∀ rule, e.init ng = .ok rule → ∀ (y : ℕ → ℕ → ℝ) (a : Fin e.nNode)
      (l : Fin e.dim), nodeArea e ng rule (fun (a : Fin e.nNode) (i : Fin e.dim) => y a i) a l =
        ((elementBoundary e).map fun E => nodeShare share y E a l).sum) :
    (∃ out, elementAssembler m (forceArrays m typ r) = .ok out ∧ out.len = m.nNode * n ∧
      ∀ node, 1 ≤ node → node ≤ m.nNode →
        (∀ l < n, ((boundaryAt m typ node).map fun E => nodeShare share xs E node l).sum = 0) →
        ∀ q < n, out.val ((node - 1) * n + q) = 0) ∧
    ∀ k k' g g' s s', IsElement m k → IsElement m k' → g < ng k → g' < ng k' →
      (r k).state (g + 1) = some (some s) → (r k').state (g' + 1) = some (some s') → same s s' := by
  have hdim : ∀ k, IsElement m k → (typ k).dim = n := fun k hk => (hP _ (h.pairs k hk)).1
  have hsame := specimen_same hp hmat h hold hdim
  refine ⟨?_, hsame⟩
  have he1 : IsElement m 1 := ⟨le_rfl, h.nonempty⟩
  have hng : ∀ k, IsElement m k → 0 < ng k := fun k hk => (hP _ (h.pairs k hk)).2
  obtain ⟨s0, new0, inc0, rest0, ten0, -, hst0, -, -, -, hten0⟩ :=
    affine_states (hdim 1 he1) hp (h.forces 1 he1) (hng 1 he1)
  have hS : ∀ k, IsElement m k → ∀ g < ng k, ∀ new t, (r k).state (g + 1) = some (some new) →
      getTensorFromMf (mat.stressMf new) n co true = .ok t → tens2 n t = tens2 n ten0 := by
    intro k hk g hg new t h1 h2
    exact hmat.stress _ _ _ _ (hsame 1 k 0 g new0 new he1 hk (hng 1 he1) hg hst0 h1) hten0 h2
  have hel : ElementArrays m n (forceArrays m typ r) := by
    refine ⟨?_, ?_⟩
    · refine List.ne_nil_of_length_pos ?_
      rw [forceArrays, List.length_map, List.length_range]
      exact h.nonempty
    · intro ka hka
      obtain ⟨k, hk, rfl⟩ := List.mem_map.1 hka
      have hk' : IsElement m (k + 1) := ⟨by omega, by have := List.mem_range.1 hk; omega⟩
      exact ⟨hk', by
        show (typ (k + 1)).nNode * (typ (k + 1)).dim = _
        rw [hdim _ hk', h.nodes _ hk']⟩
  obtain ⟨out, ho1, ho2, ho3⟩ := C20_assembly h.mesh hel
  refine ⟨out, ho1, ho2, fun node hn1 hn2 hz q hq => ?_⟩
  rw [ho3 node q hn1 hn2 hq]
  have hc : ∀ k ∈ List.range m.conn.length, contribution m n node q
      (k + 1, ⟨(typ (k + 1)).nNode * (typ (k + 1)).dim, fun q => (r (k + 1)).forces.val [q]⟩) =
      ∑ l : Fin n, tens2 n ten0 ⟨q, hq⟩ l * ((elementBoundary (typ (k + 1))).map fun E =>
        nodeShare share xs (E.map fun i : ℕ => (nodes m (k + 1)).getD i 0) node l).sum := by
    intro k hk
    have hk' : IsElement m (k + 1) := ⟨by omega, by have := List.mem_range.1 hk; omega⟩
    have := element_contribution (hdim _ hk') hp (h.forces _ hk') (x := xs)
      (L := fun i : ℕ => (nodes m (k + 1)).getD i 0) (hS _ hk') (share := share)
      (harea _ _ (h.pairs _ hk') _ (h.rules _ hk')) node ⟨q, hq⟩
    rw [← this]
    simp only [contribution]
    rw [h.nodes _ hk']
  simp only [forceArrays, List.map_map]
  refine (congrArg List.sum (List.map_congr_left (g := fun k => ∑ l : Fin n, tens2 n ten0 ⟨q, hq⟩ l *
    ((elementBoundary (typ (k + 1))).map fun E =>
        nodeShare share xs (E.map fun i : ℕ => (nodes m (k + 1)).getD i 0) node l).sum) fun k hk => hc k hk)).trans ?_
  have hflat : ∀ K : List ℕ, (K.map fun k => ∑ l : Fin n, tens2 n ten0 ⟨q, hq⟩ l *
      ((elementBoundary (typ (k + 1))).map fun E =>
        nodeShare share xs (E.map fun i : ℕ => (nodes m (k + 1)).getD i 0) node l).sum).sum =
      ∑ l : Fin n, tens2 n ten0 ⟨q, hq⟩ l * ((K.flatMap fun k => (elementBoundary (typ (k + 1))).map
        (List.map fun i : ℕ => (nodes m (k + 1)).getD i 0)).map fun E => nodeShare share xs E node l).sum := by
    intro K
    induction K with
    | nil => simp
    | cons k K ih =>
      simp only [List.map_cons, List.sum_cons, List.flatMap_cons, List.map_append, List.sum_append,
        mul_add, Finset.sum_add_distrib, ih, List.map_map]
      rfl
  rw [hflat]
  refine Finset.sum_eq_zero fun l _ => ?_
  have := hz l l.2
  rw [boundaryAt, ← sum_filter_mem] at this
  rw [meshBoundary] at this
  rw [this, mul_zero]

/-- **C147.** A plane specimen of one material, with the same state at all Gauss points, under displacement
increments that are affine in the coordinates: the assembled internal force vanishes at every interior
node, and all Gauss points have the same state again. -/
theorem C147_plane {σ : Type} {p : ℕ} {co cn : List Comp}
    (hp : getProblemTypeParameters p = .ok (2, co, cn)) {mat : Material σ} {same : σ → σ → Prop}
    (hmat : Repeatable mat 2 co same)
    {m : MeshTopology} {xs : ℕ → ℕ → ℝ} {t : ℕ → ℝ} {G : ℕ → ℕ → ℝ} {typ : ℕ → ElementType}
    {ng : ℕ → ℕ} {rule : ∀ k, GaussRule (typ k).dim} {old : ℕ → GpDict σ} {r : ℕ → IFState σ}
    (h : Specimen planePairs p mat m xs t G typ ng rule old r)
    (hold : ∀ k k' g g' s s', old k g = some s → old k' g' = some s' → same s s') :
    (∃ out, elementAssembler m (forceArrays m typ r) = .ok out ∧ out.len = m.nNode * 2 ∧
      ∀ node, 1 ≤ node → node ≤ m.nNode → InteriorPlane m typ node →
        ∀ q < 2, out.val ((node - 1) * 2 + q) = 0) ∧
    ∀ k k' g g' s s', IsElement m k → IsElement m k' → g < ng k → g' < ng k' →
      (r k).state (g + 1) = some (some s) → (r k').state (g' + 1) = some (some s') → same s s' := by
  have hP : ∀ en ∈ planePairs, en.1.dim = 2 ∧ 0 < en.2 := by decide
  obtain ⟨⟨out, h1, h2, h3⟩, h4⟩ := specimen_equilibrium hp hmat h hold hP (share := edgeNormal)
    (fun e ng he rule hr y a l => plane_shares he rule hr y a l)
  exact ⟨⟨out, h1, h2, fun node hn1 hn2 hi => h3 node hn1 hn2 fun l _ =>
    plane_cancel (fun k hk => (hP _ (h.pairs k hk)).1) xs hi l⟩, h4⟩

/-- **C147.** The same for solid specimens of tetrahedra with four nodes and hexahedra with eight. -/
theorem C147_solid {σ : Type} {p : ℕ} {co cn : List Comp}
    (hp : getProblemTypeParameters p = .ok (3, co, cn)) {mat : Material σ} {same : σ → σ → Prop}
    (hmat : Repeatable mat 3 co same)
    {m : MeshTopology} {xs : ℕ → ℕ → ℝ} {t : ℕ → ℝ} {G : ℕ → ℕ → ℝ} {typ : ℕ → ElementType}
    {ng : ℕ → ℕ} {rule : ∀ k, GaussRule (typ k).dim} {old : ℕ → GpDict σ} {r : ℕ → IFState σ}
    (h : Specimen solidPairs p mat m xs t G typ ng rule old r)
    (hold : ∀ k k' g g' s s', old k g = some s → old k' g' = some s' → same s s') :
    (∃ out, elementAssembler m (forceArrays m typ r) = .ok out ∧ out.len = m.nNode * 3 ∧
      ∀ node, 1 ≤ node → node ≤ m.nNode → InteriorSolid m typ node →
        ∀ q < 3, out.val ((node - 1) * 3 + q) = 0) ∧
    ∀ k k' g g' s s', IsElement m k → IsElement m k' → g < ng k → g' < ng k' →
      (r k).state (g + 1) = some (some s) → (r k').state (g' + 1) = some (some s') → same s s' := by
  have hP : ∀ en ∈ solidPairs, en.1.dim = 3 ∧ 0 < en.2 := by decide
  obtain ⟨⟨out, h1, h2, h3⟩, h4⟩ := specimen_equilibrium hp hmat h hold hP (share := faceShare)
    (fun e ng he rule hr y a l => solid_shares he rule hr y a l)
  exact ⟨⟨out, h1, h2, fun node hn1 hn2 hi => h3 node hn1 hn2 fun l _ =>
    solid_cancel (fun k hk => (hP _ (h.pairs k hk)).1) xs hi l⟩, h4⟩

/-- **C147.** Every material whose update reads the components of the strain increment and the old state
answers alike in like situations: so do the material models of the library. -/
theorem C147_materials {S : Type} (p : PType) (step : T2 p.dim → S → Option S) (stress : S → Vmf p) :
    Repeatable (libraryMaterial p step stress) p.dim (kelvinOrder p) Eq := by
  refine ⟨?_, ?_⟩
  · rintro inc inc' s s' new rest new' rest' - - h rfl h1 h2
    simp only [libraryMaterial] at h1 h2
    rw [h] at h2
    have := h1.symm.trans h2
    cases this
    rfl
  · rintro s s' t t' rfl h1 h2
    have := h1.symm.trans h2
    cases this
    rfl

/-- Coordinates of a plane mesh of two six-node triangles, the middle node 7 of an outer edge moved out. -/
def curvedCoords : ℕ → ℕ → ℝ
  | 1, _ => 0
  | 2, 0 => 1
  | 2, _ => 0
  | 3, 0 => 0
  | 3, _ => 1
  | 4, _ => 1
  | 5, 0 => 1 / 2
  | 5, _ => 0
  | 6, _ => 1 / 2
  | 7, 0 => -1 / 4
  | 7, _ => 1 / 2
  | 8, 0 => 1
  | 8, _ => 1 / 2
  | 9, 0 => 1 / 2
  | 9, _ => 1
  | _, _ => 0

/-- Two six-node triangles that share the edge 2-6-3. -/
def curvedMesh : MeshTopology := ⟨9, [[1, 2, 3, 5, 6, 7], [2, 4, 3, 8, 9, 6]]⟩

theorem curved_area {rule : GaussRule 2} (hr : gaussTriangular 1 = .ok rule) (l : Fin 2) :
    nodeArea .tri6 1 rule (specimenCoords curvedMesh curvedCoords .tri6 1) (4 : Fin 6) l = ![2 / 3, 8 / 9] l ∧
    nodeArea .tri6 1 rule (specimenCoords curvedMesh curvedCoords .tri6 2) (5 : Fin 6) l =
      ![-(2 / 3), -(2 / 3)] l := by
  simp only [gaussTriangular, if_true] at hr
  cases hr
  have x1 : (specimenCoords curvedMesh curvedCoords .tri6 1 : Fin 6 → Fin 2 → ℝ) =
      ![![0, 0], ![1, 0], ![0, 1], ![1 / 2, 0], ![1 / 2, 1 / 2], ![-1 / 4, 1 / 2]] := by
    funext a i
    fin_cases a <;> fin_cases i <;> rfl
  have x2 : (specimenCoords curvedMesh curvedCoords .tri6 2 : Fin 6 → Fin 2 → ℝ) =
      ![![1, 0], ![1, 1], ![0, 1], ![1, 1 / 2], ![1 / 2, 1], ![1 / 2, 1 / 2]] := by
    funext a i
    fin_cases a <;> fin_cases i <;> rfl
  have K : edgeMatrix 6 tri6LocalDeriv [(![1 / 3, 1 / 3], 1 / 2)] = ![
      ![0, 1 / 18, -1 / 18, 2 / 9, 0, -2 / 9],
      ![-1 / 18, 0, 1 / 18, -2 / 9, 2 / 9, 0],
      ![1 / 18, -1 / 18, 0, 0, -2 / 9, 2 / 9],
      ![-2 / 9, 2 / 9, 0, 0, 8 / 9, -8 / 9],
      ![0, -2 / 9, 2 / 9, -8 / 9, 0, 8 / 9],
      ![2 / 9, 0, -2 / 9, 8 / 9, -8 / 9, 0]] := by
    funext a b
    fin_cases a <;> fin_cases b <;> norm_num [edgeMatrix, tri6LocalDeriv]
  refine ⟨(congrArg (fun X : Fin 6 → Fin 2 → ℝ => nodeArea .tri6 1 _ X (4 : Fin 6) l) x1).trans
    ((plane_area tri6LocalDeriv [(![1 / 3, 1 / 3], 1 / 2)] _ (4 : Fin 6) l).trans ?_),
    (congrArg (fun X : Fin 6 → Fin 2 → ℝ => nodeArea .tri6 1 _ X (5 : Fin 6) l) x2).trans
    ((plane_area tri6LocalDeriv [(![1 / 3, 1 / 3], 1 / 2)] _ (5 : Fin 6) l).trans ?_)⟩ <;>
  rw [K] <;> fin_cases l <;> simp [Fin.sum_univ_succ] <;> norm_num

/-- **C147 is violated for `tri6` with one Gauss point.** The constructor accepts one point, but in this
specimen of two triangles, one with a curved outer edge, the force on the node inside is two ninths of the
stress vector, whatever the material. -/
theorem C147_one_point_violated {σ : Type} {p : ℕ} {co cn : List Comp}
    (hp : getProblemTypeParameters p = .ok (2, co, cn)) {mat : Material σ} {same : σ → σ → Prop}
    (hmat : Repeatable mat 2 co same) {t : ℕ → ℝ} {G : ℕ → ℕ → ℝ}
    {rule : ℕ → GaussRule ElementType.tri6.dim} {old : ℕ → GpDict σ} {r : ℕ → IFState σ}
    (h : Specimen [(.tri6, 1)] p mat curvedMesh curvedCoords t G (fun _ => .tri6) (fun _ => 1) rule old r)
    (hold : ∀ k k' g g' s s', old k g = some s → old k' g' = some s' → same s s') :
    InteriorPlane curvedMesh (fun _ => .tri6) 6 ∧
    ∃ out new ten, elementAssembler curvedMesh (forceArrays curvedMesh (fun _ => .tri6) r) = .ok out ∧
      (r 1).state 1 = some (some new) ∧ getTensorFromMf (mat.stressMf new) 2 co true = .ok ten ∧
      ∀ q < 2, out.val ((6 - 1) * 2 + q) = 2 / 9 * ten.val [q, 1] := by
  refine ⟨by decide, ?_⟩
  have e1 : IsElement curvedMesh 1 := ⟨le_rfl, by decide⟩
  have e2 : IsElement curvedMesh 2 := ⟨by decide, by decide⟩
  obtain ⟨s0, new0, inc0, rest0, ten0, -, hst0, -, -, -, hten0⟩ :=
    affine_states rfl hp (h.forces 1 e1) one_pos
  have hsame := specimen_same hp hmat h hold fun _ _ => rfl
  have hS : ∀ k, IsElement curvedMesh k → ∀ g < 1, ∀ new t, (r k).state (g + 1) = some (some new) →
      getTensorFromMf (mat.stressMf new) 2 co true = .ok t → tens2 2 t = tens2 2 ten0 := by
    intro k hk g hg new t h1 h2
    exact hmat.stress _ _ _ _ (hsame 1 k 0 g new0 new e1 hk one_pos hg hst0 h1) hten0 h2
  have hel : ElementArrays curvedMesh 2 (forceArrays curvedMesh (fun _ => .tri6) r) := by
    refine ⟨by simp [forceArrays, curvedMesh], ?_⟩
    intro ka hka
    obtain ⟨k, hk, rfl⟩ := List.mem_map.1 hka
    have hk' : IsElement curvedMesh (k + 1) := ⟨by omega, by have := List.mem_range.1 hk; omega⟩
    exact ⟨hk', (congrArg (· * 2) (h.nodes _ hk')).symm⟩
  obtain ⟨out, ho1, ho2, ho3⟩ := C20_assembly h.mesh hel
  refine ⟨out, new0, ten0, ho1, hst0, hten0, fun q hq => ?_⟩
  rw [ho3 6 q (by decide) (by decide) hq]
  have f1 := uniform_force hp (h.forces 1 e1) (hS 1 e1) (4 : Fin 6) ⟨q, hq⟩
  have f2 := uniform_force hp (h.forces 2 e2) (hS 2 e2) (5 : Fin 6) ⟨q, hq⟩
  have a1 := fun l => (curved_area (h.rules 1 e1) l).1
  have a2 := fun l => (curved_area (h.rules 2 e2) l).2
  have g1 : (r 1).forces.val [4 * 2 + q] = tens2 2 ten0 ⟨q, hq⟩ 0 * (2 / 3) + tens2 2 ten0 ⟨q, hq⟩ 1 * (8 / 9) := by
    refine f1.trans ((Fin.sum_univ_two _).trans ?_)
    exact congrArg₂ (fun x y => tens2 2 ten0 ⟨q, hq⟩ 0 * x + tens2 2 ten0 ⟨q, hq⟩ 1 * y) (a1 0) (a1 1)
  have g2 : (r 2).forces.val [5 * 2 + q] = tens2 2 ten0 ⟨q, hq⟩ 0 * (-(2 / 3)) +
      tens2 2 ten0 ⟨q, hq⟩ 1 * (-(2 / 3)) := by
    refine f2.trans ((Fin.sum_univ_two _).trans ?_)
    exact congrArg₂ (fun x y => tens2 2 ten0 ⟨q, hq⟩ 0 * x + tens2 2 ten0 ⟨q, hq⟩ 1 * y) (a2 0) (a2 1)
  have hsum : ((forceArrays curvedMesh (fun _ => ElementType.tri6) r).map
      (contribution curvedMesh 2 6 q)).sum = (r 1).forces.val [4 * 2 + q] + (r 2).forces.val [5 * 2 + q] := by
    simp [forceArrays, curvedMesh, contribution, Spec.nodes, Finset.sum_range_succ, List.range_succ]
  rw [hsum, g1, g2]
  simp only [tens2]
  norm_num
  ring

/-! ## Examples -/

/-- Elastic states of a square with unit modulus. -/
abbrev patchMat : Material (ElasticState .plane) :=
  libraryMaterial .plane (elasticGood .plane fun k => if k = .E then some 100 else some 0.3) ElasticState.stress

/-- Three triangles around the node 4. -/
def patchMesh : MeshTopology := ⟨4, [[1, 2, 4], [2, 3, 4], [3, 1, 4]]⟩

def patchCoords : ℕ → ℕ → ℝ
  | 2, 0 => 1
  | 3, 1 => 1
  | 4, _ => 1 / 4
  | _, _ => 0

/-- Whatever the affine increments, the three triangles pull on the middle node with forces that cancel. -/
example (t : ℕ → ℝ) (G : ℕ → ℕ → ℝ) : ∃ rule r out,
    Specimen planePairs 1 patchMat patchMesh patchCoords t G (fun _ => .tri3) (fun _ => 1) (fun _ => rule)
      (fun _ _ => some (elasticInitState .plane)) r ∧
    elementAssembler patchMesh (forceArrays patchMesh (fun _ => .tri3) r) = .ok out ∧
    InteriorPlane patchMesh (fun _ => .tri3) 4 ∧ ¬InteriorPlane patchMesh (fun _ => .tri3) 1 ∧
    out.val 6 = 0 ∧ out.val 7 = 0 := by
  obtain ⟨rule, hr, hlen⟩ := (C14_element_init .tri3 1).1 (by simp [ElementType.admissibleGauss])
  have hret : ∀ k, IsElement patchMesh k → ∃ r, computeElementInternalForces .infinitesimal 1 .tri3 1 rule patchMat
      (fun _ => some (elasticInitState .plane)) (specimenCoords patchMesh patchCoords .tri3 k)
      (affineIncrement patchMesh patchCoords t G .tri3 k) = .ok r := by
    intro k hk
    have := C19_returns (p := 1) (e := .tri3) (co := [[1,1],[2,2],[1,2]]) (mat := patchMat)
      (old := fun _ => some (elasticInitState .plane)) (X := specimenCoords patchMesh patchCoords .tri3 k)
      (uinc := affineIncrement patchMesh patchCoords t G .tri3 k) (rule := rule) (by rfl) rfl ?_
      (fun _ _ => rfl) (fun inc s => ⟨_, _, rfl, rfl⟩)
    · rwa [hlen] at this
    · intro c w _
      obtain ⟨h1, h2⟩ := hk
      have h3 : k ≤ 3 := h2
      have hdet : ∀ X : Fin 3 → Fin 2 → ℝ, (ElementType.jacobian .tri3 X c).det =
          (X 1 0 - X 0 0) * (X 2 1 - X 0 1) - (X 1 1 - X 0 1) * (X 2 0 - X 0 0) := by
        intro X
        refine (Matrix.det_fin_two (R := ℝ) ((Matrix.of (tri3LocalDeriv c)).transpose * Matrix.of X)).trans ?_
        simp only [Matrix.mul_apply, Fin.sum_univ_three, Matrix.transpose_apply, Matrix.of_apply, tri3LocalDeriv,
          Matrix.cons_val_zero, Matrix.cons_val_one, Matrix.cons_val]
        ring
      refine ne_of_eq_of_ne (hdet fun a i => patchCoords ((Spec.nodes patchMesh k).getD a 0) i) ?_
      interval_cases k <;> norm_num [Spec.nodes, patchMesh, patchCoords]
  have : Nonempty (IFState (ElasticState .plane)) := ⟨(hret 1 ⟨le_rfl, by decide⟩).choose⟩
  choose! r hr' using hret
  have hs : Specimen planePairs 1 patchMat patchMesh patchCoords t G (fun _ => .tri3) (fun _ => 1)
      (fun _ => rule) (fun _ _ => some (elasticInitState .plane)) r := by
    refine ⟨⟨by decide, by decide⟩, by decide, fun k _ => by decide, fun k _ => hr, fun k hk => ?_, hr'⟩
    obtain ⟨h1, h2⟩ := hk
    have h3 : k ≤ 3 := h2
    interval_cases k <;> rfl
  obtain ⟨⟨out, h1, -, h2⟩, -⟩ := C147_plane (p := 1) (co := [[1,1],[2,2],[1,2]]) (by rfl)
    (C147_materials .plane _ _) hs (by rintro _ _ _ _ s s' ⟨⟩ ⟨⟩; rfl)
  refine ⟨rule, r, out, hs, h1, by decide, by decide, ?_, ?_⟩
  · exact h2 4 (by decide) (by decide) (by decide) 0 (by decide)
  · exact h2 4 (by decide) (by decide) (by decide) 1 (by decide)

/-- Four tetrahedra around the node 5. -/
example : InteriorSolid ⟨5, [[1, 2, 3, 5], [1, 4, 2, 5], [2, 4, 3, 5], [1, 3, 4, 5]]⟩ (fun _ => .tetra4) 5 ∧
    ¬InteriorSolid ⟨5, [[1, 2, 3, 5], [1, 4, 2, 5], [2, 4, 3, 5], [1, 3, 4, 5]]⟩ (fun _ => .tetra4) 1 := by
  decide

/-- The specimen with the curved edge exists, and its forces are those of the theorem. -/
example (t : ℕ → ℝ) (G : ℕ → ℕ → ℝ) : ∃ rule r out new ten,
    Specimen [(.tri6, 1)] 1 patchMat curvedMesh curvedCoords t G (fun _ => .tri6) (fun _ => 1) (fun _ => rule)
      (fun _ _ => some (elasticInitState .plane)) r ∧
    elementAssembler curvedMesh (forceArrays curvedMesh (fun _ => .tri6) r) = .ok out ∧
    (r 1).state 1 = some (some new) ∧
    getTensorFromMf (patchMat.stressMf new) 2 [[1,1],[2,2],[1,2]] true = .ok ten ∧
    out.val 11 = 2 / 9 * ten.val [1, 1] := by
  obtain ⟨rule, hr, hlen⟩ := (C14_element_init .tri6 1).1 (by simp [ElementType.admissibleGauss])
  have hrule : rule = [(![1 / 3, 1 / 3], 1 / 2)] := by
    have h2 : gaussTriangular 1 = .ok rule := hr
    simp only [gaussTriangular, if_true] at h2
    cases h2
    rfl
  have hret : ∀ k, IsElement curvedMesh k → ∃ r, computeElementInternalForces .infinitesimal 1 .tri6 1 rule patchMat
      (fun _ => some (elasticInitState .plane)) (specimenCoords curvedMesh curvedCoords .tri6 k)
      (affineIncrement curvedMesh curvedCoords t G .tri6 k) = .ok r := by
    intro k hk
    have := C19_returns (p := 1) (e := .tri6) (co := [[1,1],[2,2],[1,2]]) (mat := patchMat)
      (old := fun _ => some (elasticInitState .plane)) (X := specimenCoords curvedMesh curvedCoords .tri6 k)
      (uinc := affineIncrement curvedMesh curvedCoords t G .tri6 k) (rule := rule) (by rfl) rfl ?_
      (fun _ _ => rfl) (fun inc s => ⟨_, _, rfl, rfl⟩)
    · rwa [hlen] at this
    · intro c w hc
      rw [hrule] at hc
      obtain ⟨rfl, rfl⟩ := Prod.mk.inj (List.mem_singleton.1 hc)
      obtain ⟨h1, h2⟩ := hk
      have h3 : k ≤ 2 := h2
      have hdet : ∀ X : Fin 6 → Fin 2 → ℝ, (ElementType.jacobian .tri6 X ![1 / 3, 1 / 3]).det =
          (-1 / 3 * X 0 0 + 1 / 3 * X 1 0 + 4 / 3 * X 4 0 - 4 / 3 * X 5 0) *
            (-1 / 3 * X 0 1 + 1 / 3 * X 2 1 - 4 / 3 * X 3 1 + 4 / 3 * X 4 1) -
          (-1 / 3 * X 0 1 + 1 / 3 * X 1 1 + 4 / 3 * X 4 1 - 4 / 3 * X 5 1) *
            (-1 / 3 * X 0 0 + 1 / 3 * X 2 0 - 4 / 3 * X 3 0 + 4 / 3 * X 4 0) := by
        intro X
        refine (Matrix.det_fin_two (R := ℝ) ((Matrix.of (tri6LocalDeriv ![1 / 3, 1 / 3])).transpose *
          Matrix.of X)).trans ?_
        simp only [Matrix.mul_apply, Fin.sum_univ_six, Matrix.transpose_apply, Matrix.of_apply, tri6LocalDeriv,
          Matrix.cons_val_zero, Matrix.cons_val_one, Matrix.cons_val]
        ring
      refine ne_of_eq_of_ne (hdet fun a i => curvedCoords ((Spec.nodes curvedMesh k).getD a 0) i) ?_
      interval_cases k <;> norm_num [Spec.nodes, curvedMesh, curvedCoords]
  have : Nonempty (IFState (ElasticState .plane)) := ⟨(hret 1 ⟨le_rfl, by decide⟩).choose⟩
  choose! r hr' using hret
  have hs : Specimen [(.tri6, 1)] 1 patchMat curvedMesh curvedCoords t G (fun _ => .tri6) (fun _ => 1)
      (fun _ => rule) (fun _ _ => some (elasticInitState .plane)) r := by
    refine ⟨⟨by decide, by decide⟩, by decide, fun k _ => by decide, fun k _ => hr, fun k hk => ?_, hr'⟩
    obtain ⟨h1, h2⟩ := hk
    have h3 : k ≤ 2 := h2
    interval_cases k <;> rfl
  obtain ⟨-, out, new, ten, h1, h2, h3, h4⟩ := C147_one_point_violated (p := 1) (co := [[1,1],[2,2],[1,2]])
    (by rfl) (C147_materials .plane _ _) hs (by rintro _ _ _ _ s s' ⟨⟩ ⟨⟩; rfl)
  exact ⟨rule, r, out, new, ten, hs, h1, h2, h3, h4 1 (by decide)⟩

end Hooke
