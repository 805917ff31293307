import Verif.Lemmas.Mesh
import Verif.Model.MeshConfig

/-!
# C20, C21, C61 assembly and extraction; C22, C70 mesh configuration
-/

noncomputable section

namespace Hooke

open Finset

/-! ## C20 -/

/-- **C20.** Assembly succeeds, the mesh vector has `n_node_mesh * nd` entries and the entry
of node `n` (label), direction `d`, is the sum of the contributions of all elements. -/
theorem C20_assembly {m : MeshTopology} (hm : Spec.ValidMesh m) {nd : ℕ}
    {elems : List (ℕ × Arr)} (he : Spec.ElementArrays m nd elems) :
    ∃ out, elementAssembler m elems = .ok out ∧ out.len = m.nNode * nd ∧
      ∀ n d, 1 ≤ n → n ≤ m.nNode → d < nd →
        out.val ((n - 1) * nd + d) = (elems.map (Spec.contribution m nd n d)).sum := by
  obtain ⟨out, h1, h2, h3⟩ := assembler_ok hm he
  refine ⟨out, h1, h2, ?_⟩
  intro n d hn _ hd
  have := h3 (n - 1) d hd
  rwa [show n - 1 + 1 = n by omega] at this

/-- **C20.** The assembled vector does not depend on the order in which the elements are
stored. -/
theorem C20_order_independent {m : MeshTopology} (hm : Spec.ValidMesh m) {nd : ℕ}
    {elems elems' : List (ℕ × Arr)} (he : Spec.ElementArrays m nd elems)
    (hp : elems.Perm elems') :
    ∃ out out', elementAssembler m elems = .ok out ∧ elementAssembler m elems' = .ok out' ∧
      out.len = out'.len ∧ ∀ q < out.len, out.val q = out'.val q := by
  have he' : Spec.ElementArrays m nd elems' :=
    ⟨fun h => he.1 (by rw [h] at hp; exact List.perm_nil.1 hp),
      fun ka hka => he.2 ka (hp.mem_iff.2 hka)⟩
  obtain ⟨out, h1, h2, h3⟩ := assembler_ok hm he
  obtain ⟨out', h1', h2', h3'⟩ := assembler_ok hm he'
  refine ⟨out, out', h1, h1', by rw [h2, h2'], ?_⟩
  intro q hq
  have hnd : 0 < nd := by
    rcases Nat.eq_zero_or_pos nd with h | h
    · rw [h2, h] at hq; simp at hq
    · exact h
  have hq' : q = q / nd * nd + q % nd := by rw [mul_comm]; exact (Nat.div_add_mod q nd).symm
  rw [hq', h3 _ _ (Nat.mod_lt _ hnd), h3' _ _ (Nat.mod_lt _ hnd)]
  exact (hp.map _).sum_eq

/-- **C20.** A node label outside the mesh is rejected as soon as there are two or more
entries per node: no contribution is written somewhere else. -/
theorem C20_bad_label {m : MeshTopology} {nd k : ℕ} (hnd : 2 ≤ nd) (hk : Spec.IsElement m k)
    {a : Arr} (hlen : a.len = (Spec.nodes m k).length * nd)
    (hbad : ∃ x ∈ Spec.nodes m k, ¬ (1 ≤ x ∧ x ≤ m.nNode)) :
    elementAssembler m [(k, a)] = .error .runtimeError := by
  have key : ∀ (l : List ℕ) (s : ℕ) (acc : ℕ → ℝ), (∃ x ∈ l, ¬ (1 ≤ x ∧ x ≤ m.nNode)) →
      ((l.zipIdx s).map fun x => (x.2, x.1)).foldlM (assembleNode m.nNode nd a) acc
        = .error .runtimeError := by
    intro l
    induction l with
    | nil => rintro s acc ⟨x, hx, _⟩; simp at hx
    | cons y l ih =>
      rintro s acc ⟨x, hx, hxb⟩
      rw [List.zipIdx_cons, List.map_cons, List.foldlM_cons]
      by_cases hy : 1 ≤ y ∧ y ≤ m.nNode
      · have hx' : x ∈ l := by
          rcases List.mem_cons.1 hx with h | h
          · exact absurd (h ▸ hy) hxb
          · exact h
        unfold assembleNode
        simp only
        rw [if_neg (by omega)]
        exact ih (s + 1) _ ⟨x, hx', hxb⟩
      · unfold assembleNode
        simp only
        rw [if_pos (by omega), if_neg (by omega)]
        rfl
  have hpos : 0 < (Spec.nodes m k).length := by
    obtain ⟨x, hx, _⟩ := hbad
    exact List.length_pos_of_mem hx
  unfold elementAssembler
  simp only [List.head?_cons, orRaise, bind, Except.bind]
  rw [lookup_ok hk]
  simp only [raiseIf, hpos.ne', if_false, hlen, Nat.mul_div_cancel_left _ hpos]
  rw [List.foldlM_cons]
  unfold assembleElement
  simp only
  rw [lookup_ok hk]
  simp only [bind, Except.bind, raiseIf, hlen, ne_eq, not_true_eq_false, if_false]
  rw [key (Spec.nodes m k) 0 _ hbad]

/-- Two triangles sharing an edge (nodes 2 and 3). -/
def demoMesh : MeshTopology := ⟨4, [[1, 2, 3], [3, 2, 4]]⟩

theorem demoMesh_valid : Spec.ValidMesh demoMesh := by
  refine ⟨by decide, ?_⟩
  intro c hc
  simp only [demoMesh, List.mem_cons, List.not_mem_nil, or_false] at hc
  rcases hc with rfl | rfl <;> simp [demoMesh]

/-- The hypotheses are met by a mesh of two triangles, and the shared node 3 receives the
third node of element 1 and the first of element 2. -/
example (a b : ℕ → ℝ) :
    ∃ out, elementAssembler demoMesh [(1, ⟨6, a⟩), (2, ⟨6, b⟩)] = .ok out ∧
      out.val 5 = a 5 + b 1 := by
  have he : Spec.ElementArrays demoMesh 2 [(1, ⟨6, a⟩), (2, ⟨6, b⟩)] := by
    refine ⟨by simp, ?_⟩
    intro ka hka
    simp only [List.mem_cons, List.not_mem_nil, or_false] at hka
    rcases hka with rfl | rfl <;> simp [Spec.IsElement, Spec.nodes, demoMesh]
  obtain ⟨out, h1, _, h3⟩ := C20_assembly demoMesh_valid he
  refine ⟨out, h1, ?_⟩
  have := h3 3 1 (by decide) (by decide) (by decide)
  simpa [Spec.contribution, Spec.nodes, demoMesh, sum_range_succ] using this

example (a : ℕ → ℝ) : elementAssembler ⟨2, [[1, 3]]⟩ [(1, ⟨4, a⟩)] = .error .runtimeError :=
  C20_bad_label (nd := 2) le_rfl (by simp [Spec.IsElement]) (by simp [Spec.nodes])
    ⟨3, by simp [Spec.nodes], by simp⟩

/-! ## C21 -/

/-- **C21.** Extraction returns, for each local node, the values of the mesh vector at the
node of the connectivity. -/
theorem C21_extract {m : MeshTopology} (hm : Spec.ValidMesh m) {nd k : ℕ}
    (hk : Spec.IsElement m k) {v : Arr} (hv : v.len = m.nNode * nd) :
    ∃ out, elementExtractor m v k = .ok out ∧ out.len = (Spec.nodes m k).length * nd ∧
      ∀ i d, i < (Spec.nodes m k).length → d < nd →
        out.val (i * nd + d) = v.val (((Spec.nodes m k).getD i 0 - 1) * nd + d) :=
  extractor_ok hm hk hv

/-- **C21.** `build_element_mesh_indexing` lists exactly the positions the extractor reads. -/
theorem C21_indexing {m : MeshTopology} (hm : Spec.ValidMesh m) {nd k : ℕ}
    (hk : Spec.IsElement m k) {v : Arr} (hv : v.len = m.nNode * nd) :
    ∃ out, elementExtractor m v k = .ok out ∧
      (buildElementMeshIndexing (Spec.nodes m k) nd).length = out.len ∧
      ∀ p < out.len, out.val p =
        v.val ((buildElementMeshIndexing (Spec.nodes m k) nd).getD p 0) ∧
        (buildElementMeshIndexing (Spec.nodes m k) nd).getD p 0 < v.len := by
  obtain ⟨out, h1, h2, h3⟩ := extractor_ok hm hk hv
  refine ⟨out, h1, by rw [h2, indexing_length], ?_⟩
  intro p hp
  rw [h2] at hp
  have hnd : 0 < nd := by
    rcases Nat.eq_zero_or_pos nd with h | h
    · rw [h] at hp; simp at hp
    · exact h
  have hp' : p = p / nd * nd + p % nd := by rw [mul_comm]; exact (Nat.div_add_mod p nd).symm
  have hi : p / nd < (Spec.nodes m k).length := by
    rw [Nat.div_lt_iff_lt_mul hnd]; exact hp
  have hd := Nat.mod_lt p hnd
  rw [hp', h3 _ _ hi hd, indexing_getD _ _ _ _ hi hd]
  refine ⟨rfl, ?_⟩
  have hmem : (Spec.nodes m k).getD (p / nd) 0 ∈ Spec.nodes m k := by
    rw [List.getD_eq_getElem?_getD, List.getElem?_eq_getElem hi]; simp
  obtain ⟨hx1, hx2⟩ := (hm.nodes hk).2 _ hmem
  rw [hv]
  calc _ < ((Spec.nodes m k).getD (p / nd) 0 - 1) * nd + nd := by omega
    _ = ((Spec.nodes m k).getD (p / nd) 0 - 1 + 1) * nd := by ring
    _ ≤ _ := Nat.mul_le_mul_right _ (by omega)

/-- **C21.** The batched indexing is the table of the element indexings, in label order, when
all elements have the same number of nodes. -/
theorem C21_batched_indexing {m : MeshTopology} {nn : ℕ} (hne : m.conn ≠ [])
    (hu : ∀ c ∈ m.conn, c.length = nn) (nd : ℕ) :
    ∃ t, buildElementsMeshIndexing m nd = .ok t ∧ t.length = m.conn.length ∧
      ∀ k, Spec.IsElement m k →
        t.getD (k - 1) [] = buildElementMeshIndexing (Spec.nodes m k) nd := by
  obtain ⟨c, l, hcl⟩ := List.exists_cons_of_ne_nil hne
  refine ⟨m.conn.map fun nodes => buildElementMeshIndexing nodes nd, ?_, by simp, ?_⟩
  · unfold buildElementsMeshIndexing getConnectivitiesTensor
    rw [hcl] at hu ⊢
    have : (l.any fun c' => decide (c'.length ≠ c.length)) = false := by
      rw [List.any_eq_false]
      intro c' hc'
      simp [hu c' (by simp [hc']), hu c (by simp)]
    simp only [this]
    simp [bind, Except.bind, pure, Except.pure]
  · intro k ⟨hk1, hk2⟩
    unfold Spec.nodes
    simp only [List.getD_eq_getElem?_getD]
    rw [List.getElem?_eq_getElem (by simp; omega), List.getElem?_eq_getElem (by omega)]
    simp

/-- **C21.** A mesh mixing elements with different numbers of nodes has no batched
indexing: the call raises. -/
theorem C21_mixed_raises {m : MeshTopology} (h : ∃ c ∈ m.conn, ∃ c' ∈ m.conn,
    c.length ≠ c'.length) (nd : ℕ) :
    buildElementsMeshIndexing m nd = .error .unboundLocal := by
  obtain ⟨c, hc, c', hc', hne⟩ := h
  unfold buildElementsMeshIndexing getConnectivitiesTensor
  cases hm : m.conn with
  | nil => rw [hm] at hc; simp at hc
  | cons a l =>
    have : (l.any fun x => decide (x.length ≠ a.length)) = true := by
      rw [List.any_eq_true]
      rw [hm] at hc hc'
      by_cases hca : c.length = a.length
      · refine ⟨c', ?_, by simp; omega⟩
        rcases List.mem_cons.1 hc' with h | h
        · subst h; exact absurd hca hne
        · exact h
      · refine ⟨c, ?_, by simpa using hca⟩
        rcases List.mem_cons.1 hc with h | h
        · subst h; exact absurd rfl hca
        · exact h
    simp only [this]
    simp [bind, Except.bind]

/-- **C21.** Assembly and extraction are adjoint. -/
theorem C21_adjoint {m : MeshTopology} (hm : Spec.ValidMesh m) {nd : ℕ}
    {elems : List (ℕ × Arr)} (he : Spec.ElementArrays m nd elems) {v : Arr}
    (hv : v.len = m.nNode * nd) {out : Arr} (ho : elementAssembler m elems = .ok out)
    {ext : ℕ → Arr} (hx : ∀ ka ∈ elems, elementExtractor m v ka.1 = .ok (ext ka.1)) :
    ∑ q ∈ range out.len, out.val q * v.val q =
      (elems.map fun ka => ∑ p ∈ range ka.2.len, ka.2.val p * (ext ka.1).val p).sum := by
  obtain ⟨out', h1, h2, h3⟩ := assembler_ok hm he
  obtain rfl : out' = out := Except.ok.inj (h1.symm.trans ho)
  rw [h2, sum_range_mul_eq]
  have hL : ∀ n ∈ range m.nNode, ∑ d ∈ range nd, out'.val (n * nd + d) * v.val (n * nd + d) =
      (elems.map fun ka => ∑ d ∈ range nd,
        Spec.contribution m nd (n + 1) d ka * v.val (n * nd + d)).sum := by
    intro n _
    rw [sum_congr rfl (fun d hd => by rw [h3 n d (mem_range.1 hd)])]
    clear h1 h3 ho hx he
    induction elems with
    | nil => simp
    | cons a l ih => simp only [List.map_cons, List.sum_cons, add_mul, sum_add_distrib, ih]
  rw [sum_congr rfl hL]
  have hswap : ∀ (l : List (ℕ × Arr)) (F : ℕ → ℕ × Arr → ℝ),
      ∑ n ∈ range m.nNode, (l.map (F n)).sum
        = (l.map fun ka => ∑ n ∈ range m.nNode, F n ka).sum := by
    intro l F
    induction l with
    | nil => simp
    | cons a l ih => simp only [List.map_cons, List.sum_cons, sum_add_distrib, ih]
  rw [hswap]
  congr 1
  apply List.map_congr_left
  intro ka hka
  obtain ⟨hk, hlen⟩ := he.2 ka hka
  obtain ⟨o, e1, e2, e3⟩ := extractor_ok hm hk hv
  obtain rfl : o = ext ka.1 := Except.ok.inj (e1.symm.trans (hx ka hka))
  rw [hlen, sum_range_mul_eq]
  unfold Spec.contribution
  simp only [sum_mul]
  have hx' : ∀ i ∈ range (Spec.nodes m ka.1).length,
      1 ≤ (Spec.nodes m ka.1).getD i 0 ∧ (Spec.nodes m ka.1).getD i 0 ≤ m.nNode := by
    intro i hi
    apply (hm.nodes hk).2
    rw [List.getD_eq_getElem?_getD, List.getElem?_eq_getElem (mem_range.1 hi)]; simp
  rw [sum_congr rfl (fun n _ => sum_comm), sum_comm]
  apply sum_congr rfl
  intro i hi
  rw [sum_comm]
  apply sum_congr rfl
  intro d hd
  obtain ⟨hx1, hx2⟩ := hx' i hi
  rw [e3 i d (mem_range.1 hi) (mem_range.1 hd),
    sum_eq_single ((Spec.nodes m ka.1).getD i 0 - 1)]
  · rw [if_pos (by omega)]
  · intro n _ hn
    rw [if_neg (by omega), zero_mul]
  · intro hn
    exact absurd (mem_range.2 (by omega)) hn

example (a v : ℕ → ℝ) :
    ∃ out ext, elementAssembler demoMesh [(2, ⟨6, a⟩)] = .ok out ∧
      elementExtractor demoMesh ⟨8, v⟩ 2 = .ok ext ∧
      ∑ q ∈ range out.len, out.val q * v q = ∑ p ∈ range 6, a p * ext.val p := by
  have he : Spec.ElementArrays demoMesh 2 [(2, ⟨6, a⟩)] := by
    refine ⟨by simp, ?_⟩
    intro ka hka
    obtain rfl := List.mem_singleton.1 hka
    simp [Spec.IsElement, Spec.nodes, demoMesh]
  obtain ⟨out, h1, _⟩ := C20_assembly demoMesh_valid he
  obtain ⟨ext, e1, _⟩ := C21_extract demoMesh_valid (nd := 2) (k := 2) (v := ⟨8, v⟩)
    (by simp [Spec.IsElement, demoMesh]) rfl
  refine ⟨out, ext, h1, e1, ?_⟩
  have := C21_adjoint demoMesh_valid he (v := ⟨8, v⟩) rfl h1 (ext := fun _ => ext)
    (by intro ka hka; obtain rfl := List.mem_singleton.1 hka; exact e1)
  simpa using this

example : buildElementMeshIndexing [3, 2, 4] 2 = [4, 5, 2, 3, 6, 7] := by decide

example : buildElementsMeshIndexing ⟨4, [[1, 2, 3], [1, 2, 3, 4]]⟩ 2 = .error .unboundLocal :=
  C21_mixed_raises ⟨[1, 2, 3], by simp, [1, 2, 3, 4], by simp, by simp⟩ 2

/-! ## C61 -/

/-- **C61.** In a mesh of equal elements the vectorised assembly (sum of the entries whose
mesh index is a given position) is the element-by-element assembly of the same forces. -/
theorem C61_vectorised_assembly {m : MeshTopology} (hm : Spec.ValidMesh m) {nn nd : ℕ}
    (hu : ∀ c ∈ m.conn, c.length = nn) {forces : List (List ℝ)} (hne : m.conn ≠ [])
    (hF : forces.length = m.conn.length) (hl : ∀ f ∈ forces, f.length = nn * nd)
    {indexes : List (List ℕ)} (hi : buildElementsMeshIndexing m nd = .ok indexes) :
    ∃ out, elementAssembler m ((List.range m.conn.length).map fun e =>
        (e + 1, ⟨nn * nd, fun p => (forces.getD e []).getD p 0⟩)) = .ok out ∧
      out.len = (vassembleInternalForces forces indexes m.nNode nd).len ∧
      ∀ q < out.len, out.val q = (vassembleInternalForces forces indexes m.nNode nd).val q := by
  have hnode : ∀ e < m.conn.length, (Spec.nodes m (e + 1)) = m.conn.getD e [] := by
    intro e _; simp [Spec.nodes]
  have hget : ∀ e < m.conn.length, m.conn.getD e [] ∈ m.conn := by
    intro e he
    rw [List.getD_eq_getElem?_getD, List.getElem?_eq_getElem he]; simp
  have he : Spec.ElementArrays m nd ((List.range m.conn.length).map fun e =>
      (e + 1, (⟨nn * nd, fun p => (forces.getD e []).getD p 0⟩ : Arr))) := by
    refine ⟨by simpa using hne, ?_⟩
    intro ka hka
    obtain ⟨e, he, rfl⟩ := List.mem_map.1 hka
    rw [List.mem_range] at he
    refine ⟨⟨by simp, by simp; omega⟩, ?_⟩
    simp only
    rw [hnode e he, hu _ (hget e he)]
  obtain ⟨out, h1, h2, h3⟩ := assembler_ok hm he
  refine ⟨out, h1, by rw [h2]; rfl, ?_⟩
  intro q hq
  have hnd : 0 < nd := by
    rcases Nat.eq_zero_or_pos nd with h | h
    · rw [h2, h] at hq; simp at hq
    · exact h
  have hq' : q = q / nd * nd + q % nd := by rw [mul_comm]; exact (Nat.div_add_mod q nd).symm
  have hd := Nat.mod_lt q hnd
  generalize q / nd = n at hq'
  generalize q % nd = d at hq' hd
  subst hq'
  rw [h3 n d hd, List.map_map]
  have hidx : indexes = m.conn.map fun nodes => buildElementMeshIndexing nodes nd := by
    obtain ⟨t, ht, hlen, hk⟩ := C21_batched_indexing hne hu nd
    have hti : t = indexes := Except.ok.inj (ht.symm.trans hi)
    rw [← hti]
    apply List.ext_getElem (by simp [hlen])
    intro e h1' h2'
    have := hk (e + 1) ⟨by simp, by simp at h2'; omega⟩
    rw [hnode e (by simpa using h2')] at this
    simp only [List.getD_eq_getElem?_getD, Nat.add_sub_cancel] at this
    rw [List.getElem?_eq_getElem h1', List.getElem?_eq_getElem (by simpa using h2')] at this
    simpa using this
  have main : ∀ (conn : List (List ℕ)) (forces : List (List ℝ)),
      (∀ c ∈ conn, c.length = nn ∧ ∀ x ∈ c, 1 ≤ x) → forces.length = conn.length →
      (∀ f ∈ forces, f.length = nn * nd) →
      (((forces.flatten.zip (conn.map fun nodes => buildElementMeshIndexing nodes nd).flatten
        ).filter fun p => p.2 = n * nd + d).map fun p => p.1).sum =
      ((List.range conn.length).map fun e => ∑ i ∈ range (conn.getD e []).length,
        if (conn.getD e []).getD i 0 = n + 1 then (forces.getD e []).getD (i * nd + d) 0
        else 0).sum := by
    intro conn
    induction conn with
    | nil => intro forces _ h _; simp
    | cons c conn ih =>
      intro forces hc hlen hf
      cases forces with
      | nil => simp at hlen
      | cons f forces =>
        obtain ⟨hc1, hc2⟩ := hc c (by simp)
        have hflen := hf f (by simp)
        rw [List.flatten_cons, List.map_cons, List.flatten_cons,
          List.zip_append (by rw [hflen, indexing_length, hc1]), List.filter_append,
          List.map_append, List.sum_append,
          vassemble_element c nd n d f hc2 (by rw [hflen, hc1]) hd,
          ih forces (fun x hx => hc x (by simp [hx])) (by simpa using hlen)
            (fun x hx => hf x (by simp [hx])),
          List.length_cons, List.range_succ_eq_map, List.map_cons, List.sum_cons, List.map_map]
        congr 1
  unfold vassembleInternalForces
  simp only
  rw [hidx, main m.conn forces (fun c hc => ⟨hu c hc, fun x hx => ((hm.2 c hc).2 x hx).1⟩) hF hl]
  congr 1

example (a b : Fin 3 → ℝ) : (vassembleInternalForces [List.ofFn a, List.ofFn b]
    [[0, 1, 2], [2, 1, 3]] 4 1).val 2 = a 2 + b 0 := by
  simp [vassembleInternalForces, List.ofFn_succ]

/-! ## C22 -/

/-- One call of `update_mesh_configuration`. -/
structure ConfigCall where
  disps : NodalField
  time : String
  isUpdateCoords : Bool

/-- The configuration after a sequence of calls; a call that raises leaves it unchanged. -/
def afterCalls (c : MeshConfig) (calls : List ConfigCall) : MeshConfig :=
  calls.foldl (fun c u => match c.update u.disps u.time u.isUpdateCoords with
    | .ok c' => c'
    | .error _ => c) c

namespace Spec

/-- Displacements of the most recent call for `time`, zero if there is none. -/
def lastDisps (calls : List ConfigCall) (time : String) : NodalField :=
  ((calls.filter fun u => u.time = time).getLast?.map ConfigCall.disps).getD fun _ _ => 0

/-- Displacements of the most recent coordinate-updating call for `time`, zero if there is
none. -/
def lastCoordDisps (calls : List ConfigCall) (time : String) : NodalField :=
  ((calls.filter fun u => u.time = time ∧ u.isUpdateCoords = true).getLast?.map
    ConfigCall.disps).getD fun _ _ => 0

end Spec

theorem afterCalls_append (c : MeshConfig) (l : List ConfigCall) (u : ConfigCall) :
    afterCalls c (l ++ [u]) = match (afterCalls c l).update u.disps u.time u.isUpdateCoords with
      | .ok c' => c'
      | .error _ => afterCalls c l := by
  simp [afterCalls, List.foldl_append]

/-- **C22.** After any sequence of calls: the initial configuration is what was given; for
both times, displacements are those of the most recent call for that time and coordinates
are the initial ones plus the displacements of the most recent coordinate-updating call for
that time. -/
theorem C22_history (x0 : NodalField) (calls : List ConfigCall) :
    let c := afterCalls (MeshConfig.new x0) calls
    c.get "init" = .ok (x0, fun _ _ => 0) ∧
    ∀ time, time = "last" ∨ time = "current" →
      c.get time = .ok (fun n d => x0 n d + Spec.lastCoordDisps calls time n d,
        Spec.lastDisps calls time) := by
  suffices h : (afterCalls (MeshConfig.new x0) calls).coordsInit = x0 ∧
      (afterCalls (MeshConfig.new x0) calls).coordsOld
        = (fun n d => x0 n d + Spec.lastCoordDisps calls "last" n d) ∧
      (afterCalls (MeshConfig.new x0) calls).dispsOld = Spec.lastDisps calls "last" ∧
      (afterCalls (MeshConfig.new x0) calls).coords
        = (fun n d => x0 n d + Spec.lastCoordDisps calls "current" n d) ∧
      (afterCalls (MeshConfig.new x0) calls).disps = Spec.lastDisps calls "current" by
    obtain ⟨h1, h2, h3, h4, h5⟩ := h
    refine ⟨by simp [MeshConfig.get, h1], ?_⟩
    rintro time (rfl | rfl)
    · simp [MeshConfig.get, h2, h3]
    · simp [MeshConfig.get, h4, h5]
  induction calls using List.reverseRecOn with
  | nil => simp [afterCalls, MeshConfig.new, Spec.lastCoordDisps, Spec.lastDisps]
  | append_singleton l u ih =>
    obtain ⟨h1, h2, h3, h4, h5⟩ := ih
    rw [afterCalls_append]
    obtain ⟨du, t, b⟩ := u
    unfold MeshConfig.update
    by_cases ht : t = "last"
    · subst ht
      cases b <;>
        simp [Spec.lastCoordDisps, Spec.lastDisps, List.filter_append, h1, h2, h4, h5]
    · by_cases ht' : t = "current"
      · subst ht'
        cases b <;>
          simp [Spec.lastCoordDisps, Spec.lastDisps, List.filter_append, h1, h2, h3, h4]
      · simp [Spec.lastCoordDisps, Spec.lastDisps, List.filter_append, h1, h2, h3, h4, h5, ht, ht']

/-- **C22.** A call for any other time, including 'init', raises. -/
theorem C22_unknown_time (c : MeshConfig) (u : NodalField) (time : String) (b : Bool)
    (h1 : time ≠ "last") (h2 : time ≠ "current") :
    c.update u time b = .error .runtimeError := by
  simp [MeshConfig.update, h1, h2]

example (x0 u v w : NodalField) :
    (afterCalls (MeshConfig.new x0) [⟨u, "current", true⟩, ⟨v, "last", true⟩,
      ⟨w, "current", false⟩]).get "current" = .ok (fun n d => x0 n d + u n d, w) := by
  rw [(C22_history x0 _).2 _ (Or.inr rfl)]
  simp [Spec.lastCoordDisps, Spec.lastDisps]

/-- **C22.** The configuration of an element is, row by row, the mesh configuration of the
nodes of its connectivity (label `x` is row `x - 1`). -/
theorem C22_element {m : MeshTopology} {k : ℕ} (hk : Spec.IsElement m k) (c : MeshConfig)
    {time : String} {x u : NodalField} (h : c.get time = .ok (x, u)) :
    ∃ x' u', getElementConfiguration m c k time = .ok (x', u') ∧
      ∀ i (hi : i < (Spec.nodes m k).length) d,
        x' i d = x ((Spec.nodes m k)[i] - 1) d ∧ u' i d = u ((Spec.nodes m k)[i] - 1) d := by
  refine ⟨gatherNodes (Spec.nodes m k) x, gatherNodes (Spec.nodes m k) u, ?_, ?_⟩
  · simp [getElementConfiguration, lookup_ok hk, h, bind, Except.bind, pure, Except.pure]
  · intro i hi d
    simp [gatherNodes, hi]

/-! ## C70 -/

/-- **C70.** Stepping a specimen to time index `t` and reading an element gives the entries
of the batched history for time `t`; the last converged configuration is that of time
`t - 1` (of time 0 for `t = 0`, so the first displacement increment is zero).  Coordinates
agree when they are updated; when they are not, they agree as long as no earlier call
updated them. -/
theorem C70_batched_history {m : MeshTopology} {nn : ℕ} (hne : m.conn ≠ [])
    (hu : ∀ c ∈ m.conn, c.length = nn) (c : MeshConfig) (hist : ℕ → NodalField) (nTime : ℕ)
    (upd : Bool) (hc : upd = false → c.coords = c.coordsInit ∧ c.coordsOld = c.coordsInit)
    (k : ℕ) (hk : Spec.IsElement m k) (t : ℕ) (ht : t < nTime) :
    ∃ tab c' x y,
      getBatchedMeshConfigurationHist m c hist upd = .ok tab ∧
      tab[k - 1]? = some (x, y) ∧
      updateSpecimenMeshConfiguration nTime hist c t upd = .ok c' ∧
      getElementConfiguration m c' k "current" = .ok (x t, y t) ∧
      getElementConfiguration m c' k "last" = .ok (x (t - 1), y (t - 1)) := by
  obtain ⟨c0, l, hcl⟩ := List.exists_cons_of_ne_nil hne
  have hconn : getConnectivitiesTensor m = .ok m.conn := by
    unfold getConnectivitiesTensor
    rw [hcl] at hu ⊢
    have : (l.any fun c' => decide (c'.length ≠ c0.length)) = false := by
      rw [List.any_eq_false]
      intro c' hc'
      simp [hu c' (by simp [hc']), hu c0 (by simp)]
    simp only [this]
    simp
  have hk' := hk
  obtain ⟨hk1, hk2⟩ := hk'
  have ht1 : ¬ ((t : ℤ) < 0 ∨ (nTime : ℤ) ≤ t) := by omega
  have ht2 : (max 0 ((t : ℤ) - 1)).toNat = t - 1 := by omega
  have hnodes : m.conn[k - 1]? = some (Spec.nodes m k) := by
    unfold Spec.nodes
    rw [List.getD_eq_getElem?_getD, List.getElem?_eq_getElem (by omega)]
    simp
  cases upd with
  | true =>
    refine ⟨m.conn.map fun nodes => (fun t => gatherNodes nodes fun n d =>
        c.coordsInit n d + hist t n d, fun t => gatherNodes nodes (hist t)),
      ⟨c.coordsInit, fun n d => c.coordsInit n d + hist t n d,
        fun n d => c.coordsInit n d + hist (t - 1) n d, hist t, hist (t - 1)⟩,
      fun t => gatherNodes (Spec.nodes m k) fun n d => c.coordsInit n d + hist t n d,
      fun t => gatherNodes (Spec.nodes m k) (hist t), ?_, ?_, ?_, ?_, ?_⟩
    · simp [getBatchedMeshConfigurationHist, hconn, MeshConfig.get, bind, Except.bind, pure,
        Except.pure]
    · simp only [List.getElem?_map, hnodes]
      rfl
    · simp only [updateSpecimenMeshConfiguration, raiseIf, ht1, if_false, bind, Except.bind,
        ht2, MeshConfig.update, Int.toNat_natCast]
      simp
    · simp [getElementConfiguration, lookup_ok hk, MeshConfig.get, bind, Except.bind, pure,
        Except.pure]
    · simp [getElementConfiguration, lookup_ok hk, MeshConfig.get, bind, Except.bind, pure,
        Except.pure]
  | false =>
    obtain ⟨hx, hxo⟩ := hc rfl
    refine ⟨m.conn.map fun nodes => (fun _ => gatherNodes nodes c.coordsInit,
        fun t => gatherNodes nodes (hist t)),
      ⟨c.coordsInit, c.coords, c.coordsOld, hist t, hist (t - 1)⟩,
      fun _ => gatherNodes (Spec.nodes m k) c.coordsInit,
      fun t => gatherNodes (Spec.nodes m k) (hist t), ?_, ?_, ?_, ?_, ?_⟩
    · simp [getBatchedMeshConfigurationHist, hconn, MeshConfig.get, bind, Except.bind, pure,
        Except.pure]
    · simp only [List.getElem?_map, hnodes]
      rfl
    · simp only [updateSpecimenMeshConfiguration, raiseIf, ht1, if_false, bind, Except.bind,
        ht2, MeshConfig.update, Int.toNat_natCast]
      simp
    · simp [getElementConfiguration, lookup_ok hk, MeshConfig.get, bind, Except.bind, pure,
        Except.pure, hx]
    · simp [getElementConfiguration, lookup_ok hk, MeshConfig.get, bind, Except.bind, pure,
        Except.pure, hxo]

/-- **C70.** Time indices outside the history, negative ones included, raise. -/
theorem C70_bad_time (hist : ℕ → NodalField) (nTime : ℕ) (c : MeshConfig) (t : ℤ) (upd : Bool)
    (h : t < 0 ∨ (nTime : ℤ) ≤ t) :
    updateSpecimenMeshConfiguration nTime hist c t upd = .error .runtimeError := by
  simp [updateSpecimenMeshConfiguration, raiseIf, h, bind, Except.bind]

/-- **C70.** Without coordinate updates, a specimen whose coordinates were updated earlier
keeps the stale ones, unlike the batched history. -/
theorem C70_stale_coordinates_violated :
    ∃ (m : MeshTopology) (hist : ℕ → NodalField) (c c' c'' : MeshConfig)
      (tab : List ((ℕ → NodalField) × (ℕ → NodalField)))
      (x y : ℕ → NodalField) (x' y' : NodalField),
      c = MeshConfig.new (fun _ _ => 0) ∧
      updateSpecimenMeshConfiguration 2 hist c 1 true = .ok c' ∧
      updateSpecimenMeshConfiguration 2 hist c' 0 false = .ok c'' ∧
      getBatchedMeshConfigurationHist m c'' hist false = .ok tab ∧ tab[0]? = some (x, y) ∧
      getElementConfiguration m c'' 1 "current" = .ok (x', y') ∧ x' 0 0 ≠ x 0 0 0 := by
  refine ⟨⟨1, [[1]]⟩, fun t _ _ => t, MeshConfig.new (fun _ _ => 0), _, _, _, _, _, _, _, rfl,
    rfl, rfl, rfl, rfl, rfl, ?_⟩
  simp [gatherNodes, MeshConfig.new]

example (hist : ℕ → NodalField) (x0 : NodalField) :
    ∃ tab c' x y,
      getBatchedMeshConfigurationHist demoMesh (MeshConfig.new x0) hist true = .ok tab ∧
      tab[1]? = some (x, y) ∧
      updateSpecimenMeshConfiguration 5 hist (MeshConfig.new x0) (3 : ℕ) true = .ok c' ∧
      getElementConfiguration demoMesh c' 2 "current" = .ok (x 3, y 3) ∧
      getElementConfiguration demoMesh c' 2 "last" = .ok (x 2, y 2) :=
  C70_batched_history (nn := 3) (by simp [demoMesh]) (by simp [demoMesh]) _ hist 5 true
    (by simp) 2 (by simp [Spec.IsElement, demoMesh]) 3 (by norm_num)

end Hooke
