import Verif.Spec.Mesh
import Verif.Lemmas.Py
import Verif.Lemmas.Gradients

noncomputable section

namespace Hooke

open Finset

theorem lookup_ok {m : MeshTopology} {k : ℕ} (h : Spec.IsElement m k) :
    m.lookup k = .ok (Spec.nodes m k) := by
  obtain ⟨h1, h2⟩ := h
  unfold MeshTopology.lookup Spec.nodes
  rw [orRaise_ok, if_neg (by omega), List.getD_eq_getElem?_getD,
    List.getElem?_eq_getElem (by omega)]
  simp

theorem Spec.ValidMesh.nodes {m : MeshTopology} (h : Spec.ValidMesh m) {k : ℕ}
    (hk : Spec.IsElement m k) :
    Spec.nodes m k ≠ [] ∧ ∀ x ∈ Spec.nodes m k, 1 ≤ x ∧ x ≤ m.nNode := by
  apply h.2
  obtain ⟨h1, h2⟩ := hk
  unfold Spec.nodes
  rw [List.getD_eq_getElem?_getD, List.getElem?_eq_getElem (by omega)]
  simp

theorem slice_iff {nd node n d : ℕ} (h1 : 1 ≤ node) (hd : d < nd) :
    ((node - 1) * nd ≤ n * nd + d ∧ n * nd + d < (node - 1) * nd + nd) ↔ node = n + 1 := by
  constructor
  · rintro ⟨ha, hb⟩
    have h2 : node - 1 = n := by
      apply le_antisymm
      · by_contra hc
        have : (n + 1) * nd ≤ (node - 1) * nd := Nat.mul_le_mul_right _ (by omega)
        have : (n + 1) * nd = n * nd + nd := by ring
        omega
      · by_contra hc
        have : (node - 1 + 1) * nd ≤ n * nd := Nat.mul_le_mul_right _ (by omega)
        have : (node - 1 + 1) * nd = (node - 1) * nd + nd := by ring
        omega
    omega
  · rintro rfl
    simp
    omega

theorem foldlM_assembleNode (nNode nd : ℕ) (arr : Arr) :
    ∀ (l : List (ℕ × ℕ)) (acc : ℕ → ℝ), (∀ p ∈ l, 1 ≤ p.2 ∧ p.2 ≤ nNode) →
      ∃ out, l.foldlM (assembleNode nNode nd arr) acc = .ok out ∧
        ∀ n d, d < nd → out (n * nd + d) = acc (n * nd + d) +
          (l.map fun p => if p.2 = n + 1 then arr.val (p.1 * nd + d) else 0).sum := by
  intro l
  induction l with
  | nil => intro acc _; exact ⟨acc, rfl, by simp⟩
  | cons p l ih =>
    intro acc h
    have hp := h p (by simp)
    have hs : ∃ acc', assembleNode nNode nd arr acc p = .ok acc' ∧ ∀ n d, d < nd →
        acc' (n * nd + d) = acc (n * nd + d) +
          if p.2 = n + 1 then arr.val (p.1 * nd + d) else 0 := by
      unfold assembleNode
      simp only
      rw [if_neg (by omega)]
      refine ⟨_, rfl, ?_⟩
      intro n d hd
      by_cases hc : p.2 = n + 1
      · rw [if_pos ((slice_iff hp.1 hd).2 hc), if_pos hc, hc]
        simp
      · rw [if_neg (fun h => hc ((slice_iff hp.1 hd).1 h)), if_neg hc, add_zero]
    obtain ⟨acc', h1, h2⟩ := hs
    obtain ⟨out, h3, h4⟩ := ih acc' (fun q hq => h q (by simp [hq]))
    refine ⟨out, ?_, ?_⟩
    · rw [List.foldlM_cons, h1]; exact h3
    · intro n d hd
      rw [h4 n d hd, h2 n d hd, List.map_cons, List.sum_cons, add_assoc]

theorem zipIdx_sum (f : ℕ → ℕ → ℝ) : ∀ (l : List ℕ) (s : ℕ),
    ((l.zipIdx s).map fun x => f x.2 x.1).sum = ∑ i ∈ range l.length, f (s + i) (l.getD i 0) := by
  intro l
  induction l with
  | nil => intro s; simp
  | cons a l ih =>
    intro s
    rw [List.zipIdx_cons, List.map_cons, List.sum_cons, ih, List.length_cons, sum_range_succ']
    simp only [List.getD_cons_succ, List.getD_cons_zero, add_zero]
    rw [add_comm]
    congr 1
    apply sum_congr rfl
    intro i _
    rw [show s + 1 + i = s + (i + 1) by ring]

theorem mem_zipIdx_map {l : List ℕ} {p : ℕ × ℕ}
    (h : p ∈ l.zipIdx.map fun x => (x.2, x.1)) : p.2 ∈ l := by
  obtain ⟨x, hx, rfl⟩ := List.mem_map.1 h
  exact List.fst_mem_of_mem_zipIdx hx

theorem assembleElement_ok {m : MeshTopology} (hm : Spec.ValidMesh m) {nd : ℕ} {ka : ℕ × Arr}
    (hk : Spec.IsElement m ka.1) (hlen : ka.2.len = (Spec.nodes m ka.1).length * nd)
    (acc : ℕ → ℝ) :
    ∃ out, assembleElement m nd acc ka = .ok out ∧ ∀ n d, d < nd →
      out (n * nd + d) = acc (n * nd + d) + Spec.contribution m nd (n + 1) d ka := by
  obtain ⟨_, hv⟩ := hm.nodes hk
  obtain ⟨out, h1, h2⟩ := foldlM_assembleNode m.nNode nd ka.2
    ((Spec.nodes m ka.1).zipIdx.map fun x => (x.2, x.1)) acc
    (fun p hp => hv _ (mem_zipIdx_map hp))
  refine ⟨out, ?_, ?_⟩
  · unfold assembleElement
    rw [lookup_ok hk]
    simp only [bind, Except.bind, raiseIf, hlen, ne_eq, not_true_eq_false, if_false]
    exact h1
  · intro n d hd
    rw [h2 n d hd, List.map_map]
    congr 1
    unfold Spec.contribution
    have := zipIdx_sum (fun i x => if x = n + 1 then ka.2.val (i * nd + d) else 0)
      (Spec.nodes m ka.1) 0
    simp only [zero_add] at this
    exact this

theorem foldlM_assembleElement {m : MeshTopology} (hm : Spec.ValidMesh m) {nd : ℕ} :
    ∀ (l : List (ℕ × Arr)) (acc : ℕ → ℝ),
      (∀ ka ∈ l, Spec.IsElement m ka.1 ∧ ka.2.len = (Spec.nodes m ka.1).length * nd) →
      ∃ out, l.foldlM (assembleElement m nd) acc = .ok out ∧ ∀ n d, d < nd →
        out (n * nd + d) = acc (n * nd + d) +
          (l.map (Spec.contribution m nd (n + 1) d)).sum := by
  intro l
  induction l with
  | nil => intro acc _; exact ⟨acc, rfl, by simp⟩
  | cons ka l ih =>
    intro acc h
    have hka := h ka (by simp)
    obtain ⟨acc', h1, h2⟩ := assembleElement_ok hm hka.1 hka.2 acc
    obtain ⟨out, h3, h4⟩ := ih acc' (fun q hq => h q (by simp [hq]))
    refine ⟨out, ?_, ?_⟩
    · rw [List.foldlM_cons, h1]; exact h3
    · intro n d hd
      rw [h4 n d hd, h2 n d hd, List.map_cons, List.sum_cons, add_assoc]

theorem assembler_ok {m : MeshTopology} (hm : Spec.ValidMesh m) {nd : ℕ}
    {elems : List (ℕ × Arr)} (he : Spec.ElementArrays m nd elems) :
    ∃ out, elementAssembler m elems = .ok out ∧ out.len = m.nNode * nd ∧ ∀ n d, d < nd →
      out.val (n * nd + d) = (elems.map (Spec.contribution m nd (n + 1) d)).sum := by
  obtain ⟨hne, he⟩ := he
  obtain ⟨ka, l, rfl⟩ := List.exists_cons_of_ne_nil hne
  have hka := he ka (by simp)
  obtain ⟨out, h1, h2⟩ := foldlM_assembleElement hm (ka :: l) (fun _ => 0) he
  have hpos : 0 < (Spec.nodes m ka.1).length :=
    List.length_pos_of_ne_nil (hm.nodes hka.1).1
  have hdiv : ka.2.len / (Spec.nodes m ka.1).length = nd := by
    rw [hka.2]; exact Nat.mul_div_cancel_left _ hpos
  refine ⟨⟨m.nNode * nd, out⟩, ?_, rfl, ?_⟩
  · unfold elementAssembler
    simp only [List.head?_cons, orRaise, bind, Except.bind]
    rw [lookup_ok hka.1]
    simp only [raiseIf, hpos.ne', if_false, hdiv]
    rw [h1]
    rfl
  · intro n d hd
    simpa using h2 n d hd

/-! ### Extraction -/

theorem foldlM_extractNode (nNode nd : ℕ) (mesh : Arr) :
    ∀ (l : List ℕ) (s : ℕ) (acc : ℕ → ℝ), (∀ x ∈ l, 1 ≤ x ∧ x ≤ nNode) →
      ∃ out, ((l.zipIdx s).map fun x => (x.2, x.1)).foldlM (extractNode nNode nd mesh) acc
          = .ok out ∧
        (∀ q, q < s * nd → out q = acc q) ∧
        ∀ i d, i < l.length → d < nd →
          out ((s + i) * nd + d) = mesh.val ((l.getD i 0 - 1) * nd + d) := by
  intro l
  induction l with
  | nil => intro s acc _; exact ⟨acc, rfl, by simp, by simp⟩
  | cons a l ih =>
    intro s acc h
    have ha := h a (by simp)
    obtain ⟨out, h3, h4, h5⟩ := ih (s + 1)
      (fun q => if s * nd ≤ q ∧ q < s * nd + nd then mesh.val ((a - 1) * nd + (q - s * nd))
        else acc q) (fun q hq => h q (by simp [hq]))
    refine ⟨out, ?_, ?_, ?_⟩
    · rw [List.zipIdx_cons, List.map_cons, List.foldlM_cons]
      unfold extractNode
      simp only
      rw [if_neg (by omega)]
      exact h3
    · intro q hq
      have : (s + 1) * nd = s * nd + nd := by ring
      rw [h4 q (by omega), if_neg (by omega)]
    · intro i d hi hd
      cases i with
      | zero =>
        have : (s + 1) * nd = s * nd + nd := by ring
        rw [add_zero, h4 _ (by omega), if_pos (by omega)]
        simp
      | succ i =>
        have := h5 i d (by simpa using hi) hd
        rw [show s + (i + 1) = s + 1 + i by ring, this]
        simp

theorem extractor_ok {m : MeshTopology} (hm : Spec.ValidMesh m) {nd k : ℕ}
    (hk : Spec.IsElement m k) {v : Arr} (hv : v.len = m.nNode * nd) :
    ∃ out, elementExtractor m v k = .ok out ∧ out.len = (Spec.nodes m k).length * nd ∧
      ∀ i d, i < (Spec.nodes m k).length → d < nd →
        out.val (i * nd + d) = v.val (((Spec.nodes m k).getD i 0 - 1) * nd + d) := by
  obtain ⟨out, h1, _, h2⟩ := foldlM_extractNode m.nNode nd v (Spec.nodes m k) 0 (fun _ => 0)
    (hm.nodes hk).2
  have hdiv : v.len / m.nNode = nd := by rw [hv]; exact Nat.mul_div_cancel_left _ hm.1
  refine ⟨⟨(Spec.nodes m k).length * nd, out⟩, ?_, rfl, ?_⟩
  · unfold elementExtractor
    simp only [raiseIf, hm.1.ne', if_false, bind, Except.bind, hdiv]
    rw [lookup_ok hk]
    simp only
    rw [h1]
    rfl
  · intro i d hi hd
    simpa using h2 i d hi hd

/-! ### Mesh indexing -/

theorem buildElementMeshIndexing_eq (nodes : List ℕ) (nd : ℕ) :
    buildElementMeshIndexing nodes nd =
      nodes.flatMap fun x => (List.range nd).map fun d => (x - 1) * nd + d := by
  unfold buildElementMeshIndexing
  induction nodes with
  | nil => simp
  | cons a l ih =>
    rw [List.flatMap_cons, List.flatMap_cons, List.length_cons, List.replicate_succ,
      List.flatten_cons, List.zipWith_append (by simp), ih]
    congr 1
    apply List.ext_getElem (by simp)
    intro i h1 h2
    simp

theorem flatMap_range_getD (l : List ℕ) (nd : ℕ) (f : ℕ → ℕ → ℕ) :
    ∀ i d, i < l.length → d < nd →
      (l.flatMap fun x => (List.range nd).map (f x)).getD (i * nd + d) 0 = f (l.getD i 0) d := by
  induction l with
  | nil => intro i d hi; simp at hi
  | cons a l ih =>
    intro i d hi hd
    rw [List.flatMap_cons]
    cases i with
    | zero =>
      rw [List.getD_eq_getElem?_getD, List.getElem?_append_left (by simpa using hd)]
      simp [hd]
    | succ i =>
      rw [List.getD_eq_getElem?_getD, List.getElem?_append_right (by simp; nlinarith),
        ← List.getD_eq_getElem?_getD]
      have := ih i d (by simpa using hi) hd
      simp only [List.length_map, List.length_range, List.getD_cons_succ]
      rw [← this]
      congr 1
      have : (i + 1) * nd = i * nd + nd := by ring
      omega

theorem indexing_length (nodes : List ℕ) (nd : ℕ) :
    (buildElementMeshIndexing nodes nd).length = nodes.length * nd := by
  rw [buildElementMeshIndexing_eq]
  simp

theorem indexing_getD (nodes : List ℕ) (nd i d : ℕ) (hi : i < nodes.length) (hd : d < nd) :
    (buildElementMeshIndexing nodes nd).getD (i * nd + d) 0 = (nodes.getD i 0 - 1) * nd + d := by
  rw [buildElementMeshIndexing_eq]
  exact flatMap_range_getD nodes nd (fun x d => (x - 1) * nd + d) i d hi hd

theorem zip_filter_sum (q : ℕ) : ∀ (f : List ℝ) (idx : List ℕ), f.length = idx.length →
    (((f.zip idx).filter fun p => p.2 = q).map fun p => p.1).sum =
      ∑ p ∈ range idx.length, if idx.getD p 0 = q then f.getD p 0 else 0 := by
  intro f
  induction f with
  | nil => intro idx h; simp only [List.length_nil] at h; simp [← h]
  | cons a f ih =>
    intro idx h
    cases idx with
    | nil => simp at h
    | cons b idx =>
      rw [List.zip_cons_cons, List.filter_cons, List.length_cons, sum_range_succ']
      have := ih idx (by simpa using h)
      by_cases hb : b = q
      · simp only [hb, decide_true, if_true, List.map_cons, List.sum_cons, this,
          List.getD_cons_succ, List.getD_cons_zero]
        ring
      · rw [if_neg (by simpa using hb), this]
        simp only [hb, List.getD_cons_succ, List.getD_cons_zero, if_false, add_zero]

theorem vassemble_element (nodes : List ℕ) (nd n d : ℕ) (f : List ℝ)
    (hn : ∀ x ∈ nodes, 1 ≤ x) (hf : f.length = nodes.length * nd) (hd : d < nd) :
    (((f.zip (buildElementMeshIndexing nodes nd)).filter fun p => p.2 = n * nd + d).map
      fun p => p.1).sum =
    ∑ i ∈ range nodes.length,
      if nodes.getD i 0 = n + 1 then f.getD (i * nd + d) 0 else 0 := by
  rw [zip_filter_sum _ _ _ (by rw [hf, indexing_length]), indexing_length, sum_range_mul_eq]
  apply sum_congr rfl
  intro i hi
  rw [mem_range] at hi
  have hx : 1 ≤ nodes.getD i 0 := by
    apply hn
    rw [List.getD_eq_getElem?_getD, List.getElem?_eq_getElem hi]
    simp
  have : ∀ d' ∈ range nd, (if (buildElementMeshIndexing nodes nd).getD (i * nd + d') 0
      = n * nd + d then f.getD (i * nd + d') 0 else 0)
      = if d' = d then (if nodes.getD i 0 = n + 1 then f.getD (i * nd + d) 0 else 0) else 0 := by
    intro d' hd'
    rw [mem_range] at hd'
    rw [indexing_getD _ _ _ _ hi hd']
    by_cases hc : nodes.getD i 0 = n + 1
    · simp only [hc, Nat.add_sub_cancel, Nat.add_left_cancel_iff, if_true]
      by_cases hdd : d' = d
      · simp [hdd]
      · simp [hdd]
    · rw [if_neg, if_neg hc]
      · simp
      · intro he
        apply hc
        rw [← slice_iff hx hd]
        omega
  rw [sum_congr rfl this, sum_ite_eq' (range nd) d, if_pos (mem_range.2 hd)]

end Hooke
