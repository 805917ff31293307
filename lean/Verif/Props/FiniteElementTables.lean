import Verif.Spec.FiniteElementTables

/-!
# C65: structured element node tables
-/

namespace Hooke

open Spec FeTable

theorem mem_indices (n d : ℕ) (c : List ℕ) : c ∈ indices n d ↔ IsCell n d c := by
  induction d generalizing c with
  | zero =>
    simp only [indices, List.mem_singleton, IsCell, List.length_eq_zero_iff]
    constructor
    · rintro rfl; simp
    · exact fun h => h.1
  | succ d ih =>
    simp only [indices, List.mem_flatMap, List.mem_range, List.mem_map]
    constructor
    · rintro ⟨i, hi, r, hr, rfl⟩
      obtain ⟨h1, h2⟩ := (ih r).1 hr
      exact ⟨by simp [h1], by simpa [hi] using h2⟩
    · rintro ⟨h1, h2⟩
      cases c with
      | nil => simp at h1
      | cons i r =>
        exact ⟨i, h2 i (by simp), r, (ih r).2 ⟨by simpa using h1, fun j hj => h2 j (by simp [hj])⟩, rfl⟩

/-- What is checked of one table. -/
def tableOk (t : FeTable) (isEdge : Bool) : Bool :=
  (t.cells.all fun c => decide (t.entry c ≤ t.nNodes)) &&
  (t.cells.all fun c => decide (t.entry c = 0 ↔ (isEdge = true ∧ ¬ OnEdge t.nEdgeNodes c))) &&
  ((List.range t.nNodes).all fun k =>
    decide ((t.cells.filter fun c => decide (t.entry c = k + 1)).length = 1)) &&
  decide (t.nEdges = t.nDim * 2 ^ (t.nDim - 1))

/-- Consequences of the check, for all labels. -/
theorem tableOk_spec (t : FeTable) (isEdge : Bool) (h : tableOk t isEdge = true) :
    (∀ k : ℕ, 1 ≤ k → k ≤ t.nNodes → ∃ c, IsCell t.nEdgeNodes t.nDim c ∧ t.entry c = k ∧
      (∀ c', IsCell t.nEdgeNodes t.nDim c' → t.entry c' = k → c' = c) ∧
      t.getNodeLabelIndex k = .ok c) ∧
    (∀ c, IsCell t.nEdgeNodes t.nDim c →
      (t.entry c ≤ t.nNodes ∧
        (t.entry c = 0 ↔ isEdge = true ∧ ¬ OnEdge t.nEdgeNodes c))) ∧
    (∀ label : ℤ, label < 0 ∨ t.nNodes < label →
      t.getNodeLabelIndex label = .error .runtimeError) ∧
    t.nEdges = t.nDim * 2 ^ (t.nDim - 1) := by
  simp only [tableOk, Bool.and_eq_true, List.all_eq_true, decide_eq_true_eq] at h
  obtain ⟨⟨⟨h1, h2⟩, h3⟩, h4⟩ := h
  refine ⟨fun k hk1 hk2 => ?_, fun c hc => ?_, fun label hl => ?_, h4⟩
  · obtain ⟨c, hc⟩ := List.length_eq_one_iff.1 (h3 (k - 1) (List.mem_range.2 (by omega)))
    rw [show k - 1 + 1 = k by omega] at hc
    have hmem : ∀ c', c' ∈ t.cells.filter (fun c => decide (t.entry c = k)) ↔ c' = c := by
      intro c'; rw [hc, List.mem_singleton]
    have hcc := (hmem c).2 rfl
    rw [List.mem_filter, decide_eq_true_eq] at hcc
    refine ⟨c, (mem_indices _ _ _).1 hcc.1, hcc.2, fun c' hc' he => ?_, ?_⟩
    · exact (hmem c').1 (List.mem_filter.2 ⟨(mem_indices _ _ _).2 hc', by simpa using he⟩)
    · unfold getNodeLabelIndex
      have : (t.cells.filter fun c => decide ((t.entry c : ℤ) = (k : ℤ))) = [c] := by
        simpa only [Nat.cast_inj] using hc
      rw [this]
  · have := (mem_indices _ _ _).2 hc
    exact ⟨h1 c this, h2 c this⟩
  · unfold getNodeLabelIndex
    have : (t.cells.filter fun c => decide ((t.entry c : ℤ) = label)) = [] := by
      rw [List.filter_eq_nil_iff]
      intro c hc
      have := h1 c hc
      rw [decide_eq_true_eq]
      omega
    rw [this]

/-- Every available element type has a table that passes the check. -/
theorem tables_ok : ∀ k ∈ feKinds, ∃ t, finiteElement k.1 = .ok t ∧ t.nDim = k.2.2.1 ∧
    t.nEdgeNodes = k.2.2.2 ∧ tableOk t k.2.1 = true := by
  intro k hk
  simp only [feKinds, List.mem_cons, List.not_mem_nil, or_false] at hk
  rcases hk with rfl | rfl | rfl | rfl | rfl | rfl | rfl | rfl
  · exact ⟨feSQUAD4, by simp [finiteElement], rfl, rfl, by decide⟩
  · exact ⟨feSQUAD8, by simp [finiteElement], rfl, rfl, by decide⟩
  · exact ⟨feSQUAD12, by simp [finiteElement], rfl, rfl, by decide⟩
  · exact ⟨feLQUAD4, by simp [finiteElement], rfl, rfl, by decide⟩
  · exact ⟨feLQUAD9, by simp [finiteElement], rfl, rfl, by decide⟩
  · exact ⟨feLQUAD16, by simp [finiteElement], rfl, rfl, by decide⟩
  · exact ⟨feSHEXA8, by simp [finiteElement], rfl, rfl, by decide⟩
  · exact ⟨feSHEXA20, by simp [finiteElement], rfl, rfl, by decide⟩

/-- **C65.** For every available element type: every label `1..n_nodes` is at exactly one index of
the node matrix and `get_node_label_index` returns it; every entry of the matrix is at most
`n_nodes`; an entry is zero exactly if the element has nodes on its edges only and the index is not
on an edge; `get_node_label_index` raises for every negative label and every label above
`n_nodes`; the number of edges is that of a quadrilateral or hexahedron. -/
theorem C65_tables (elem : String) (isEdge : Bool) (d n : ℕ) (h : (elem, isEdge, d, n) ∈ feKinds) :
    ∃ t, finiteElement elem = .ok t ∧ t.nDim = d ∧ t.nEdgeNodes = n ∧
    (∀ k : ℕ, 1 ≤ k → k ≤ t.nNodes → ∃ c, IsCell n d c ∧ t.entry c = k ∧
      (∀ c', IsCell n d c' → t.entry c' = k → c' = c) ∧ t.getNodeLabelIndex k = .ok c) ∧
    (∀ c, IsCell n d c → t.entry c ≤ t.nNodes ∧
      (t.entry c = 0 ↔ isEdge = true ∧ ¬ OnEdge n c)) ∧
    (∀ label : ℤ, label < 0 ∨ t.nNodes < label →
      t.getNodeLabelIndex label = .error .runtimeError) ∧
    t.nEdges = d * 2 ^ (d - 1) := by
  obtain ⟨t, h1, h2, h3, h4⟩ := tables_ok _ h
  have := tableOk_spec t _ h4
  dsimp only at h2 h3 this
  rw [h2, h3] at this
  exact ⟨t, h1, h2, h3, this⟩

example : ("SHEXA20", true, 3, 3) ∈ feKinds := by simp [feKinds]

/-- **C65.** All other element types are rejected. -/
theorem C65_unknown (elem : String) (h : ∀ k ∈ feKinds, k.1 ≠ elem) :
    finiteElement elem = .error .runtimeError := by
  simp only [feKinds, List.mem_cons, List.not_mem_nil, or_false, forall_eq_or_imp, forall_eq] at h
  obtain ⟨a, b, c, d, e, f, g, i⟩ := h
  simp [finiteElement, a.symm, b.symm, c.symm, d.symm, e.symm, f.symm, g.symm, i.symm]

/-- **C65.** The label zero, which marks the cells without a node, raises for every element type
except `SQUAD8`. -/
theorem C65_zero (elem : String) (isEdge : Bool) (d n : ℕ) (h : (elem, isEdge, d, n) ∈ feKinds)
    (hne : elem ≠ "SQUAD8") (t : FeTable) (ht : finiteElement elem = .ok t) :
    t.getNodeLabelIndex 0 = .error .runtimeError := by
  have key : ∀ t ∈ [feSQUAD4, feSQUAD12, feLQUAD4, feLQUAD9, feLQUAD16, feSHEXA8, feSHEXA20],
      t.getNodeLabelIndex 0 = .error .runtimeError := by
    decide
  apply key
  simp only [feKinds, List.mem_cons, List.not_mem_nil, or_false, Prod.mk.injEq] at h
  rcases h with ⟨rfl, -⟩ | ⟨rfl, -⟩ | ⟨rfl, -⟩ | ⟨rfl, -⟩ | ⟨rfl, -⟩ | ⟨rfl, -⟩ | ⟨rfl, -⟩ | ⟨rfl, -⟩ <;>
    simp [finiteElement] at ht hne <;> simp [← ht]

/-- **C65, violated.** For `SQUAD8` the label zero, which no node has, is accepted: the index of the
central cell is returned. -/
theorem C65_zero_violated : ∃ t, finiteElement "SQUAD8" = .ok t ∧ t.entry [1, 1] = 0 ∧
    t.getNodeLabelIndex 0 = .ok [1, 1] :=
  ⟨feSQUAD8, by simp [finiteElement], by decide, by decide⟩

end Hooke
