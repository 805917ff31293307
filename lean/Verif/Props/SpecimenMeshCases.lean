import Verif.Props.SpecimenMesh
import Mathlib.Algebra.Order.Floor.Semiring
import Mathlib.Data.Real.Archimedean

/-!
# C105: what is checked in any specimen mesh file, and what is not
-/

namespace Hooke

open Spec

/-! ## Any file -/

theorem wrapIndex_lt {n i : ℕ} {z : ℤ} (h : wrapIndex n z = some i) : i < n := by
  unfold wrapIndex at h
  split_ifs at h with h1 h2
  · cases h; omega
  · cases h; omega

theorem setFlag_inv {nNode nDim : ℕ} {z : ℤ} (ds : List ℕ) (hd : ∀ d ∈ ds, d < nDim)
    {flags fl : ℕ → ℕ → ℕ}
    (h : ds.foldlM (fun fl d =>
        (orRaise (wrapIndex nNode z) .indexError).map fun i => setFlag fl i d) flags
        = Except.ok (ε := PyErr) fl)
    (hf : ∀ i d, flags i d = 0 ∨ (flags i d = 1 ∧ i < nNode ∧ d < nDim)) :
    ∀ i d, fl i d = 0 ∨ (fl i d = 1 ∧ i < nNode ∧ d < nDim) := by
  induction ds generalizing flags with
  | nil => cases h; exact hf
  | cons d ds ih =>
    rw [List.foldlM_cons] at h
    obtain ⟨f1, h1, h⟩ := bind_ok h
    refine ih (fun x hx => hd x (by simp [hx])) h ?_
    cases hw : wrapIndex nNode z with
    | none => rw [hw] at h1; cases h1
    | some i =>
      rw [hw] at h1
      cases h1
      intro a b
      unfold setFlag
      dsimp only
      by_cases hab : a = i ∧ b = d
      · rw [if_pos hab]
        obtain ⟨rfl, rfl⟩ := hab
        exact Or.inr ⟨rfl, wrapIndex_lt hw, hd _ (by simp)⟩
      · rw [if_neg hab]
        exact hf a b

theorem boundaryLine_inv {nNode nDim : ℕ} {flags fl : ℕ → ℕ → ℕ} {l : Text}
    (h : boundaryLine nNode nDim flags l = .ok fl)
    (hf : ∀ i d, flags i d = 0 ∨ (flags i d = 1 ∧ i < nNode ∧ d < nDim)) :
    ∀ i d, fl i d = 0 ∨ (fl i d = 1 ∧ i < nNode ∧ d < nDim) := by
  unfold boundaryLine at h
  obtain ⟨id, -, h⟩ := bind_ok h
  obtain ⟨dofs, -, h⟩ := bind_ok h
  obtain ⟨a, -, h⟩ := bind_ok h
  obtain ⟨b, -, h⟩ := bind_ok h
  refine setFlag_inv _ ?_ h hf
  intro d hd
  unfold dofRange at hd
  exact List.mem_range.mp (List.mem_filter.mp hd).1

theorem readBoundary_inv {nNode nDim : ℕ} (ls : List Text) {flags fl : ℕ → ℕ → ℕ}
    (h : ls.foldlM (boundaryLine nNode nDim) flags = .ok fl)
    (hf : ∀ i d, flags i d = 0 ∨ (flags i d = 1 ∧ i < nNode ∧ d < nDim)) :
    ∀ i d, fl i d = 0 ∨ (fl i d = 1 ∧ i < nNode ∧ d < nDim) := by
  induction ls generalizing flags with
  | nil => cases h; exact hf
  | cons l ls ih =>
    rw [List.foldlM_cons] at h
    obtain ⟨f1, h1, h⟩ := bind_ok h
    exact ih h (boundaryLine_inv h1 hf)

/-- What holds while the elements are read. -/
structure ElemInv (n : ℕ) (s : ElemState) : Prop where
  keys : s.types.keys = s.conns.keys
  kind : ∀ k, s.kind = some k → ∃ t, (t, k.cls, k.nGauss) ∈ elementTable
  kinds : ∀ p ∈ s.types, ∃ t, (t, p.2.cls, p.2.nGauss) ∈ elementTable
  range : ∀ p ∈ s.conns, ∀ v ∈ p.2, 1 ≤ v ∧ v ≤ (n : ℤ)

theorem mem_put {K β : Type} [DecidableEq K] {d : KDict K β} {k : K} {v : β} {p : K × β}
    (h : p ∈ d.put k v) : p ∈ d ∨ p.2 = v := by
  induction d with
  | nil => simp [KDict.put] at h; exact Or.inr (by rw [h])
  | cons q d ih =>
    obtain ⟨k', v'⟩ := q
    unfold KDict.put at h
    split_ifs at h with hk
    · rcases List.mem_cons.mp h with rfl | h
      · exact Or.inr rfl
      · exact Or.inl (by simp [h])
    · rcases List.mem_cons.mp h with rfl | h
      · exact Or.inl (by simp)
      · rcases ih h with h | h
        · exact Or.inl (by simp [h])
        · exact Or.inr h

theorem elementTable_of_read {t : Text} {k : FEKind} (h : elemTypeAbaqusToFetorch t = .ok k) :
    ∃ t', (t', k.cls, k.nGauss) ∈ elementTable := by
  unfold elemTypeAbaqusToFetorch at h
  split_ifs at h <;> cases h
  · exact ⟨"CPE3", by decide⟩
  · exact ⟨"CPE4", by decide⟩
  · exact ⟨"C3D4", by decide⟩
  · exact ⟨"C3D8", by decide⟩
  · exact ⟨"C3D8R", by decide⟩
  · exact ⟨"C3D20R", by decide⟩

theorem elemEvent_inv {n : ℕ} {s s' : ElemState} {e : ScanEvent} (h : elemEvent n s e = .ok s')
    (hi : ElemInv n s) : ElemInv n s' := by
  cases e with
  | key l =>
    simp only [elemEvent, elemKeyLine] at h
    obtain ⟨t, -, h⟩ := bind_ok h
    obtain ⟨k, hk, h⟩ := bind_ok h
    cases h
    refine ⟨hi.keys, ?_, hi.kinds, hi.range⟩
    intro k' hk'
    cases hk'
    exact elementTable_of_read hk
  | data l =>
    simp only [elemEvent, elemDataLine] at h
    obtain ⟨id, -, h⟩ := bind_ok h
    obtain ⟨nodes, -, h⟩ := bind_ok h
    obtain ⟨k, hk, h⟩ := bind_ok h
    obtain ⟨u, hu, h⟩ := bind_ok h
    cases h
    rw [orRaise_ok] at hk
    rw [raiseIf_ok, Bool.not_eq_true, List.any_eq_false] at hu
    refine ⟨?_, hi.kind, ?_, ?_⟩
    · simp only [KDict.keys_put, hi.keys]
    · intro p hp
      rcases mem_put hp with hp | hp
      · exact hi.kinds p hp
      · rw [hp]; exact hi.kind k hk
    · intro p hp v hv
      rcases mem_put hp with hp | hp
      · exact hi.range p hp v hv
      · rw [hp] at hv
        have := hu v hv
        simp only [decide_eq_true_eq] at this
        omega

theorem elemFold_inv {n : ℕ} (es : List ScanEvent) {s s' : ElemState}
    (h : es.foldlM (elemEvent n) s = .ok s') (hi : ElemInv n s) : ElemInv n s' := by
  induction es generalizing s with
  | nil => cases h; exact hi
  | cons e es ih =>
    rw [List.foldlM_cons] at h
    obtain ⟨s1, h1, h⟩ := bind_ok h
    exact ih h (elemEvent_inv h1 hi)

theorem mapM_length {α β : Type} {f : α → Py β} {l : List α} {r : List β} (h : l.mapM f = .ok r) :
    r.length = l.length := (mapM_forall₂ h).length_eq.symm

/-- **C105.** Whatever the file, a mesh that is read has nodes with coordinates in the same number
of directions, not more than the dimension; every element has one of the known kinds and only nodes
of the mesh; the marks of the prescribed degrees of freedom are zero or one. -/
theorem C105_checked {F : NumberText} {nDim : ℕ} {file : Text} {m : SpecimenMesh}
    (h : readSpecimenMesh F nDim file = .ok m) :
    m.coords ≠ [] ∧
    (∃ w, w ≤ nDim ∧ ∀ r ∈ m.coords, r.length = w) ∧
    m.types.map Prod.fst = m.conns.map Prod.fst ∧
    (∀ p ∈ m.types, ∃ t, (t, p.2.cls, p.2.nGauss) ∈ elementTable) ∧
    (∀ p ∈ m.conns, ∀ v ∈ p.2, 1 ≤ v ∧ v ≤ (m.coords.length : ℤ)) ∧
    (∀ i d, m.flags i d = 0 ∨ (m.flags i d = 1 ∧ i < m.coords.length ∧ d < nDim)) := by
  unfold readSpecimenMesh at h
  obtain ⟨coords, hc, h⟩ := bind_ok h
  obtain ⟨s, hs, h⟩ := bind_ok h
  obtain ⟨fl, hf, h⟩ := bind_ok h
  cases h
  unfold readNodes at hc
  obtain ⟨rows, hr, hc⟩ := bind_ok hc
  obtain ⟨u, hu, hc⟩ := bind_ok hc
  obtain ⟨u', hu', hc⟩ := bind_ok hc
  cases hc
  rw [raiseIf_ok] at hu hu'
  unfold readElements at hs
  obtain ⟨s', hs', hs⟩ := bind_ok hs
  obtain ⟨u'', -, hs⟩ := bind_ok hs
  cases hs
  have hi := elemFold_inv _ hs' ⟨rfl, by simp, by simp, by simp⟩
  refine ⟨hu, ?_, hi.keys, hi.kinds, hi.range,
    readBoundary_inv _ hf fun _ _ => Or.inl rfl⟩
  refine ⟨(coords.headD []).length, ?_, ?_⟩
  · cases coords with
    | nil => exact absurd rfl hu
    | cons r rs =>
      have := mapM_forall₂ hr
      generalize dataLines _ = ls at this
      cases this with
      | cons h1 _ =>
        have := mapM_length h1
        rw [List.length_take] at this
        simp only [List.headD_cons]
        omega
  · rw [Bool.not_eq_false] at hu'
    unfold sameLength at hu'
    rw [List.all_eq_true] at hu'
    intro r hr
    simpa using hu' r hr

/-! ## A formatting of numbers -/

/-- Nonnegative numbers written as integers. -/
noncomputable def wholeText : NumberText where
  fmt x := padLeft 4 (strNat ⌊x⌋₊)
  str x := strNat ⌊x⌋₊
  parse w := (parseInt w).map fun n => (n : ℝ)

theorem wholeText_faithful : FaithfulText wholeText fun x => (⌊x⌋₊ : ℝ) where
  fmt x := ⟨4 - (strNat ⌊x⌋₊).length, strNat ⌊x⌋₊, rfl, strNat_ne_nil _,
    fun _ h => numeral_digit h, by simp [wholeText, parseInt_strNat]⟩
  str x := fun _ h => numeral_digit h

/-- The theorem covers a mesh of two triangles with prescribed displacements. -/
example : ∃ m, readSpecimenMesh wholeText 2
      (writeMeshFile wholeText [[0, 0, 0], [1, 0, 0], [1, 1, 0], [0, 1, 0]] [[1, 2, 3], [1, 3, 4]]
        "CPE3".toList (some [(1, [(1, 0), (2, 0)]), (4, [(2, 5)])])) = .ok m ∧
      ReadsBack (fun x => (⌊x⌋₊ : ℝ)) 2 [[0, 0, 0], [1, 0, 0], [1, 1, 0], [0, 1, 0]]
        [[1, 2, 3], [1, 3, 4]] ⟨"FETri3", 1⟩ (some [(1, [(1, 0), (2, 0)]), (4, [(2, 5)])]) m := by
  refine C105_round_trip wholeText_faithful ?_ (by decide)
  refine ⟨by norm_num, by simp, ⟨3, by norm_num, by simp⟩, by simp, by simp, ?_, ?_⟩
  · intro v h1 h2
    have : v = 1 ∨ v = 2 ∨ v = 3 ∨ v = 4 := by simp at h2; omega
    rcases this with rfl | rfl | rfl | rfl <;> simp
  · rintro b hb n ds hn
    cases hb
    simp only [List.mem_cons, List.not_mem_nil, or_false, Prod.mk.injEq] at hn
    rcases hn with ⟨rfl, -⟩ | ⟨rfl, -⟩ <;> simp

/-! ## What is not checked -/

/-- The reader on a file whose nodes are all in the node section. -/
theorem readSpecimenMesh_of {nDim : ℕ} {file : Text} {texts : List Text} {coords : List (List ℝ)}
    {s : ElemState} {fl : ℕ → ℕ → ℕ}
    (h1 : dataLines (scanLines (searchWord "*node".toList) true false (fileLines file)) = texts)
    (h2 : texts.mapM (nodeCoords wholeText nDim) = .ok coords) (h3 : coords ≠ [])
    (h4 : sameLength coords = true) (h5 : readElements coords.length (fileLines file) = .ok s)
    (h6 : readBoundary coords.length nDim (fileLines file) = .ok fl) :
    readSpecimenMesh wholeText nDim file = .ok ⟨coords, s.types, s.conns, fl⟩ := by
  unfold readSpecimenMesh readNodes
  rw [h1, h2]
  simp only [bind, Except.bind, raiseIf, h3, if_false, h4, h5, pure, Except.pure, h6,
    Bool.true_eq_false]

/-- A file whose nodes are not listed in the order of their labels. -/
def labelFile : Text := "*Node\n2, 5\n1, 7\n\n*Element, type=CPE3\n1, 1, 2\n".toList

/-- **C105 is violated for node labels.** They are ignored: in a file that lists node 2 (at 5) before
node 1 (at 7), node 1 gets the coordinate of node 2. -/
theorem C105_labels_violated :
    ∃ m, readSpecimenMesh wholeText 1 labelFile = .ok m ∧
      fileLines labelFile = ["*Node", "2, 5", "1, 7", "", "*Element, type=CPE3", "1, 1, 2"].map
        String.toList ∧ m.coords = [[5], [7]] := by
  refine ⟨_, readSpecimenMesh_of (texts := ["2, 5".toList, "1, 7".toList])
    (coords := [[((5 : ℕ) : ℝ)], [((7 : ℕ) : ℝ)]]) (by decide) rfl (by simp) (by simp [sameLength])
    rfl rfl, by decide, by norm_num⟩

/-- A file with two elements of the same label. -/
def duplicateFile : Text :=
  "*Node\n1, 5\n2, 7\n\n*Element, type=CPE3\n1, 1\n1, 2\n".toList

/-- **C105 is violated for repeated element labels.** A repeated label replaces the earlier element
without an error, and the check that every node belongs to an element counts the nodes of the
replaced element: the mesh read has a node of no element. -/
theorem C105_unused_node_violated :
    ∃ m, readSpecimenMesh wholeText 1 duplicateFile = .ok m ∧ m.coords.length = 2 ∧
      ∀ p ∈ m.conns, (1 : ℤ) ∉ p.2 := by
  refine ⟨_, readSpecimenMesh_of (texts := ["1, 5".toList, "2, 7".toList])
    (coords := [[((5 : ℕ) : ℝ)], [((7 : ℕ) : ℝ)]]) (by decide) rfl (by simp) (by simp [sameLength])
    rfl rfl, rfl, by decide⟩

/-- A file prescribing a displacement of a node 0. -/
def zeroFile : Text :=
  "*Node\n1, 5\n2, 7\n\n*Element, type=CPE3\n1, 1, 2\n\n*Boundary\n0, 1, 1, 0\n".toList

/-- **C105 is violated for invalid nodes of boundary conditions.** A displacement prescribed for the
node 0, which does not exist, is taken for the last node of the mesh. -/
theorem C105_boundary_node_violated :
    ∃ m, readSpecimenMesh wholeText 1 zeroFile = .ok m ∧ m.coords.length = 2 ∧ m.flags 1 0 = 1 := by
  refine ⟨_, readSpecimenMesh_of (texts := ["1, 5".toList, "2, 7".toList])
    (coords := [[((5 : ℕ) : ℝ)], [((7 : ℕ) : ℝ)]]) (by decide) rfl (by simp) (by simp [sameLength])
    rfl rfl, rfl, rfl⟩

end Hooke
