import Verif.Props.AbaqusLinks

/-!
# C115: any ABAQUS file that can be read is converted
-/

namespace Hooke

open Spec

/-! ## Boundary sections -/

/-- Displacement of a node in a direction (from 0). -/
def inpValue (bcs : InpBcs) (n k : ℤ) : Option ℝ := (bcs.get? n).bind fun b => b.get? k

theorem foldl_put_get? (ks : List ℤ) (u : ℝ) (b : KDict ℤ ℝ) (k : ℤ) :
    (ks.foldl (fun b d => b.put d u) b).get? k = if k ∈ ks then some u else b.get? k := by
  induction ks generalizing b with
  | nil => simp
  | cons a ks ih =>
    rw [List.foldl_cons, ih, KDict.get?_put]
    by_cases h1 : k ∈ ks
    · simp [h1]
    · by_cases h2 : k = a <;> simp [h1, h2]

theorem mem_inpDims {f l k : ℤ} : k ∈ inpDims f l ↔ f ≤ k + 1 ∧ k + 1 ≤ l := by
  unfold inpDims
  rw [List.mem_map]
  constructor
  · rintro ⟨i, hi, rfl⟩
    rw [List.mem_range] at hi
    omega
  · rintro ⟨h1, h2⟩
    exact ⟨(k - (f - 1)).toNat, by rw [List.mem_range]; omega, by omega⟩

theorem inpBoundaryLine_entry {F : NumberText} {l : Text} {e : BoundaryEntry} (h : EntryLine F l e)
    (bcs : InpBcs) :
    inpBoundaryLine F bcs l = .ok (bcs.put e.node
      ((inpDims e.first e.last).foldl (fun b d => b.put d e.value) ((bcs.get? e.node).getD []))) := by
  obtain ⟨a, b, c, w, rest, hs, ha, hb, hc, hw⟩ := h
  unfold inpBoundaryLine
  rw [hs]
  simp only [List.headD_cons, List.drop_succ_cons, List.drop_zero, List.take_succ_cons, List.take_zero,
    List.mapM_cons, List.mapM_nil, List.getElem?_cons_succ, List.getElem?_cons_zero, orRaise, ha, hb, hc,
    hw, bind, Except.bind, pure, Except.pure]

theorem lastEntry_cons (e : BoundaryEntry) (es : List BoundaryEntry) (n d : ℤ) :
    lastEntry (e :: es) n d = (lastEntry es n d).or
      (if e.node = n ∧ e.first ≤ d ∧ d ≤ e.last then some e.value else none) := by
  unfold lastEntry
  by_cases h : e.node = n ∧ e.first ≤ d ∧ d ≤ e.last
  · rw [List.filter_cons_of_pos (by simpa using h), if_pos h, List.getLast?_cons]
    cases ((es.filter fun e => decide (e.node = n ∧ e.first ≤ d ∧ d ≤ e.last)).getLast?) <;> rfl
  · rw [List.filter_cons_of_neg (by simpa using h), if_neg h]
    simp

theorem inpBoundary_fold {F : NumberText} {ls : List Text} {es : List BoundaryEntry}
    (h : List.Forall₂ (EntryLine F) ls es) (acc : InpBcs) (ha : acc.keys.Nodup) :
    ∃ bcs, ls.foldlM (inpBoundaryLine F) acc = .ok bcs ∧ bcs.keys.Nodup ∧
      ∀ n k, inpValue bcs n k = (lastEntry es n (k + 1)).or (inpValue acc n k) := by
  induction h generalizing acc with
  | nil => exact ⟨acc, rfl, ha, fun n k => by simp [lastEntry]⟩
  | @cons l e ls es hl _ ih =>
    obtain ⟨bcs, h1, h2, h3⟩ := ih (acc.put e.node
      ((inpDims e.first e.last).foldl (fun b d => b.put d e.value) ((acc.get? e.node).getD [])))
      (KDict.nodup_put ha _ _)
    refine ⟨bcs, ?_, h2, ?_⟩
    · rw [List.foldlM_cons, inpBoundaryLine_entry hl]
      exact h1
    · intro n k
      rw [h3, lastEntry_cons, Option.or_assoc]
      congr 1
      unfold inpValue
      rw [KDict.get?_put]
      by_cases hn : n = e.node
      · subst hn
        rw [if_pos rfl, Option.bind_some, foldl_put_get?]
        by_cases hk : k ∈ inpDims e.first e.last
        · rw [if_pos hk, if_pos ⟨rfl, mem_inpDims.mp hk⟩]
          simp
        · rw [if_neg hk, if_neg fun h => hk (mem_inpDims.mpr h.2)]
          cases acc.get? e.node with
          | none => rfl
          | some b => simp
      · rw [if_neg hn, if_neg fun h => hn h.1.symm]
        simp

/-! ## The nodes and the elements are those of the specimen reader -/

theorem inpNodes_of {F : NumberText} {nDim : ℕ} {ls : List Text} {coords : List (List ℝ)}
    (h : readNodes F nDim ls = .ok coords) :
    inpNodes F nDim ls = .ok coords ∧ sameLength coords = true := by
  unfold readNodes at h
  obtain ⟨rows, h1, h⟩ := bind_ok h
  obtain ⟨_, h2, h⟩ := bind_ok h
  obtain ⟨_, h3, h⟩ := bind_ok h
  cases h
  refine ⟨?_, ?_⟩
  · unfold inpNodes
    rw [h1]
    simp only [bind, Except.bind]
    rw [h2]
    rfl
  · have := raiseIf_ok.mp h3
    simpa using this

theorem inpElemEvent_of {n : ℕ} {s s' : ElemState} {e : ScanEvent} (h : elemEvent n s e = .ok s') :
    inpElemEvent n ⟨s.conns, s.used⟩ e = .ok ⟨s'.conns, s'.used⟩ := by
  cases e with
  | key l =>
    unfold elemEvent elemKeyLine at h
    obtain ⟨t, h1, h⟩ := bind_ok h
    obtain ⟨k, -, h⟩ := bind_ok h
    cases h
    unfold inpElemEvent
    dsimp only
    rw [h1]
    rfl
  | data l =>
    unfold elemEvent elemDataLine at h
    obtain ⟨id, h1, h⟩ := bind_ok h
    obtain ⟨nodes, h2, h⟩ := bind_ok h
    obtain ⟨k, -, h⟩ := bind_ok h
    obtain ⟨_, h3, h⟩ := bind_ok h
    cases h
    unfold inpElemEvent
    dsimp only
    rw [h1]
    simp only [bind, Except.bind]
    rw [h2]
    simp only
    rw [h3]
    rfl

theorem inpElements_of {n : ℕ} {ls : List Text} {s : ElemState} (h : readElements n ls = .ok s) :
    inpElements n ls = .ok s.conns := by
  unfold readElements at h
  obtain ⟨s', h1, h⟩ := bind_ok h
  obtain ⟨_, h2, h⟩ := bind_ok h
  cases h
  have hfold : ∀ (es : List ScanEvent) (a b : ElemState), es.foldlM (elemEvent n) a = .ok b →
      es.foldlM (inpElemEvent n) ⟨a.conns, a.used⟩ = .ok ⟨b.conns, b.used⟩ := by
    intro es
    induction es with
    | nil => intro a b h; cases h; rfl
    | cons e es ih =>
      intro a b h
      rw [List.foldlM_cons] at h ⊢
      obtain ⟨c, h1, h⟩ := bind_ok h
      rw [inpElemEvent_of h1]
      exact ih c b h
  unfold inpElements
  rw [hfold _ _ _ h1]
  simp only [bind, Except.bind]
  rw [h2]
  rfl

theorem sameLength_iff {α : Type} {rows : List (List α)} :
    sameLength rows = true ↔ ∃ w, ∀ r ∈ rows, r.length = w := by
  constructor
  · intro h
    unfold sameLength at h
    rw [List.all_eq_true] at h
    exact ⟨_, fun r hr => by simpa using h r hr⟩
  · rintro ⟨w, h⟩
    exact sameLength_of h

/-- The converter in terms of what it reads. -/
theorem inpToDat_of {F : NumberText} {rd : ℝ → ℝ} (hF : FaithfulText F rd) {nDim : ℕ} {file : Text}
    {coords : List (List ℝ)} {m : KDict ℤ (List ℤ)}
    (h1 : inpNodes F nDim (fileLines file) = .ok coords) (hw : ∃ w, ∀ r ∈ coords, r.length = w)
    (h2 : inpElements coords.length (fileLines file) = .ok m) {conns : List (List ℤ)}
    (ho : ElementsInOrder m conns) (hk : ∃ k, ∀ e ∈ conns, e.length = k)
    {es : List BoundaryEntry} (hes : List.Forall₂ (EntryLine F) (boundaryLines file) es)
    (h0 : (F.fmt 0).head? = some ' ') (hb : ∀ e ∈ es, (F.fmt e.value).head? = some ' ') :
    ∃ dat d, inpToDat F nDim file = .ok dat ∧
      extractCoords F dat = .ok (coords.map fun r => r.map rd) ∧
      extractConns dat = .ok conns ∧
      extractBcs F dat = .ok d ∧ (d.map Prod.fst).Pairwise (· < ·) ∧
      ∀ (n : ℤ) (i : ℕ) (v : ℝ), PrescribedAs d n i v ↔
        1 ≤ i ∧ i ≤ 3 ∧ ∃ u, lastEntry es n (i : ℤ) = some u ∧ v = rd u := by
  obtain ⟨bcs, hb1, hb2, hb3⟩ := inpBoundary_fold hes [] (by simp [KDict.keys])
  have hval : ∀ n k, inpValue bcs n k = lastEntry es n (k + 1) := by
    intro n k
    rw [hb3]
    simp [inpValue, KDict.get?]
  obtain ⟨dat, hd, hl⟩ := inpToDat_lines hF h1 h2 hb1 ho
  obtain ⟨r1, r2, r3⟩ := dat_sections hF hl hw hk hb2 (by
    intro n b hnb
    cases hg : b.get? 0 with
    | none => exact h0
    | some u =>
      have : lastEntry es n (0 + 1) = some u := by
        rw [← hval, inpValue, hnb]
        exact hg
      unfold lastEntry at this
      obtain ⟨e, he, rfl⟩ := Option.map_eq_some_iff.mp this
      exact hb e (List.mem_of_mem_filter (List.mem_of_getLast? he)))
  refine ⟨dat, _, hd, r1, r2, r3, ?_, ?_⟩
  · rw [List.map_map]
    have := datLabels_lt hb2
    rw [List.pairwise_map]
    exact this
  · intro n i v
    have hiff : PrescribedAs ((datLabels bcs).map fun n => (n, prescribedOf rd
        (datCode ((bcs.get? n).getD [])) ((datDisps nDim ((bcs.get? n).getD [])).take 3))) n i v ↔
        n ∈ bcs.keys ∧ (i, v) ∈ prescribedOf rd (datCode ((bcs.get? n).getD []))
          ((datDisps nDim ((bcs.get? n).getD [])).take 3) := by
      unfold PrescribedAs
      constructor
      · rintro ⟨ds, hm, hi⟩
        obtain ⟨n', hn', he⟩ := List.mem_map.mp hm
        rw [Prod.mk.injEq] at he
        obtain ⟨rfl, rfl⟩ := he
        unfold datLabels at hn'
        rw [List.mem_insertionSort] at hn'
        exact ⟨hn', hi⟩
      · rintro ⟨hn, hi⟩
        refine ⟨_, List.mem_map.mpr ⟨n, ?_, rfl⟩, hi⟩
        unfold datLabels
        rw [List.mem_insertionSort]
        exact hn
    rw [hiff, mem_prescribed_dat]
    constructor
    · rintro ⟨hn, h1, h2, u, hu, rfl⟩
      refine ⟨h1, h2, u, ?_, rfl⟩
      obtain ⟨b, hb'⟩ := KDict.mem_keys_iff.mp hn
      rw [hb'] at hu
      have := hval n ((i : ℤ) - 1)
      rw [sub_add_cancel] at this
      rw [← this, inpValue, hb']
      exact hu
    · rintro ⟨h1, h2, u, hu, rfl⟩
      have := hval n ((i : ℤ) - 1)
      rw [sub_add_cancel, hu] at this
      unfold inpValue at this
      obtain ⟨b, hb', hg⟩ := Option.bind_eq_some_iff.mp this
      refine ⟨KDict.mem_keys_iff.mpr ⟨b, hb'⟩, h1, h2, u, ?_, rfl⟩
      rw [hb']
      exact hg

/-- **C115 (ABAQUS to Links).** Every ABAQUS file that the specimen reader accepts, with elements of one
size labelled from 1 on and displacements in its boundary sections, is converted, and the sections of
the Links file hold the same mesh: the coordinates (rounded to the digits written), the nodes of the
elements in the order of the labels, and for every node and direction the displacement that the last
line of the boundary sections gives. -/
theorem C115_convert {F : NumberText} {rd : ℝ → ℝ} (hF : FaithfulText F rd) {nDim : ℕ} {file : Text}
    {m : SpecimenMesh} (hm : readSpecimenMesh F nDim file = .ok m) {conns : List (List ℤ)}
    (ho : ElementsInOrder m.conns conns) (hk : ∃ k, ∀ e ∈ conns, e.length = k)
    {es : List BoundaryEntry} (hes : List.Forall₂ (EntryLine F) (boundaryLines file) es)
    (h0 : (F.fmt 0).head? = some ' ') (hb : ∀ e ∈ es, (F.fmt e.value).head? = some ' ') :
    ∃ dat d, inpToDat F nDim file = .ok dat ∧
      extractCoords F dat = .ok (m.coords.map fun r => r.map rd) ∧
      extractConns dat = .ok conns ∧
      extractBcs F dat = .ok d ∧ (d.map Prod.fst).Pairwise (· < ·) ∧
      ∀ (n : ℤ) (i : ℕ) (v : ℝ), PrescribedAs d n i v ↔
        1 ≤ i ∧ i ≤ 3 ∧ ∃ u, lastEntry es n (i : ℤ) = some u ∧ v = rd u := by
  unfold readSpecimenMesh at hm
  obtain ⟨coords, h1, hm⟩ := bind_ok hm
  obtain ⟨s, h2, hm⟩ := bind_ok hm
  obtain ⟨fl, -, hm⟩ := bind_ok hm
  cases hm
  exact inpToDat_of hF (inpNodes_of h1).1 (sameLength_iff.mp (inpNodes_of h1).2) (inpElements_of h2) ho hk
    hes h0 hb

end Hooke
