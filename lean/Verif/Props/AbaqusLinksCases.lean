import Verif.Props.AbaqusLinksBack

/-!
# C115: the whole conversion, a case, and what goes wrong
-/

namespace Hooke

open Spec

/-- **C115 (pipeline).** The input data file of a simulation, converted to an ABAQUS file and back, gives
a Links file with the mesh and the displacements of the simulation: nothing is lost by the two
conversions but what the first writing loses, the digits after the ninth. -/
theorem C115_pipeline {str : ℝ → Text} {rs : ℝ → ℝ} (hc : ∀ x, ∀ c ∈ str x, NumeralChar c)
    (hs : StrReadsAs (pythonNumbers str) rs) (hrs : ∀ x, rs (roundSig 8 x) = roundSig 8 x) {nDim : ℕ}
    {coords : List (List ℝ)} {conns : List (List ℤ)} {cd : KDict ℕ (List ℝ)}
    {ed : KDict ℕ (List ℤ)} {phase : KDict ℕ ℕ} {disps : KDict ℕ (List (Option ℝ))}
    (hd : LinksData nDim coords conns cd ed phase disps) (hp : ShortPhases phase)
    (hm : LinksMesh nDim coords conns disps)
    (hv : ∀ n u, (n, u) ∈ disps → ∀ x, some x ∈ u →
      x = 0 ∨ ((10 : ℝ) ^ (-99 : ℤ) ≤ |x| ∧ |x| < (10 : ℝ) ^ (99 : ℤ)))
    {t cls : String} {T : Text} {g g' : ℕ} (ht : linksElemTypeData nDim t = .ok (T, g))
    (hk : (t, cls, g') ∈ linksKinds) (ip : LinksParams) (increm : List Text) (phases : List ℕ)
    (materials : List Text) (hH : KeywordFree (linksHeader ip increm phases).flatten)
    (hM : KeywordFree materials.flatten) :
    ∃ file inp dat d,
      writeLinksFile (pythonNumbers str) nDim ip increm phases T g materials cd ed phase disps
        = .ok file ∧
      datToInp (pythonNumbers str) file = .ok inp ∧
      inpToDat (pythonNumbers str) nDim inp = .ok dat ∧
      extractCoords (pythonNumbers str) dat
        = .ok (coords.map fun r => (r.take nDim).map (roundSig 8)) ∧
      extractConns dat = .ok conns ∧
      extractBcs (pythonNumbers str) dat = .ok d ∧ (d.map Prod.fst).Pairwise (· < ·) ∧
      ∀ (n : ℤ) (i : ℕ) (v : ℝ), PrescribedAs d n i v ↔
        ∃ m us, (m, us.map some) ∈ disps ∧ n = (m : ℤ) ∧ (i, v) ∈ readDisps (roundSig 8) nDim us := by
  have hF := C113_faithful hc
  have hblank : ∀ x : ℝ, (x = 0 ∨ ((10 : ℝ) ^ (-99 : ℤ) ≤ |x| ∧ |x| < (10 : ℝ) ^ (99 : ℤ))) →
      ((pythonNumbers str).fmt x).head? = some ' ' := fun x hx => C113_blank (by norm_num) hx
  have h0 := hblank 0 (.inl rfl)
  have hb : BlankBefore (pythonNumbers str) disps :=
    fun n x u h => hblank x (hv n _ h x (by simp))
  obtain ⟨file, hw, h1, h2, h3, b, h4, -, -, hmem⟩ :=
    C106_extract hF hd hp hb ht ip increm phases materials hH hM
  obtain ⟨a, ha, hel⟩ := linksToAbaqus_kind ht hk
  have hproper : ProperMesh nDim (coords.map fun r => r.map (roundSig 8)) conns (some b) := by
    obtain ⟨w, hw'⟩ := hd.coordsWidth
    refine ⟨?_, ?_, ⟨w, ?_, ?_⟩, hm.connNonempty, ?_, ?_, ?_⟩
    · rcases hm.dim with h | h <;> omega
    · simpa using hm.nonempty
    · obtain ⟨r, hr⟩ := List.exists_mem_of_ne_nil _ hm.nonempty
      rw [← hw' r hr]
      exact hm.width r hr
    · intro r hr
      obtain ⟨r', hr', rfl⟩ := List.mem_map.mp hr
      rw [List.length_map]
      exact hw' r' hr'
    · rw [List.length_map]; exact hm.connRange
    · rw [List.length_map]; exact hm.covered
    · rintro b' hb' n ds hn
      cases hb'
      obtain ⟨k, v, hv, rfl, -⟩ := (hmem n ds).mp hn
      have := hm.dispsRange _ _ hv
      rw [List.length_map]
      omega
  have hpre : ∀ n i u, PrescribedAs b n i u ↔
      ∃ m us, (m, us.map some) ∈ disps ∧ n = (m : ℤ) ∧ (i, u) ∈ readDisps (roundSig 8) nDim us := by
    intro n i u
    constructor
    · rintro ⟨ds, hn, hi⟩
      obtain ⟨m, us, hu, rfl, rfl⟩ := (hmem n ds).mp hn
      exact ⟨m, us, hu, rfl, hi⟩
    · rintro ⟨m, us, hu, rfl, hi⟩
      exact ⟨_, (hmem _ _).mpr ⟨m, us, hu, rfl, rfl⟩, hi⟩
  have hval : ∀ n i u, PrescribedAs b n i u → ∃ x, u = roundSig 8 x ∧
      (x = 0 ∨ ((10 : ℝ) ^ (-99 : ℤ) ≤ |x| ∧ |x| < (10 : ℝ) ^ (99 : ℤ))) := by
    intro n i u h
    obtain ⟨m, us, hu, -, hi⟩ := (hpre n i u).mp h
    unfold readDisps at hi
    obtain ⟨p, hp, he⟩ := List.mem_map.mp hi
    rw [Prod.mk.injEq] at he
    have := List.fst_mem_of_mem_zipIdx hp
    refine ⟨p.1, he.2.symm, ?_⟩
    rcases List.mem_append.mp this with h | h
    · exact hv m _ hu _ (List.mem_map.mpr ⟨p.1, h, rfl⟩)
    · split_ifs at h
      · exact .inl (by simpa using h)
      · cases h
  obtain ⟨inp, dat, d, r1, r2, r3, r4, r5, r6, r7⟩ := C115_round_trip hF hs h1 ha h2 h3 h4 hproper h0
    (by
      intro n i u h
      obtain ⟨x, rfl, hx⟩ := hval n i u h
      rw [hrs]
      have := hblank x hx
      rwa [show (pythonNumbers str).fmt x = (pythonNumbers str).fmt (roundSig 8 x) from
        (C113_rewrite 16 8 x).symm] at this)
  refine ⟨file, inp, dat, d, hw, r1, r2, ?_, r4, r5, r6, ?_⟩
  · rw [r3, List.map_map]
    congr 1
    refine List.map_congr_left fun r _ => ?_
    simp only [Function.comp_apply]
    rw [← List.map_take, List.map_map]
    refine List.map_congr_left fun x _ => ?_
    simp only [Function.comp_apply]
    rw [(C113_rounding 8).idem, (C113_rounding 8).idem]
  · intro n i v
    rw [r7, ← hpre]
    constructor
    · rintro ⟨u, hu, rfl⟩
      obtain ⟨x, rfl, -⟩ := hval n i u hu
      rw [hrs, (C113_rounding 8).idem]
      exact hu
    · intro h
      obtain ⟨x, rfl, -⟩ := hval n i v h
      exact ⟨_, h, by rw [hrs, (C113_rounding 8).idem]⟩

/-- Numbers written with nine digits everywhere. -/
theorem strReads_sci : StrReadsAs (pythonNumbers (sciText 8)) (roundSig 8) :=
  fun x => ⟨sciText_ne_nil 8 x, C113_read 8 x⟩

/-- One element of a simulation: its lower edge is fixed, its upper edge is moved by 0.25. -/
example : ∃ file inp dat d,
    writeLinksFile (pythonNumbers (sciText 8)) 2 (linksParamsOf "Patch".toList)
      ["\nNUMBER_OF_INCREMENTS 10\n".toList] [1] "QUAD4".toList 4 ["1 ELASTIC\n".toList]
      [(1, [0, 0]), (2, [1, 0]), (3, [1, 1]), (4, [0, 1])] [(1, [1, 2, 3, 4])] [(1, 1)]
      [(4, [some 0, some (1 / 4)]), (3, [some 0, some (1 / 4)]), (1, [some 0, some 0]),
        (2, [some 0, some 0])] = .ok file ∧
    datToInp (pythonNumbers (sciText 8)) file = .ok inp ∧
    inpToDat (pythonNumbers (sciText 8)) 2 inp = .ok dat ∧
    extractConns dat = .ok [[1, 2, 3, 4]] ∧ extractBcs (pythonNumbers (sciText 8)) dat = .ok d ∧
    PrescribedAs d 4 2 (roundSig 8 (1 / 4)) := by
  obtain ⟨file, inp, dat, d, h1, h2, h3, -, h5, h6, -, h8⟩ := C115_pipeline
    (str := sciText 8) (rs := roundSig 8) (nDim := 2) (fun x c hc => sciText_char 8 x c hc) strReads_sci
    (C113_rounding 8).idem
    (coords := [[0, 0], [1, 0], [1, 1], [0, 1]]) (conns := [[1, 2, 3, 4]])
    (cd := [(1, [0, 0]), (2, [1, 0]), (3, [1, 1]), (4, [0, 1])]) (ed := [(1, [1, 2, 3, 4])])
    (phase := [(1, 1)])
    (disps := [(4, [some 0, some (1 / 4)]), (3, [some 0, some (1 / 4)]), (1, [some 0, some 0]),
      (2, [some 0, some 0])])
    ⟨⟨rfl, fun i => by rcases i with _ | _ | _ | _ | i <;> simp [KDict.get?]⟩,
      ⟨rfl, fun i => by rcases i with _ | i <;> simp [KDict.get?]⟩, ⟨2, by simp⟩, ⟨4, by simp⟩,
      fun i hi => by
        have : i = 0 := by simpa using hi
        subst this
        exact ⟨1, rfl⟩,
      by simp, fun n u h => by
        simp only [List.mem_cons, List.not_mem_nil, or_false, Prod.mk.injEq] at h
        rcases h with ⟨-, rfl⟩ | ⟨-, rfl⟩ | ⟨-, rfl⟩ | ⟨-, rfl⟩
        · exact ⟨[0, 1 / 4], rfl, rfl⟩
        · exact ⟨[0, 1 / 4], rfl, rfl⟩
        · exact ⟨[0, 0], rfl, rfl⟩
        · exact ⟨[0, 0], rfl, rfl⟩⟩
    (fun i m h => by
      rcases i with _ | _ | i <;> simp [KDict.get?] at h <;> omega)
    ⟨Or.inl rfl, by simp, by simp, by simp, by
        intro e he v hv
        simp only [List.mem_cons, List.not_mem_nil, or_false] at he
        subst he
        simp at hv ⊢
        omega, by
        intro v h1 h2
        have : v = 1 ∨ v = 2 ∨ v = 3 ∨ v = 4 := by simp at h2; omega
        rcases this with rfl | rfl | rfl | rfl <;> simp, by
        intro n u h
        simp only [List.mem_cons, List.not_mem_nil, or_false, Prod.mk.injEq] at h
        simp only [List.length_cons, List.length_nil]
        omega⟩
    (fun n u h x hx => by
      simp only [List.mem_cons, List.not_mem_nil, or_false, Prod.mk.injEq] at h
      have hx' : x = 0 ∨ x = 1 / 4 := by
        rcases h with ⟨-, rfl⟩ | ⟨-, rfl⟩ | ⟨-, rfl⟩ | ⟨-, rfl⟩ <;> simp at hx ⊢ <;> tauto
      rcases hx' with rfl | rfl
      · exact .inl rfl
      · right
        rw [abs_of_pos (by norm_num)]
        constructor <;> norm_num)
    (t := "SQUAD4") (T := "QUAD4".toList) (g := 4) (cls := "FEQuad4") (g' := 4) rfl (by decide)
    (linksParamsOf "Patch".toList)
    ["\nNUMBER_OF_INCREMENTS 10\n".toList] [1] ["1 ELASTIC\n".toList]
    (keywordFree_of (by decide +kernel)) (keywordFree_of (by decide +kernel))
  refine ⟨file, inp, dat, d, h1, h2, h3, h5, h6, (h8 4 2 _).mpr ⟨4, [0, 1 / 4], by simp, rfl, ?_⟩⟩
  simp [readDisps]

/-! ## What goes wrong -/

theorem datElementLines_missing {d : KDict ℤ (List ℤ)} {i : ℕ} (hi : i < d.length)
    (hn : d.get? ((i + 1 : ℕ) : ℤ) = none) : datElementLines d = .error .keyError := by
  unfold datElementLines
  refine mapM_error (List.mem_range.mpr hi) ?_ ?_
  · rw [hn]
    rfl
  · intro k _
    cases hg : d.get? ((k + 1 : ℕ) : ℤ) with
    | none => exact .inl rfl
    | some e => exact .inr ⟨_, rfl⟩

theorem elementsInOrder_of {d : KDict ℤ (List ℤ)} {els : List Text} (h : datElementLines d = .ok els) :
    ∃ conns, ElementsInOrder d conns := by
  have hall : ∀ i ∈ List.range d.length, ∃ e, d.get? ((i + 1 : ℕ) : ℤ) = some e := by
    intro i hi
    by_contra hno
    have hn : d.get? ((i + 1 : ℕ) : ℤ) = none := by
      cases hg : d.get? ((i + 1 : ℕ) : ℤ) with
      | none => rfl
      | some e => exact absurd ⟨e, hg⟩ hno
    rw [datElementLines_missing (List.mem_range.mp hi) hn] at h
    cases h
  refine ⟨(List.range d.length).map fun i => (d.get? ((i + 1 : ℕ) : ℤ)).getD [], by simp, ?_⟩
  intro i hi
  obtain ⟨e, he⟩ := hall i (List.mem_range.mpr hi)
  rw [List.getElem?_map, List.getElem?_range hi]
  simp only [Option.map_some]
  rw [he]
  rfl

/-- No line of the Links file written names the element types. -/
theorem datTexts_noTypes {F : NumberText} {rd : ℝ → ℝ} (hF : FaithfulText F rd) (nDim : ℕ)
    (coords : List (List ℝ)) (conns : List (List ℤ)) (bcs : InpBcs) :
    ∀ l ∈ datTexts F nDim coords conns bcs, searchWord "ELEMENT_TYPES".toList l = false := by
  have hY : ('Y' : Char) ∈ "ELEMENT_TYPES".toList := by decide
  have hS : ('S' : Char) ∈ "ELEMENT_TYPES".toList := by decide
  have h0 : searchWord "ELEMENT_TYPES".toList [] = false := by decide
  have h1 : ∀ n, searchWord "ELEMENT_TYPES".toList (linksElemKey n) = false := by
    intro n
    have := literal_noKey (n := n) (a := "ELEMENTS ".toList) (b := []) 'Y' hY (by decide)
      (by decide) (by decide)
    rw [List.append_nil] at this
    exact this
  have h2 : ∀ n, searchWord "ELEMENT_TYPES".toList (linksNodeKey n) = false := fun n =>
    literal_noKey (n := n) (a := "NODE_COORDINATES ".toList) (b := " CARTESIAN".toList) 'Y' hY
      (by decide) (by decide) (by decide)
  have h3 : ∀ n, searchWord "ELEMENT_TYPES".toList (linksDispKey n) = false := by
    intro n
    refine searchWord_false hY fun d hd => ?_
    unfold linksDispKey at hd
    rcases List.mem_append.mp hd with h | h
    · clear hd
      revert d
      decide
    · rcases List.mem_cons.mp h with rfl | h
      · decide
      · exact digit_ne_letter (by decide) (isDigit_of_mem_strNat h)
  generalize hkw : "ELEMENT_TYPES".toList = kw at *
  intro l hl
  unfold datTexts at hl
  simp only [List.mem_cons, List.mem_append] at hl
  rcases hl with rfl | rfl | hl | rfl | rfl | hl | rfl | rfl | hl
  · exact h0
  · exact h1 _
  · obtain ⟨p, -, rfl⟩ := List.mem_map.mp hl
    exact (linksElemText_data _ _ _).noLinksKey hS
  · exact h0
  · exact h2 _
  · obtain ⟨p, -, rfl⟩ := List.mem_map.mp hl
    exact (linksNodeText_data hF _ _).noLinksKey hS
  · exact h0
  · exact h3 _
  · obtain ⟨p, -, rfl⟩ := List.mem_map.mp hl
    exact (codeDispText_data hF _ _ _).noLinksKey hS

/-- **C115 is violated for the way back.** The Links file written never has a section with the element
type, so converting it to an ABAQUS file raises an `UnboundLocalError`, whatever file it comes from. -/
theorem C115_back_violated {F : NumberText} {rd : ℝ → ℝ} (hF : FaithfulText F rd) {nDim : ℕ}
    {inp dat : Text} (h : inpToDat F nDim inp = .ok dat) : datToInp F dat = .error .unboundLocal := by
  have h' := h
  unfold inpToDat at h'
  obtain ⟨coords, h1, h'⟩ := bind_ok h'
  obtain ⟨d, h2, h'⟩ := bind_ok h'
  obtain ⟨bcs, h3, h'⟩ := bind_ok h'
  obtain ⟨els, h4, -⟩ := bind_ok h'
  obtain ⟨conns, ho⟩ := elementsInOrder_of h4
  obtain ⟨dat', hd, hl⟩ := inpToDat_lines hF h1 h2 h3 ho
  rw [h] at hd
  cases hd
  have hno := datTexts_noTypes hF nDim coords conns bcs
  have ht : extractElemType dat = .error .unboundLocal := by
    unfold extractElemType
    have := scanLines_skip (isKey := searchWord "ELEMENT_TYPES".toList) (stops := true)
      (datTexts F nDim coords conns bcs) [] hno
    rw [List.append_nil] at this
    rw [hl, this]
    rfl
  unfold datToInp
  rw [ht]
  rfl

/-- **C115 is violated for element labels.** If the labels of the elements are not 1, 2, ... — as in a
part of a mesh — the conversion raises a `KeyError`. -/
theorem C115_element_labels_violated {F : NumberText} {nDim : ℕ} {file : Text} {m : SpecimenMesh}
    (hm : readSpecimenMesh F nDim file = .ok m) {bcs : InpBcs}
    (hb : inpBoundary F (fileLines file) = .ok bcs) {i : ℕ} (hi : i < m.conns.length)
    (hno : ((i + 1 : ℕ) : ℤ) ∉ m.conns.keys) : inpToDat F nDim file = .error .keyError := by
  unfold readSpecimenMesh at hm
  obtain ⟨coords, h1, hm⟩ := bind_ok hm
  obtain ⟨s, h2, hm⟩ := bind_ok hm
  obtain ⟨fl, -, hm⟩ := bind_ok hm
  cases hm
  dsimp only at hi hno
  unfold inpToDat
  rw [(inpNodes_of h1).1]
  simp only [bind, Except.bind]
  rw [inpElements_of h2, hb]
  simp only
  rw [datElementLines_missing hi (KDict.get?_eq_none.mpr hno)]

/-- **C115 is violated for boundary lines without a displacement.** The ABAQUS line `node, first, last`
(a fixed node), which the specimen reader accepts, raises an `IndexError`. -/
theorem C115_fixed_node_violated {F : NumberText} {l a b c : Text} {n i j : ℤ}
    (hl : splitComma l = [a, b, c]) (ha : intOfText a = .ok n) (hb : intOfText b = .ok i)
    (hc : intOfText c = .ok j) :
    (∀ bcs, inpBoundaryLine F bcs l = .error .indexError) ∧
    ∀ (nNode nDim : ℕ) (flags : ℕ → ℕ → ℕ), 1 ≤ n → n ≤ (nNode : ℤ) → ∃ fl, boundaryLine nNode nDim flags l = .ok fl := by
  refine ⟨fun bcs => ?_, fun nNode nDim flags h1 h2 => ?_⟩
  · unfold inpBoundaryLine
    rw [hl]
    simp only [List.headD_cons, List.drop_succ_cons, List.drop_zero, List.take_succ_cons, List.take_zero,
      List.mapM_cons, List.mapM_nil, ha, hb, hc, bind, Except.bind, pure, Except.pure]
    rfl
  · unfold boundaryLine
    rw [hl]
    simp only [List.headD_cons, List.drop_succ_cons, List.drop_zero, List.take_succ_cons, List.take_zero,
      List.mapM_cons, List.mapM_nil, ha, hb, hc, bind, Except.bind, pure, Except.pure, orRaise,
      List.getElem?_cons_succ, List.getElem?_cons_zero]
    obtain ⟨fl, h, -⟩ := setFlag_fold nNode (n - 1) (n - 1).toNat (wrapIndex_node h1 h2)
      (dofRange nDim i j) flags
    exact ⟨fl, h⟩

example : (∀ bcs, inpBoundaryLine wholeText bcs "1, 1, 2".toList = .error .indexError) ∧
    ∀ (nNode nDim : ℕ) (flags : ℕ → ℕ → ℕ), 1 ≤ (1 : ℤ) → 1 ≤ (nNode : ℤ) →
      ∃ fl, boundaryLine nNode nDim flags "1, 1, 2".toList = .ok fl :=
  C115_fixed_node_violated (a := "1".toList) (b := " 1".toList) (c := " 2".toList) (i := 1) (j := 2)
    (by decide) rfl rfl rfl

/-- A bar with two nodes, its node lines labelled `i` and `j`. -/
def barFile (i j : String) : Text :=
  ("*Node\n" ++ i ++ ", 5\n" ++ j ++ ", 7\n\n*Element, type=CPE3\n1, 1, 2\n").toList

/-- **C115 is violated for node labels.** The labels of the nodes are not read: a file that lists the
nodes in another order is converted to the same Links file, with the coordinates at other nodes. -/
theorem C115_node_labels_violated {F : NumberText} {x y : ℝ} (hx : F.parse "5".toList = some x)
    (hy : F.parse "7".toList = some y) :
    ∃ dat, inpToDat F 1 (barFile "1" "2") = .ok dat ∧ inpToDat F 1 (barFile "2" "1") = .ok dat := by
  have key : ∀ ls : List Text, (ls = fileLines (barFile "1" "2") ∨ ls = fileLines (barFile "2" "1")) →
      inpNodes F 1 ls = .ok [[x], [y]] ∧ inpElements 2 ls = .ok [(1, [1, 2])] ∧
        inpBoundary F ls = .ok [] := by
    have hn : ∀ l m : Text, splitComma l = ["1".toList, " 5".toList] ∨
        splitComma l = ["2".toList, " 5".toList] → splitComma m = ["1".toList, " 7".toList] ∨
        splitComma m = ["2".toList, " 7".toList] →
        [l, m].mapM (nodeCoords F 1) = .ok [[x], [y]] := by
      intro l m hl hm
      have f1 : F.float " 5".toList = .ok x := by
        unfold NumberText.float
        rw [show stripText " 5".toList = "5".toList by decide, hx]
        rfl
      have f2 : F.float " 7".toList = .ok y := by
        unfold NumberText.float
        rw [show stripText " 7".toList = "7".toList by decide, hy]
        rfl
      have g1 : nodeCoords F 1 l = .ok [x] := by
        unfold nodeCoords
        rcases hl with h | h <;> rw [h] <;>
          (simp only [List.drop_succ_cons, List.drop_zero, List.take_succ_cons, List.take_zero,
            List.mapM_cons, List.mapM_nil, f1, bind, Except.bind, pure, Except.pure])
      have g2 : nodeCoords F 1 m = .ok [y] := by
        unfold nodeCoords
        rcases hm with h | h <;> rw [h] <;>
          (simp only [List.drop_succ_cons, List.drop_zero, List.take_succ_cons, List.take_zero,
            List.mapM_cons, List.mapM_nil, f2, bind, Except.bind, pure, Except.pure])
      simp only [List.mapM_cons, List.mapM_nil, g1, g2, bind, Except.bind, pure, Except.pure]
    rintro ls (rfl | rfl)
    · refine ⟨?_, by decide +kernel, by rfl⟩
      unfold inpNodes
      rw [show dataLines (scanLines (searchWord "*node".toList) true false
        (fileLines (barFile "1" "2"))) = ["1, 5".toList, "2, 7".toList] by decide +kernel,
        hn _ _ (.inl (by decide)) (.inr (by decide))]
      rfl
    · refine ⟨?_, by decide +kernel, by rfl⟩
      unfold inpNodes
      rw [show dataLines (scanLines (searchWord "*node".toList) true false
        (fileLines (barFile "2" "1"))) = ["2, 5".toList, "1, 7".toList] by decide +kernel,
        hn _ _ (.inr (by decide)) (.inl (by decide))]
      rfl
  have eqn : ∀ file, (file = barFile "1" "2" ∨ file = barFile "2" "1") → inpToDat F 1 file
      = (datElementLines [(1, [1, 2])]).map fun els =>
        (["\nELEMENTS ".toList ++ strNat 1 ++ ['\n']] ++ els
        ++ ["\nNODE_COORDINATES ".toList ++ strNat 2 ++ " CARTESIAN\n".toList]
        ++ datNodeLines F [[x], [y]]
        ++ ["\nNODES_WITH_PRESCRIBED_DISPLACEMENTS ".toList ++ strNat 0 ++ ['\n']]).flatten := by
    intro file hf
    obtain ⟨k1, k2, k3⟩ := key (fileLines file) (by rcases hf with rfl | rfl <;> simp)
    unfold inpToDat
    rw [k1]
    simp only [bind, Except.bind]
    rw [show ([[x], [y]] : List (List ℝ)).length = 2 from rfl, k2, k3]
    simp only
    cases datElementLines [(1, [1, 2])] with
    | error e => rfl
    | ok els =>
      simp only [pure, Except.pure, Except.map]
      simp [datLabels, KDict.keys]
  rw [eqn _ (.inl rfl), eqn _ (.inr rfl)]
  exact ⟨_, rfl, rfl⟩

example : ∃ dat, inpToDat wholeText 1 (barFile "1" "2") = .ok dat ∧
    inpToDat wholeText 1 (barFile "2" "1") = .ok dat :=
  C115_node_labels_violated (x := ((5 : ℕ) : ℝ)) (y := ((7 : ℕ) : ℝ)) rfl rfl

/-- A file with a fixed node and a node that is moved. -/
def pulledFile : Text :=
  "*Node\n1, 5\n2, 7\n\n*Element, type=CPE3\n1, 1, 2\n\n*Boundary\n1, 1, 2, 0\n2, 1, 1, 3\n2, 1, 1, 4\n".toList

theorem pulled_elements : (readElements 2 (fileLines pulledFile)).map ElemState.conns
    = .ok [(1, [1, 2])] := by decide +kernel

theorem pulled_flags : ∃ fl, readBoundary 2 1 (fileLines pulledFile) = .ok fl := by
  unfold readBoundary
  rw [show dataLines (scanLines (searchWord "*boundary".toList) false false (fileLines pulledFile))
    = ["1, 1, 2, 0".toList, "2, 1, 1, 3".toList, "2, 1, 1, 4".toList] by decide +kernel]
  exact ⟨_, rfl⟩

theorem pulled_mesh : ∃ m, readSpecimenMesh wholeText 1 pulledFile = .ok m ∧
    m.conns = [(1, [1, 2])] := by
  have h := pulled_elements
  cases hs : readElements 2 (fileLines pulledFile) with
  | error e => rw [hs] at h; cases h
  | ok s =>
    rw [hs] at h
    obtain ⟨fl, hfl⟩ := pulled_flags
    refine ⟨_, readSpecimenMesh_of (texts := ["1, 5".toList, "2, 7".toList])
      (coords := [[((5 : ℕ) : ℝ)], [((7 : ℕ) : ℝ)]]) (by decide +kernel) rfl (by simp)
      (by simp [sameLength]) hs hfl, ?_⟩
    simp only [Except.map, Except.ok.injEq] at h
    exact h

/-- The theorem covers it: the last displacement counts. -/
example : ∃ dat d, inpToDat wholeText 1 pulledFile = .ok dat ∧ extractConns dat = .ok [[1, 2]] ∧
    extractBcs wholeText dat = .ok d ∧ PrescribedAs d 2 1 4 ∧ ¬ PrescribedAs d 2 1 3 ∧
    PrescribedAs d 1 2 0 := by
  have hf : ∀ n : ℕ, n < 5 → (wholeText.fmt (n : ℝ)).head? = some ' ' := by
    intro n hn
    unfold wholeText
    simp only [Nat.floor_natCast]
    revert n
    decide
  obtain ⟨m, hm, hc⟩ := pulled_mesh
  obtain ⟨dat, d, h1, -, h3, h4, -, h6⟩ := C115_convert wholeText_faithful (nDim := 1)
    (file := pulledFile) (conns := [[1, 2]])
    (es := [⟨1, 1, 2, ((0 : ℕ) : ℝ)⟩, ⟨2, 1, 1, ((3 : ℕ) : ℝ)⟩, ⟨2, 1, 1, ((4 : ℕ) : ℝ)⟩])
    hm
    ⟨by rw [hc]; rfl, fun i hi => by
      rw [hc] at hi ⊢
      have : i = 0 := by
        have : i < 1 := hi
        omega
      subst this
      rfl⟩ ⟨2, by simp⟩
    (by
      rw [show boundaryLines pulledFile = ["1, 1, 2, 0".toList, "2, 1, 1, 3".toList, "2, 1, 1, 4".toList]
        by decide +kernel]
      refine .cons ?_ (.cons ?_ (.cons ?_ .nil))
      · exact ⟨"1".toList, " 1".toList, " 2".toList, " 0".toList, [], by decide, rfl, rfl, rfl, rfl⟩
      · exact ⟨"2".toList, " 1".toList, " 1".toList, " 3".toList, [], by decide, rfl, rfl, rfl, rfl⟩
      · exact ⟨"2".toList, " 1".toList, " 1".toList, " 4".toList, [], by decide, rfl, rfl, rfl, rfl⟩)
    (by exact_mod_cast hf 0 (by norm_num))
    (by
      intro e he
      simp only [List.mem_cons, List.not_mem_nil, or_false] at he
      rcases he with rfl | rfl | rfl
      · exact hf 0 (by norm_num)
      · exact hf 3 (by norm_num)
      · exact hf 4 (by norm_num))
  have e1 : ∀ v, PrescribedAs d 2 1 v ↔ v = 4 := by
    intro v
    rw [h6]
    simp [lastEntry]
  refine ⟨dat, d, h1, h3, h4, (e1 4).mpr rfl, fun h => ?_, ?_⟩
  · have := (e1 3).mp h
    norm_num at this
  · rw [h6]
    simp [lastEntry]

/-- A file whose element has the label 7. -/
def sevenFile : Text := "*Node\n1, 5\n2, 7\n\n*Element, type=CPE3\n7, 1, 2\n".toList

theorem seven_mesh : ∃ m, readSpecimenMesh wholeText 1 sevenFile = .ok m ∧
    m.conns = [(7, [1, 2])] := by
  have h : (readElements 2 (fileLines sevenFile)).map ElemState.conns = .ok [(7, [1, 2])] := by
    decide +kernel
  cases hs : readElements 2 (fileLines sevenFile) with
  | error e => rw [hs] at h; cases h
  | ok s =>
    rw [hs] at h
    refine ⟨_, readSpecimenMesh_of (texts := ["1, 5".toList, "2, 7".toList])
      (coords := [[((5 : ℕ) : ℝ)], [((7 : ℕ) : ℝ)]]) (by decide +kernel) rfl (by simp)
      (by simp [sameLength]) hs rfl, ?_⟩
    simp only [Except.map, Except.ok.injEq] at h
    exact h

example : inpToDat wholeText 1 sevenFile = .error .keyError := by
  obtain ⟨m, hm, hc⟩ := seven_mesh
  exact C115_element_labels_violated hm (bcs := []) rfl (i := 0) (by rw [hc]; decide)
    (by rw [hc]; decide)

end Hooke
