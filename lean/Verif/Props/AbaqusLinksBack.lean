import Verif.Props.AbaqusLinksConvert
import Verif.Props.LinksFileCases
import Verif.Props.TimeSeriesBatch

/-!
# C115: from a Links file to an ABAQUS file and back
-/

namespace Hooke

open Spec

/-! ## The ABAQUS file -/

theorem fileLines_abaqus {F : NumberText} {rd : ℝ → ℝ} (hF : FaithfulText F rd)
    (coords : List (List ℝ)) (conns : List (List ℤ)) (elemType : Text) (bcs : DirichletBcs)
    (hc : ∀ r ∈ coords, r ≠ []) (he : ∀ e ∈ conns, e ≠ []) (ht : '\n' ∉ elemType) :
    fileLines (abaqusFile F coords conns elemType bcs)
      = "Automatically generated ABAQUS format input file".toList
        :: (meshTexts F coords conns elemType (some bcs)).tail := by
  have key : ∀ (h rest : Text), '\n' ∉ h → fileLines (h ++ '\n' :: rest) = h :: fileLines rest := by
    intro h rest hn
    have hs : ∀ h : Text, '\n' ∉ h → splitText (· == '\n') (h ++ '\n' :: rest)
        = h :: splitText (· == '\n') rest := by
      intro h
      induction h with
      | nil => intro _; rfl
      | cons c cs ih =>
        intro hn
        rw [List.mem_cons, not_or] at hn
        rw [List.cons_append, splitText, if_neg (by simpa using fun h => hn.1 h.symm), ih hn.2]
    unfold fileLines
    rw [hs h hn]
    have hne : splitText (· == '\n') rest ≠ [] := by
      cases rest with
      | nil => simp [splitText]
      | cons c cs =>
        rw [splitText]
        split_ifs
        · simp
        · split <;> simp
    cases hr : splitText (· == '\n') rest with
    | nil => exact absurd hr hne
    | cons a as =>
      rw [List.getLast?_cons_cons]
      split_ifs
      · rw [List.dropLast_cons₂]
      · rfl
  have h1 : abaqusFile F coords conns elemType bcs
      = "Automatically generated ABAQUS format input file".toList ++ '\n' ::
        ((["\n*Node\n".toList] ++ writeNodeLines F coords
          ++ ["\n*Element, type=".toList ++ elemType ++ ['\n']] ++ writeElementLines conns
          ++ (["\n*Boundary\n".toList] ++ writeBoundaryLines F bcs)).flatten) := by
    unfold abaqusFile
    simp
  have h2 : writeMeshFile F coords conns elemType (some bcs)
      = "ADiMU mesh data file (generated from Links data)".toList ++ '\n' ::
        ((["\n*Node\n".toList] ++ writeNodeLines F coords
          ++ ["\n*Element, type=".toList ++ elemType ++ ['\n']] ++ writeElementLines conns
          ++ (["\n*Boundary\n".toList] ++ writeBoundaryLines F bcs)).flatten) := by
    unfold writeMeshFile
    simp
  have h3 := fileLines_mesh hF coords conns elemType (some bcs) hc he ht
  rw [h2, key _ _ (by decide)] at h3
  rw [h1, key _ _ (by decide), ← h3, List.tail_cons]

/-- A line that is not a keyword does not matter before the sections. -/
theorem scanLines_first {isKey : Text → Bool} {stops : Bool} {l : Text} (ls : List Text)
    (h : isKey l = false) : scanLines isKey stops false (l :: ls) = scanLines isKey stops false ls := by
  have := scanLines_skip (isKey := isKey) (stops := stops) [l] ls (by simpa using h)
  simpa using this

/-- The keywords of the mesh files are not found in the first lines. -/
theorem scan_header {kw : Text} {stops : Bool} (hk : '*' ∈ kw) (F : NumberText) (coords : List (List ℝ))
    (conns : List (List ℤ)) (t : Text) (bcs : Option DirichletBcs) :
    scanLines (searchWord kw) stops false
        ("Automatically generated ABAQUS format input file".toList
          :: (meshTexts F coords conns t bcs).tail)
      = scanLines (searchWord kw) stops false (meshTexts F coords conns t bcs) := by
  have h : meshTexts F coords conns t bcs = "ADiMU mesh data file (generated from Links data)".toList
      :: (meshTexts F coords conns t bcs).tail := by
    unfold meshTexts
    simp
  conv_rhs => rw [h]
  rw [scanLines_first _ (searchWord_false hk (by decide)), scanLines_first _ (searchWord_false hk (by decide))]

theorem boundaryLines_mesh {F : NumberText} {rd : ℝ → ℝ} (hF : FaithfulText F rd)
    (coords : List (List ℝ)) (conns : List (List ℤ)) {t cls : String} {g : ℕ}
    (ht : (t, cls, g) ∈ elementTable) (b : DirichletBcs) :
    dataLines (scanLines (searchWord "*boundary".toList) false false
      (meshTexts F coords conns t.toList (some b))) = bcTexts F b := by
  obtain ⟨-, -, -, hnb, -⟩ := elementTable_read ht
  have hpre : ∀ l ∈ ["ADiMU mesh data file (generated from Links data)".toList, [], "*Node".toList]
      ++ (coords.zipIdx 1).map (nodeText F) ++ [[], "*Element, type=".toList ++ t.toList]
      ++ (conns.zipIdx 1).map elemText, searchWord "*boundary".toList l = false := by
    intro l hl
    simp only [List.mem_append, List.mem_map] at hl
    rcases hl with ((hl | ⟨p, -, rfl⟩) | hl) | ⟨p, -, rfl⟩
    · simp only [List.mem_cons, List.not_mem_nil, or_false] at hl
      rcases hl with rfl | rfl | rfl <;> decide
    · exact (nodeText_data hF p).noKey _ (by decide)
    · simp only [List.mem_cons, List.not_mem_nil, or_false] at hl
      rcases hl with rfl | rfl
      · decide
      · exact hnb
    · exact (elemText_data p).noKey _ (by decide)
  unfold meshTexts
  rw [scanLines_skip _ _ hpre]
  have e : tailTexts F (some b) = [[]] ++ ("*Boundary".toList :: (bcTexts F b ++ [])) := by
    simp [tailTexts]
  have hd : ∀ l ∈ bcTexts F b, DataText l := by
    intro l hl
    obtain ⟨n, -, h⟩ := List.mem_flatMap.mp hl
    obtain ⟨d, -, rfl⟩ := List.mem_map.mp h
    exact bcText_data hF n.1 d
  rw [e, scanLines_skip _ _ (by decide), scanLines_key _ _ (by decide),
    scanLines_data _ _ (fun l hl => (hd l hl).noKey _ (by decide)) fun l hl => (hd l hl).noEnd]
  simp only [dataLines]
  rw [dataLines_map]
  simp [scanLines, dataLines]

theorem bcText_entry {F : NumberText} {rd rs : ℝ → ℝ} (hF : FaithfulText F rd) (hs : StrReadsAs F rs)
    (n : ℤ) (d : ℕ × ℝ) : EntryLine F (bcText F n d) ⟨n, d.1, d.1, rs d.2⟩ := by
  have hsp : splitComma (bcText F n d) = padLeft 3 (textOfInt n) ::
      [textOfInt d.1, textOfInt d.1, F.str d.2].map (' ' :: ·) := by
    unfold bcText
    refine splitComma_join _ _ (padLeft_comma _ _) fun y hy => ?_
    simp only [List.mem_cons, List.not_mem_nil, or_false] at hy
    rcases hy with rfl | rfl | rfl
    · exact textOfInt_comma _
    · exact textOfInt_comma _
    · exact fun h => numeral_ne_comma (hF.str _ _ h) rfl
  refine ⟨_, _, _, _, [], hsp, intOfText_padLeft _ _, intOfText_space _, intOfText_space _, ?_⟩
  unfold NumberText.float
  have := stripText_word 1 (w := F.str d.2) fun c hc => isBlankChar_numeral (hF.str _ _ hc)
  rw [List.replicate_one, List.singleton_append] at this
  rw [this, (hs _).2]
  rfl

/-! ## What is read from a Links file -/

theorem nodeBcs_dims {code : List ℤ} {vals : List ℝ} {b : KDict ℕ ℝ} (h : nodeBcs code vals = .ok b) :
    b.keys.Nodup ∧ ∀ d ∈ b.keys, 1 ≤ d ∧ d ≤ 3 := by
  unfold nodeBcs at h
  have key : ∀ (is : List ℕ) (acc b : KDict ℕ ℝ), (∀ i ∈ is, i < 3) → acc.keys.Nodup →
      (∀ d ∈ acc.keys, 1 ≤ d ∧ d ≤ 3) →
      is.foldlM (fun d i => do
        let c ← orRaise code[i]? PyErr.indexError
        if c = 1 then do
          let v ← orRaise vals[i]? PyErr.indexError
          pure (d.put (i + 1) v)
        else pure d) acc = Except.ok b → b.keys.Nodup ∧ ∀ d ∈ b.keys, 1 ≤ d ∧ d ≤ 3 := by
    intro is
    induction is with
    | nil => intro acc b _ h1 h2 h; cases h; exact ⟨h1, h2⟩
    | cons i is ih =>
      intro acc b h3 h1 h2 h
      rw [List.foldlM_cons] at h
      obtain ⟨acc', h4, h⟩ := bind_ok h
      obtain ⟨c, -, h4⟩ := bind_ok h4
      split_ifs at h4
      · obtain ⟨v, -, h4⟩ := bind_ok h4
        cases h4
        refine ih _ b (fun j hj => h3 j (by simp [hj])) (KDict.nodup_put h1 _ _) ?_ h
        intro d hd
        rw [KDict.keys_put] at hd
        have := h3 i (by simp)
        split_ifs at hd
        · exact h2 d hd
        · rw [List.mem_append, List.mem_singleton] at hd
          rcases hd with hd | rfl
          · exact h2 d hd
          · omega
      · cases h4
        exact ih _ b (fun j hj => h3 j (by simp [hj])) h1 h2 h
  exact key _ [] b (by simp) (by simp [KDict.keys]) (by simp [KDict.keys]) h

theorem extractBcs_dims {F : NumberText} {file : Text} {bcs : DirichletBcs}
    (h : extractBcs F file = .ok bcs) :
    bcs.keys.Nodup ∧ ∀ n b, (n, b) ∈ bcs → b.keys.Nodup ∧ ∀ d ∈ b.keys, 1 ≤ d ∧ d ≤ 3 := by
  unfold extractBcs at h
  obtain ⟨s, h1, h2⟩ := bind_ok h
  have key : ∀ (es : List ScanEvent) (s t : Option DirichletBcs),
      (∀ bcs, s = some bcs → bcs.keys.Nodup ∧
        ∀ n b, (n, b) ∈ bcs → b.keys.Nodup ∧ ∀ d ∈ b.keys, 1 ≤ d ∧ d ≤ 3) →
      es.foldlM (dispEvent F) s = .ok t →
      ∀ bcs, t = some bcs → bcs.keys.Nodup ∧
        ∀ n b, (n, b) ∈ bcs → b.keys.Nodup ∧ ∀ d ∈ b.keys, 1 ≤ d ∧ d ≤ 3 := by
    intro es
    induction es with
    | nil => intro s t hs h; cases h; exact hs
    | cons e es ih =>
      intro s t hs h
      rw [List.foldlM_cons] at h
      obtain ⟨s', h1, h⟩ := bind_ok h
      refine ih s' t ?_ h
      cases e with
      | key l =>
        cases h1
        intro b hb
        rw [Option.some.injEq] at hb
        subst hb
        simp [KDict.keys]
      | data l =>
        unfold dispEvent at h1
        dsimp only at h1
        obtain ⟨p, hp, h1⟩ := bind_ok h1
        obtain ⟨d, hd, h1⟩ := bind_ok h1
        cases h1
        rw [orRaise_ok] at hd
        obtain ⟨g1, g2⟩ := hs d hd
        rintro b ⟨⟩
        refine ⟨KDict.nodup_put g1 _ _, ?_⟩
        intro n b hnb
        rcases mem_put hnb with hnb | hnb
        · exact g2 n b hnb
        · dsimp only at hnb
          subst hnb
          unfold dispLine at hp
          obtain ⟨_, -, hp⟩ := bind_ok hp
          obtain ⟨_, -, hp⟩ := bind_ok hp
          obtain ⟨_, -, hp⟩ := bind_ok hp
          obtain ⟨_, -, hp⟩ := bind_ok hp
          obtain ⟨_, -, hp⟩ := bind_ok hp
          obtain ⟨_, hn, hp⟩ := bind_ok hp
          cases hp
          exact nodeBcs_dims hn
  rw [orRaise_ok] at h2
  exact key _ none s (by simp) h1 bcs h2

theorem linksToAbaqus_type {T t : Text} {g : ℤ} (h : linksToAbaqus T g = .ok t) :
    ∃ s cls k, t = String.toList s ∧ (s, cls, k) ∈ elementTable := by
  unfold linksToAbaqus at h
  cases hg : linksAbaqusTypes.get? (String.ofList (T ++ ['_'] ++ textOfInt g)) with
  | none => rw [hg] at h; cases h
  | some s =>
    rw [hg] at h
    cases h
    have := mem_of_get? hg
    simp only [linksAbaqusTypes, List.mem_cons, List.not_mem_nil, or_false, Prod.mk.injEq] at this
    rcases this with ⟨-, rfl⟩ | ⟨-, rfl⟩ | ⟨-, rfl⟩ | ⟨-, rfl⟩ | ⟨-, rfl⟩ | ⟨-, rfl⟩ | ⟨-, rfl⟩ |
      ⟨-, rfl⟩ | ⟨-, rfl⟩ | ⟨-, rfl⟩
    · exact ⟨_, "FETri3", 1, rfl, by decide⟩
    · exact ⟨_, "FETri3", 1, rfl, by decide⟩
    · exact ⟨_, "FEQuad4", 4, rfl, by decide⟩
    · exact ⟨_, "FEQuad4", 4, rfl, by decide⟩
    · exact ⟨_, "FETetra4", 4, rfl, by decide⟩
    · exact ⟨_, "FETetra4", 4, rfl, by decide⟩
    · exact ⟨_, "FEHexa8", 8, rfl, by decide⟩
    · exact ⟨_, "FEHexa8", 8, rfl, by decide⟩
    · exact ⟨_, "FEHexa20", 8, rfl, by decide⟩
    · exact ⟨_, "FEHexa20", 8, rfl, by decide⟩

/-- The last entry of a node and a direction, if every direction of a node is given once. -/
theorem lastEntry_unique {bcs : DirichletBcs} {rs : ℝ → ℝ} (hn : bcs.keys.Nodup)
    (hd : ∀ n b, (n, b) ∈ bcs → b.keys.Nodup) (n : ℤ) (i : ℕ) (v : ℝ) :
    lastEntry ((bcPairs bcs).map fun p => (⟨p.1, p.2.1, p.2.1, rs p.2.2⟩ : BoundaryEntry)) n (i : ℤ)
        = some v ↔ ∃ u, PrescribedAs bcs n i u ∧ v = rs u := by
  have hmem : ∀ n d u, (n, d, u) ∈ bcPairs bcs ↔ PrescribedAs bcs n d u := by
    intro n d u
    unfold bcPairs PrescribedAs
    simp only [List.mem_flatMap, List.mem_map, Prod.mk.injEq]
    constructor
    · rintro ⟨⟨n', ds⟩, hn, ⟨d', u'⟩, hd, rfl, rfl, rfl⟩
      exact ⟨ds, hn, hd⟩
    · rintro ⟨ds, hn, hd⟩
      exact ⟨(n, ds), hn, (d, u), hd, rfl, rfl⟩
  have huniq : ∀ u u', PrescribedAs bcs n i u → PrescribedAs bcs n i u' → u = u' := by
    rintro u u' ⟨ds, h1, h2⟩ ⟨ds', h1', h2'⟩
    have e1 := get?_of_mem _ hn _ _ h1
    have e2 := get?_of_mem _ hn _ _ h1'
    rw [e1, Option.some.injEq] at e2
    subst e2
    have e3 := get?_of_mem _ (hd n ds h1) _ _ h2
    have e4 := get?_of_mem _ (hd n ds h1) _ _ h2'
    rw [e3, Option.some.injEq] at e4
    exact e4
  have hfil : ∀ e ∈ ((bcPairs bcs).map fun p => (⟨p.1, p.2.1, p.2.1, rs p.2.2⟩ : BoundaryEntry)).filter
      (fun e => decide (e.node = n ∧ e.first ≤ (i : ℤ) ∧ (i : ℤ) ≤ e.last)),
      ∃ u, PrescribedAs bcs n i u ∧ e.value = rs u := by
    intro e he
    obtain ⟨he, hc⟩ := List.mem_filter.mp he
    obtain ⟨⟨n', d, u⟩, hp, rfl⟩ := List.mem_map.mp he
    simp only [decide_eq_true_eq] at hc
    obtain ⟨rfl, h1, h2⟩ := hc
    have : d = i := by omega
    subst this
    exact ⟨u, (hmem _ _ _).mp hp, rfl⟩
  unfold lastEntry
  constructor
  · intro h
    obtain ⟨e, he, rfl⟩ := Option.map_eq_some_iff.mp h
    exact hfil e (List.mem_of_getLast? he)
  · rintro ⟨u, hu, rfl⟩
    have hin : (⟨n, i, i, rs u⟩ : BoundaryEntry) ∈ ((bcPairs bcs).map fun p =>
        (⟨p.1, p.2.1, p.2.1, rs p.2.2⟩ : BoundaryEntry)).filter
        (fun e => decide (e.node = n ∧ e.first ≤ (i : ℤ) ∧ (i : ℤ) ≤ e.last)) := by
      refine List.mem_filter.mpr ⟨List.mem_map.mpr ⟨(n, i, u), (hmem _ _ _).mpr hu, rfl⟩, ?_⟩
      simp
    cases hl : (((bcPairs bcs).map fun p =>
        (⟨p.1, p.2.1, p.2.1, rs p.2.2⟩ : BoundaryEntry)).filter
        (fun e => decide (e.node = n ∧ e.first ≤ (i : ℤ) ∧ (i : ℤ) ≤ e.last))).getLast? with
    | none =>
      rw [List.getLast?_eq_none_iff] at hl
      rw [hl] at hin
      cases hin
    | some e =>
      obtain ⟨u', hu', he⟩ := hfil e (List.mem_of_getLast? hl)
      rw [Option.map_some, he, huniq u u' hu hu']

/-- **C115 (round trip).** A mesh read from a Links file, written to an ABAQUS file and converted back
gives a Links file with the same coordinates (rounded to the digits written), the same connectivities
and the same prescribed displacements. -/
theorem C115_round_trip {F : NumberText} {rd rs : ℝ → ℝ} (hF : FaithfulText F rd)
    (hs : StrReadsAs F rs) {nDim : ℕ} {file : Text} {T t : Text} {g : ℤ} {coords : List (List ℝ)}
    {conns : List (List ℤ)} {bcs : DirichletBcs} (hT : extractElemType file = .ok (T, g))
    (ht : linksToAbaqus T g = .ok t) (hc : extractCoords F file = .ok coords)
    (hk : extractConns file = .ok conns) (hb : extractBcs F file = .ok bcs)
    (hm : ProperMesh nDim coords conns (some bcs)) (h0 : (F.fmt 0).head? = some ' ')
    (hv : ∀ n i u, PrescribedAs bcs n i u → (F.fmt (rs u)).head? = some ' ') :
    ∃ inp dat d, datToInp F file = .ok inp ∧ inpToDat F nDim inp = .ok dat ∧
      extractCoords F dat = .ok (coords.map fun r => (r.take nDim).map fun x => rd (rd x)) ∧
      extractConns dat = .ok conns ∧
      extractBcs F dat = .ok d ∧ (d.map Prod.fst).Pairwise (· < ·) ∧
      ∀ (n : ℤ) (i : ℕ) (v : ℝ), PrescribedAs d n i v ↔
        ∃ u, PrescribedAs bcs n i u ∧ v = rd (rs u) := by
  obtain ⟨s, cls, k, rfl, hs'⟩ := linksToAbaqus_type ht
  obtain ⟨g1, g2⟩ := extractBcs_dims hb
  obtain ⟨w, hw, hr⟩ := hm.width
  have hne : ∀ r ∈ coords, r ≠ [] := by
    rintro r hr' rfl
    have := hr _ hr'
    have := hm.dim
    simp only [List.length_nil] at *
    omega
  have hlines := fileLines_abaqus hF coords conns s.toList bcs hne hm.connNonempty
    (elementTable_read hs').2.2.2.2
  have hn : readNodes F nDim (fileLines (abaqusFile F coords conns s.toList bcs))
      = .ok (coords.map fun r => (r.take nDim).map rd) := by
    have := readNodes_mesh hF nDim coords conns s.toList (some bcs) hm.nonempty hw hr
    unfold readNodes at this ⊢
    rw [hlines, scan_header (by decide)]
    exact this
  have he : readElements coords.length (fileLines (abaqusFile F coords conns s.toList bcs)) = .ok
      { kind := some ⟨cls, k⟩
        types := (conns.zipIdx 1).map fun p => ((p.2 : ℤ), ⟨cls, k⟩)
        conns := (conns.zipIdx 1).map fun p => ((p.2 : ℤ), p.1)
        used := conns.flatten } := by
    have := readElements_mesh hF coords conns hs' (some bcs) hm.connRange hm.covered
    unfold readElements at this ⊢
    rw [hlines, scan_header (by decide)]
    exact this
  have hbl : boundaryLines (abaqusFile F coords conns s.toList bcs)
      = (bcPairs bcs).map fun p => bcText F p.1 p.2 := by
    unfold boundaryLines
    rw [hlines, scan_header (by decide), boundaryLines_mesh hF coords conns hs', bcTexts_pairs]
  have ho : ElementsInOrder ((conns.zipIdx 1).map fun p : List ℤ × ℕ => ((p.2 : ℤ), p.1)) conns := by
    refine ⟨by simp, ?_⟩
    have hnd : (KDict.keys ((conns.zipIdx 1).map fun p : List ℤ × ℕ => ((p.2 : ℤ), p.1))).Nodup := by
      unfold KDict.keys
      rw [List.map_map]
      have := zipIdx_snd conns 1 fun i : ℕ => (i : ℤ)
      rw [show ((Prod.fst : ℤ × List ℤ → ℤ) ∘ fun p : List ℤ × ℕ => ((p.2 : ℤ), p.1))
        = fun p : List ℤ × ℕ => (p.2 : ℤ) from rfl, this]
      refine List.Nodup.map ?_ List.nodup_range
      intro a b h
      simp only [Nat.cast_add, Nat.cast_one, add_left_inj, Nat.cast_inj] at h
      exact h
    intro i hi
    rw [List.length_map, List.length_zipIdx] at hi
    rw [List.getElem?_eq_getElem hi]
    refine get?_of_mem _ hnd _ _ (List.mem_map.mpr ⟨(conns[i], i + 1), ?_, rfl⟩)
    rw [List.mem_iff_getElem]
    exact ⟨i, by simpa using hi, by simp [Nat.add_comm]⟩
  have hkw : ∃ k, ∀ e ∈ conns, e.length = k := by
    unfold extractConns extractRows at hk
    obtain ⟨_, -, hk⟩ := bind_ok hk
    obtain ⟨_, -, hk⟩ := bind_ok hk
    obtain ⟨_, h3, hk⟩ := bind_ok hk
    cases hk
    have := raiseIf_ok.mp h3
    exact sameLength_iff.mp (by simpa using this)
  obtain ⟨dat, d, r1, r2, r3, r4, r5, r6⟩ := inpToDat_of hF (inpNodes_of hn).1
    (sameLength_iff.mp (inpNodes_of hn).2)
    (by rw [List.length_map]; exact inpElements_of he) ho hkw
    (es := (bcPairs bcs).map fun p => (⟨p.1, p.2.1, p.2.1, rs p.2.2⟩ : BoundaryEntry)) (by
      rw [hbl, List.forall₂_map_left_iff, List.forall₂_map_right_iff, List.forall₂_same]
      intro p _
      exact bcText_entry hF hs p.1 p.2) h0 (by
      intro e he
      obtain ⟨⟨n, i, u⟩, hp, rfl⟩ := List.mem_map.mp he
      refine hv n i u ?_
      unfold bcPairs at hp
      obtain ⟨⟨n', ds⟩, hn, hp⟩ := List.mem_flatMap.mp hp
      obtain ⟨p, hp, he⟩ := List.mem_map.mp hp
      cases he
      exact ⟨ds, hn, hp⟩)
  refine ⟨abaqusFile F coords conns s.toList bcs, dat, d, ?_, r1, ?_, r3, r4, r5, ?_⟩
  · unfold datToInp
    simp only [hT, ht, hc, hk, hb, bind, Except.bind, pure, Except.pure]
  · rw [r2, List.map_map]
    congr 1
    refine List.map_congr_left fun r _ => ?_
    simp [Function.comp_def]
  · intro n i v
    rw [r6]
    constructor
    · rintro ⟨-, -, u, hu, rfl⟩
      obtain ⟨u', hu', rfl⟩ := (lastEntry_unique g1 (fun n b h => (g2 n b h).1) n i u).mp hu
      exact ⟨u', hu', rfl⟩
    · rintro ⟨u, hu, rfl⟩
      obtain ⟨ds, h1, h2⟩ := id hu
      have := (g2 n ds h1).2 i (List.mem_map.mpr ⟨(i, u), h2, rfl⟩)
      exact ⟨this.1, this.2, rs u,
        (lastEntry_unique g1 (fun n b h => (g2 n b h).1) n i _).mpr ⟨u, hu, rfl⟩, rfl⟩

end Hooke
