import Verif.Model.AbaqusLinks
import Verif.Spec.AbaqusLinks
import Verif.Props.SpecimenDirichletFile

/-!
# C115: conversion of an ABAQUS file to a Links file
-/

namespace Hooke

open Spec

/-! ## Lines of the Links file -/

/-- Line of a node with prescribed displacements. -/
def codeDispText (F : NumberText) (n : ℤ) (code : List ℤ) (v : List ℝ) : Text :=
  ' ' :: (padLeft 3 (textOfInt n) ++ ' ' :: ((code.map textOfInt).flatten
    ++ joinText " ".toList (v.map F.fmt)))

theorem datDispLine_eq (F : NumberText) (nDim : ℕ) (bcs : InpBcs) (n : ℤ) :
    datDispLine F nDim bcs n = codeDispText F n (datCode ((bcs.get? n).getD []))
      (datDisps nDim ((bcs.get? n).getD [])) ++ ['\n'] := by
  unfold datDispLine codeDispText
  simp

theorem codeDispText_data {F : NumberText} {rd : ℝ → ℝ} (hF : FaithfulText F rd) (n : ℤ)
    (code : List ℤ) (v : List ℝ) : DataText (codeDispText F n code v) := by
  refine ⟨?_, ?_⟩
  · intro c hc
    unfold codeDispText at hc
    simp only [List.mem_append, List.mem_cons] at hc
    rcases hc with rfl | hc | rfl | hc | hc
    · exact .inr (.inl rfl)
    · exact padLeft_char hc
    · exact .inr (.inl rfl)
    · obtain ⟨t, ht, hc⟩ := List.mem_flatten.mp hc
      obtain ⟨z, -, rfl⟩ := List.mem_map.mp ht
      exact .inl (numeral_int hc)
    · rcases mem_joinBlank hc with rfl | ⟨x, hx, hc⟩
      · exact .inr (.inl rfl)
      · obtain ⟨y, -, rfl⟩ := List.mem_map.mp hx
        exact (fmt_char hF y hc).1
  · obtain ⟨c, hc, hb⟩ := padLeft_digit 3 n
    exact ⟨c, by unfold codeDispText; simp [hc], hb⟩

theorem splitBlank_codeDisp {F : NumberText} (n : ℤ) {code : List ℤ} (hc : BinaryCode code)
    {x : ℝ} {v : List ℝ} (hs : (F.fmt x).head? = some ' ') :
    splitBlank (codeDispText F n code (x :: v))
      = textOfInt n :: (code.map textOfInt).flatten
        :: splitBlank (joinText " ".toList ((x :: v).map F.fmt)) := by
  unfold codeDispText
  obtain ⟨t, ht⟩ := joinBlank_head (xs := v.map F.fmt) hs
  rw [List.map_cons (f := F.fmt), ht, splitBlank_space, splitBlank_append (by decide),
    splitBlank_append (by decide), splitBlank_padLeft, splitBlank_word _ (code_text hc.2).2,
    splitBlank_space]
  · rfl
  · obtain ⟨a, b, c, h⟩ := List.length_eq_three.mp hc.1
    rw [h]
    simp [textOfInt_ne_nil]

theorem dispLine_code {F : NumberText} {rd : ℝ → ℝ} (hF : FaithfulText F rd) (n : ℤ) {code : List ℤ}
    (hc : BinaryCode code) {v : List ℝ} (hv : 3 ≤ v.length)
    (hs : ∀ x, v.head? = some x → (F.fmt x).head? = some ' ') :
    dispLine F (codeDispText F n code v) = .ok (n, prescribedOf rd code (v.take 3)) := by
  cases v with
  | nil => simp at hv
  | cons x v =>
    obtain ⟨-, h2⟩ := splitBlank_fmts hF (x :: v)
    unfold dispLine fieldOf
    rw [splitBlank_codeDisp n hc (hs x rfl)]
    simp only [List.getElem?_cons_zero, List.getElem?_cons_succ, orRaise, bind, Except.bind,
      List.drop_succ_cons, List.drop_zero, intOfText_word, (code_text hc.2).1, h2 3,
      nodeBcs_binary hc (us := (x :: v).take 3) (by rw [List.length_take]; omega), pure, Except.pure]

theorem datCode_binary (b : KDict ℤ ℝ) : BinaryCode (datCode b) := by
  refine ⟨by simp [datCode], ?_⟩
  intro c hc
  unfold datCode at hc
  obtain ⟨d, -, rfl⟩ := List.mem_map.mp hc
  split_ifs <;> simp

theorem mem_prescribed_dat {rd : ℝ → ℝ} {nDim : ℕ} {b : KDict ℤ ℝ} {d : ℕ} {v : ℝ} :
    (d, v) ∈ prescribedOf rd (datCode b) ((datDisps nDim b).take 3) ↔
      1 ≤ d ∧ d ≤ 3 ∧ ∃ u, b.get? ((d : ℤ) - 1) = some u ∧ v = rd u := by
  have h3 : (datDisps nDim b).take 3 = [(b.get? 0).getD 0, (b.get? 1).getD 0, (b.get? 2).getD 0] := by
    unfold datDisps
    simp [List.range_succ]
  have hc : datCode b = [if (b.get? 0).isSome then 1 else 0, if (b.get? 1).isSome then 1 else 0,
      if (b.get? 2).isSome then 1 else 0] := by
    unfold datCode
    simp [List.range_succ]
  rw [h3, hc]
  unfold prescribedOf
  simp only [List.zip_cons_cons, List.zip_nil_right, List.zipIdx_cons, List.zipIdx_nil, List.mem_filterMap,
    List.mem_cons, List.not_mem_nil, or_false]
  constructor
  · rintro ⟨p, (rfl | rfl | rfl), hp⟩
    · cases h : b.get? 0 with
      | none => simp [h] at hp
      | some u =>
        simp [h] at hp
        obtain ⟨rfl, rfl⟩ := hp
        exact ⟨by norm_num, by norm_num, u, by simpa using h, rfl⟩
    · cases h : b.get? 1 with
      | none => simp [h] at hp
      | some u =>
        simp [h] at hp
        obtain ⟨rfl, rfl⟩ := hp
        exact ⟨by norm_num, by norm_num, u, by simpa using h, rfl⟩
    · cases h : b.get? 2 with
      | none => simp [h] at hp
      | some u =>
        simp [h] at hp
        obtain ⟨rfl, rfl⟩ := hp
        exact ⟨by norm_num, by norm_num, u, by simpa using h, rfl⟩
  · rintro ⟨h1, h2, u, hu, rfl⟩
    obtain rfl | rfl | rfl : d = 1 ∨ d = 2 ∨ d = 3 := by omega
    · refine ⟨_, .inl rfl, ?_⟩
      have : b.get? 0 = some u := by simpa using hu
      simp [this]
    · refine ⟨_, .inr (.inl rfl), ?_⟩
      have : b.get? 1 = some u := by simpa using hu
      simp [this]
    · refine ⟨_, .inr (.inr rfl), ?_⟩
      have : b.get? 2 = some u := by simpa using hu
      simp [this]

/-! ## The Links file -/

/-- The lines of the nodes. -/
def datNodeTexts (F : NumberText) (coords : List (List ℝ)) : List Text :=
  (coords.zipIdx 1).map fun p => linksNodeText F p.2 p.1

/-- The lines of the elements. -/
def datElemTexts (conns : List (List ℤ)) : List Text :=
  (conns.zipIdx 1).map fun p => linksElemText p.2 1 p.1

/-- The lines of the prescribed displacements. -/
noncomputable def datDispTexts (F : NumberText) (nDim : ℕ) (bcs : InpBcs) : List Text :=
  (datLabels bcs).map fun n => codeDispText F n (datCode ((bcs.get? n).getD []))
    (datDisps nDim ((bcs.get? n).getD []))

/-- The lines of the file. -/
noncomputable def datTexts (F : NumberText) (nDim : ℕ) (coords : List (List ℝ))
    (conns : List (List ℤ)) (bcs : InpBcs) : List Text :=
  [] :: linksElemKey conns.length :: (datElemTexts conns ++ ([] :: linksNodeKey coords.length
    :: (datNodeTexts F coords ++ ([] :: linksDispKey bcs.length :: datDispTexts F nDim bcs))))

theorem datElementLines_eq {d : KDict ℤ (List ℤ)} {conns : List (List ℤ)} (h : ElementsInOrder d conns) :
    datElementLines d = .ok ((datElemTexts conns).map (· ++ ['\n'])) := by
  unfold datElementLines
  have hg : (datElemTexts conns).map (· ++ ['\n']) = (List.range d.length).map fun i =>
      linksElemText (i + 1) 1 (conns[i]?.getD []) ++ ['\n'] := by
    unfold datElemTexts
    rw [List.map_map, ← h.1]
    apply List.ext_getElem
    · simp
    · intro i h1 h2
      simp only [List.length_map, List.length_zipIdx] at h1
      simp [h1, Nat.add_comm]
  rw [hg]
  refine mapM_of_forall fun i hi => ?_
  rw [List.mem_range] at hi
  rw [h.2 i hi]
  have : i < conns.length := by rw [h.1]; exact hi
  rw [List.getElem?_eq_getElem this]
  simp only [orRaise, bind, Except.bind, pure, Except.pure, Option.getD_some]
  unfold linksElemText
  rfl

theorem inpToDat_lines {F : NumberText} {rd : ℝ → ℝ} (hF : FaithfulText F rd) {nDim : ℕ} {file : Text}
    {coords : List (List ℝ)} {d : KDict ℤ (List ℤ)} {bcs : InpBcs} {conns : List (List ℤ)}
    (h1 : inpNodes F nDim (fileLines file) = .ok coords)
    (h2 : inpElements coords.length (fileLines file) = .ok d)
    (h3 : inpBoundary F (fileLines file) = .ok bcs) (ho : ElementsInOrder d conns) :
    ∃ dat, inpToDat F nDim file = .ok dat ∧ fileLines dat = datTexts F nDim coords conns bcs := by
  refine ⟨_, by
    unfold inpToDat
    rw [h1]
    simp only [bind, Except.bind]
    rw [h2, h3]
    simp only
    rw [datElementLines_eq ho]
    rfl, ?_⟩
  rw [← fileLines_flatten (datTexts F nDim coords conns bcs)]
  · congr 1
    have e1 : datNodeLines F coords = (datNodeTexts F coords).map (· ++ ['\n']) := by
      unfold datNodeLines datNodeTexts linksNodeText
      rw [List.map_map]
      refine List.map_congr_left fun p _ => ?_
      simp
    have e2 : (datLabels bcs).map (datDispLine F nDim bcs)
        = (datDispTexts F nDim bcs).map (· ++ ['\n']) := by
      unfold datDispTexts
      rw [List.map_map]
      exact List.map_congr_left fun n _ => datDispLine_eq F nDim bcs n
    rw [e1, e2, ← ho.1]
    unfold datTexts linksElemKey linksNodeKey linksDispKey
    simp
  · intro l hl
    unfold datTexts at hl
    simp only [List.mem_cons, List.mem_append] at hl
    rcases hl with rfl | rfl | hl | rfl | rfl | hl | rfl | rfl | hl
    · simp
    · unfold linksElemKey
      rw [List.mem_append, List.mem_cons]
      rintro (h | h | h)
      · exact absurd h (by decide)
      · exact absurd h (by decide)
      · exact newline_strNat _ h
    · obtain ⟨p, -, rfl⟩ := List.mem_map.mp hl
      exact (linksElemText_data _ _ _).noNewline
    · simp
    · unfold linksNodeKey
      rw [List.mem_append, List.mem_cons, List.mem_append]
      rintro (h | h | h | h)
      · exact absurd h (by decide)
      · exact absurd h (by decide)
      · exact newline_strNat _ h
      · exact absurd h (by decide)
    · obtain ⟨p, -, rfl⟩ := List.mem_map.mp hl
      exact (linksNodeText_data hF _ _).noNewline
    · simp
    · unfold linksDispKey
      rw [List.mem_append, List.mem_cons]
      rintro (h | h | h)
      · exact absurd h (by decide)
      · exact absurd h (by decide)
      · exact newline_strNat _ h
    · obtain ⟨p, -, rfl⟩ := List.mem_map.mp hl
      exact (codeDispText_data hF _ _ _).noNewline

theorem datLabels_lt {bcs : InpBcs} (h : bcs.keys.Nodup) : (datLabels bcs).Pairwise (· < ·) := by
  have h1 : (datLabels bcs).Pairwise (· ≤ ·) := List.pairwise_insertionSort _ _
  have h2 : (datLabels bcs).Nodup := by
    unfold datLabels
    exact (List.perm_insertionSort _ _).nodup_iff.mpr h
  exact (h1.and h2).imp fun ⟨a, b⟩ => lt_of_le_of_ne a b

theorem dispEvent_labels {F : NumberText} {f : ℤ → Text} {g : ℤ → KDict ℕ ℝ} (ns : List ℤ)
    (hn : ns.Nodup) (h : ∀ n ∈ ns, dispLine F (f n) = .ok (n, g n)) (acc : DirichletBcs)
    (ha : ∀ n ∈ ns, n ∉ acc.keys) :
    (((ns.map f).map ScanEvent.data).foldlM (dispEvent F) (some acc))
      = .ok (some (acc ++ ns.map fun n => (n, g n))) := by
  induction ns generalizing acc with
  | nil => simp [pure, Except.pure]
  | cons n ns ih =>
    rw [List.map_cons, List.map_cons, List.foldlM_cons]
    have h1 : dispEvent F (some acc) (ScanEvent.data (f n)) = .ok (some (acc ++ [(n, g n)])) := by
      unfold dispEvent
      dsimp only
      rw [h n (by simp)]
      simp only [orRaise, bind, Except.bind, pure, Except.pure]
      rw [put_of_notMem _ _ _ (ha n (by simp))]
    rw [h1]
    rw [List.nodup_cons] at hn
    have := ih hn.2 (fun b hb => h b (by simp [hb])) (acc ++ [(n, g n)]) (by
      intro m hm
      unfold KDict.keys
      rw [List.map_append, List.mem_append, not_or]
      refine ⟨ha m (by simp [hm]), ?_⟩
      simp only [List.map_cons, List.map_nil, List.mem_singleton]
      rintro rfl
      exact hn.1 hm)
    simp only [bind, Except.bind]
    rw [this]
    simp

/-- The sections of the file are read. -/
theorem dat_sections {F : NumberText} {rd : ℝ → ℝ} (hF : FaithfulText F rd) {nDim : ℕ} {dat : Text}
    {coords : List (List ℝ)} {conns : List (List ℤ)} {bcs : InpBcs}
    (hf : fileLines dat = datTexts F nDim coords conns bcs)
    (hw : ∃ w, ∀ r ∈ coords, r.length = w) (hk : ∃ k, ∀ e ∈ conns, e.length = k)
    (hn : bcs.keys.Nodup) (hb : ∀ n b, bcs.get? n = some b →
      (F.fmt ((b.get? 0).getD 0)).head? = some ' ') :
    extractCoords F dat = .ok (coords.map fun r => r.map rd) ∧
    extractConns dat = .ok conns ∧
    extractBcs F dat = .ok ((datLabels bcs).map fun n => (n,
      prescribedOf rd (datCode ((bcs.get? n).getD [])) ((datDisps nDim ((bcs.get? n).getD [])).take 3))) := by
  have hels : ∀ kw : Text, 'S' ∈ kw → ∀ l ∈ datElemTexts conns, searchWord kw l = false := by
    intro kw hk l hl
    obtain ⟨i, -, rfl⟩ := List.mem_map.mp hl
    exact (linksElemText_data _ _ _).noLinksKey hk
  have hnds : ∀ kw : Text, 'S' ∈ kw → ∀ l ∈ datNodeTexts F coords, searchWord kw l = false := by
    intro kw hk l hl
    obtain ⟨i, -, rfl⟩ := List.mem_map.mp hl
    exact (linksNodeText_data hF _ _).noLinksKey hk
  refine ⟨?_, ?_, ?_⟩
  · unfold extractCoords
    obtain ⟨fs, hfs, -⟩ := splitBlank_key (kw := "NODE_COORDINATES".toList) (by decide) (by decide)
      coords.length "CARTESIAN".toList
    rw [extractRows_section (kw := "NODE_COORDINATES".toList) (coords.zipIdx 1)
      (f := fun p => linksNodeText F p.2 p.1) (g := fun p => p.1.map rd) (n := coords.length) (fs := fs)
      (key := linksNodeKey coords.length)
      (pre := [] :: linksElemKey conns.length :: (datElemTexts conns ++ [[]]))
      (post := linksDispKey bcs.length :: datDispTexts F nDim bcs)]
    · exact congrArg Except.ok (zipIdx_map_fst coords 1 fun r => r.map rd)
    · rw [hf]
      unfold datTexts datNodeTexts
      simp
    · intro l hl
      rw [List.mem_cons, List.mem_cons, List.mem_append, List.mem_singleton] at hl
      rcases hl with rfl | rfl | hl | rfl
      · decide
      · exact (linksElemKey_noKey _).1
      · exact hels _ (by decide) l hl
      · decide
    · exact linksNodeKey_key _
    · exact hfs
    · intro p _
      exact ⟨(linksNodeText_data hF _ _).noLinksKey (by decide), (linksNodeText_data hF _ _).noEnd,
        nodeRow hF _ _⟩
    · decide
    · obtain ⟨w, hw⟩ := hw
      refine ⟨w, fun p hp => ?_⟩
      rw [List.length_map]
      exact hw _ (List.fst_mem_of_mem_zipIdx hp)
  · unfold extractConns
    obtain ⟨-, -, hfs⟩ := splitBlank_key (kw := "ELEMENTS".toList) (by decide) (by decide)
      conns.length []
    rw [extractRows_section (kw := "ELEMENTS".toList) (conns.zipIdx 1)
      (f := fun p => linksElemText p.2 1 p.1) (g := fun p => p.1) (n := conns.length) (fs := [])
      (key := linksElemKey conns.length) (pre := [[]])
      (post := linksNodeKey coords.length :: (datNodeTexts F coords
        ++ ([] :: linksDispKey bcs.length :: datDispTexts F nDim bcs)))]
    · have := zipIdx_map_fst conns 1 id
      rw [List.map_id] at this
      exact congrArg Except.ok this
    · rw [hf]
      unfold datTexts datElemTexts
      simp
    · decide
    · exact linksElemKey_key _
    · exact hfs
    · intro p _
      exact ⟨(linksElemText_data _ _ _).noLinksKey (by decide), (linksElemText_data _ _ _).noEnd,
        elemRow _ (by norm_num)⟩
    · decide
    · obtain ⟨w, hw⟩ := hk
      exact ⟨w, fun p hp => hw _ (List.fst_mem_of_mem_zipIdx hp)⟩
  · have hf' : fileLines dat = ([] :: linksElemKey conns.length :: (datElemTexts conns
        ++ ([] :: linksNodeKey coords.length :: (datNodeTexts F coords ++ [[]]))))
        ++ (linksDispKey bcs.length :: (datDispTexts F nDim bcs ++ [])) := by
      rw [hf]
      unfold datTexts
      simp
    unfold extractBcs
    rw [hf', scanLines_skip, scanLines_key _ _ (linksDispKey_key _), scanLines_data,
      show scanLines (searchWord "NODES_WITH_PRESCRIBED_DISPLACEMENTS".toList) true true [] = []
        from rfl, List.append_nil, List.foldlM_cons]
    · have h1 : dispEvent F none (ScanEvent.key (linksDispKey bcs.length)) = .ok (some []) := rfl
      rw [h1]
      have h2 := dispEvent_labels (F := F)
        (f := fun n => codeDispText F n (datCode ((bcs.get? n).getD []))
          (datDisps nDim ((bcs.get? n).getD [])))
        (g := fun n => prescribedOf rd (datCode ((bcs.get? n).getD []))
          ((datDisps nDim ((bcs.get? n).getD [])).take 3)) (datLabels bcs)
        ((datLabels_lt hn).imp fun h => ne_of_lt h) (by
          intro n hn'
          refine dispLine_code hF n (datCode_binary _) (by unfold datDisps; simp) ?_
          intro x hx
          unfold datLabels at hn'
          rw [List.mem_insertionSort, KDict.mem_keys_iff] at hn'
          obtain ⟨b, hb'⟩ := hn'
          rw [hb'] at hx
          have : x = (b.get? 0).getD 0 := by
            unfold datDisps at hx
            simp [List.range_succ] at hx
            exact hx.symm
          rw [this]
          exact hb n b hb') [] (by simp [KDict.keys])
      simp only [bind, Except.bind]
      unfold datDispTexts
      rw [h2]
      rfl
    · intro l hl
      obtain ⟨i, -, rfl⟩ := List.mem_map.mp hl
      exact (codeDispText_data hF _ _ _).noLinksKey (by decide)
    · intro l hl
      obtain ⟨i, -, rfl⟩ := List.mem_map.mp hl
      exact (codeDispText_data hF _ _ _).noEnd
    · intro l hl
      rw [List.mem_cons, List.mem_cons, List.mem_append, List.mem_cons, List.mem_cons,
        List.mem_append, List.mem_singleton] at hl
      rcases hl with rfl | rfl | hl | rfl | rfl | hl | rfl
      · decide
      · exact (linksElemKey_noKey _).2
      · exact hels _ (by decide) l hl
      · decide
      · exact linksNodeKey_noKey _
      · exact hnds _ (by decide) l hl
      · decide

end Hooke
