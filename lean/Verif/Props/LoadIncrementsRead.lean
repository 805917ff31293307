import Verif.Props.LoadIncrements
import Verif.Props.LinksFileCases
import Verif.Props.SpecimenMeshCases

/-!
# C110: reading the load increments of a Links simulation
-/

noncomputable section

namespace Hooke

open Spec

/-! ### Lines -/

theorem fileLines_section (ls : List Text) (h : ∀ l ∈ ls, '\n' ∉ l) (A B : Text) :
    fileLines (A ++ ((ls.map ('\n' :: ·)).flatten ++ '\n' :: B))
      = splitText (· == '\n') A ++ (ls ++ fileLines B) := by
  induction ls generalizing A with
  | nil => simp only [List.map_nil, List.flatten_nil, List.nil_append]; exact fileLines_append A B
  | cons l ls ih =>
    simp only [List.map_cons, List.flatten_cons, List.append_assoc, List.cons_append]
    rw [fileLines_append, ih (fun m hm => h m (by simp [hm])) l, splitText_none (p := (· == '\n')) (s := l)]
    · rfl
    · intro c hc
      simp only [beq_eq_false_iff_ne, ne_eq]
      rintro rfl
      exact h l (by simp) hc

theorem fileLines_no_end {s : Text} {c : Char} (hc : c ≠ '\n') :
    fileLines (s ++ [c]) = fileLines (s ++ [c] ++ ['\n']) := by
  have h1 : fileLines (s ++ [c] ++ ['\n']) = splitText (· == '\n') (s ++ [c]) := by
    rw [fileLines_append, show fileLines [] = [] from rfl, List.append_nil]
  rw [h1]
  clear h1
  have hlast : (splitText (· == '\n') (s ++ [c])).getLast? ≠ some [] := by
    induction s with
    | nil => simp [splitText, hc]
    | cons d ds ih =>
      simp only [List.cons_append]
      unfold splitText
      split
      · rw [List.getLast?_cons_of_ne_nil (splitText_ne_nil _ _)]
        exact ih
      · have hne := splitText_ne_nil (· == '\n') (ds ++ [c])
        rcases hr : splitText (· == '\n') (ds ++ [c]) with _ | ⟨x, xs⟩
        · exact absurd hr hne
        · rw [hr] at ih
          cases xs with
          | nil => simp
          | cons y ys => simpa [List.getLast?_cons_cons] using ih
  unfold fileLines
  rw [if_neg hlast]

/-! ### The reader -/

theorem incrementFree_line {s l : Text} (h : IncrementFree s) (hl : l ∈ splitText (· == '\n') s) :
    searchWord "Number_of_Increments".toList l = false ∧ searchWord "INCREMENTS".toList l = false := by
  obtain ⟨x, y, hxy⟩ := splitText_infix hl
  constructor
  · by_contra hf
    rw [Bool.not_eq_false] at hf
    obtain ⟨a, w, b, rfl, hw⟩ := searchWord_some hf
    refine h ⟨x ++ a ++ w.take 10, w.drop 10, b ++ y, ?_, ?_⟩
    · rw [← hxy]
      conv_lhs => rw [← List.take_append_drop 10 w]
      simp only [List.append_assoc]
    · rw [List.map_drop, hw]
      decide
  · by_contra hf
    rw [Bool.not_eq_false] at hf
    obtain ⟨a, w, b, rfl, hw⟩ := searchWord_some hf
    exact h ⟨x ++ a, w, b ++ y, by rw [← hxy]; simp, by rw [hw]; decide⟩

theorem readLoad_skip (F : NumberText) {A : Text} (hA : IncrementFree A) (rest : List Text) :
    readLoad F none (splitText (· == '\n') A ++ rest) = readLoad F none rest := by
  have key : ∀ ls : List Text, (∀ l ∈ ls, searchWord "Number_of_Increments".toList l = false ∧
      searchWord "INCREMENTS".toList l = false) → readLoad F none (ls ++ rest) = readLoad F none rest := by
    intro ls
    induction ls with
    | nil => intro _; rfl
    | cons l ls ih =>
      intro h
      obtain ⟨h1, h2⟩ := h l (by simp)
      rw [List.cons_append, readLoad, if_neg (Bool.eq_false_iff.mp h1), if_neg (Bool.eq_false_iff.mp h2)]
      exact ih fun m hm => h m (by simp [hm])
  exact key _ fun l hl => incrementFree_line hA hl

/-- The line of an increment, without the newline before it. -/
def incrementText (F : NumberText) (x : ℝ) : Text :=
  "1.0".toList ++ ' ' :: (F.fmt x ++ ' ' :: ("1.00000000e-06".toList ++ ' ' :: ' ' :: ' ' :: "20".toList))

theorem strNat_twenty : strNat 20 = "20".toList := by
  simp [strNat]

theorem incrementLine_eq (F : NumberText) (x : ℝ) : incrementLine F x = '\n' :: incrementText F x := by
  unfold incrementLine incrementText convTol
  rw [strNat_twenty]
  simp

theorem incrementText_data {F : NumberText} {rd : ℝ → ℝ} (hF : FaithfulText F rd) (x : ℝ) :
    DataText (incrementText F x) := by
  obtain ⟨k, w, hf, hne, hw, -⟩ := hF.fmt x
  have hlit : ∀ s : Text, (∀ c ∈ s, c.isDigit = true ∨ c ∈ ['.', '-', 'e', ' ']) → ∀ c ∈ s, LineChar c := by
    intro s hs c hc
    rcases hs c hc with h | h
    · exact .inl (.inl h)
    · simp only [List.mem_cons, List.not_mem_nil, or_false] at h
      rcases h with rfl | rfl | rfl | rfl
      · exact .inl (.inr (by decide))
      · exact .inl (.inr (by decide))
      · exact .inl (.inr (by decide))
      · exact .inr (.inl rfl)
  refine ⟨fun c hc => ?_, '1', by simp [incrementText], by decide⟩
  unfold incrementText at hc
  simp only [List.mem_append, List.mem_cons] at hc
  rcases hc with hc | rfl | hc | rfl | hc | rfl | rfl | rfl | hc
  · exact hlit _ (by decide) c hc
  · exact .inr (.inl rfl)
  · rw [hf, List.mem_append] at hc
    rcases hc with hc | hc
    · exact .inr (.inl (List.eq_of_mem_replicate hc))
    · exact .inl (hw c hc)
  · exact .inr (.inl rfl)
  · exact hlit _ (by decide) c hc
  · exact .inr (.inl rfl)
  · exact .inr (.inl rfl)
  · exact .inr (.inl rfl)
  · exact hlit _ (by decide) c hc

theorem lineFactor_increment {F : NumberText} {rd : ℝ → ℝ} (hF : FaithfulText F rd) (x : ℝ) :
    lineFactor F (incrementText F x) = .ok (rd x) := by
  obtain ⟨k, w, hf, hne, hw, hp⟩ := hF.fmt x
  have hb : ∀ c ∈ w, isBlankChar c = false := fun c hc => isBlankChar_numeral (hw c hc)
  have hsplit : splitBlank (incrementText F x)
      = ["1.0".toList, w, "1.00000000e-06".toList, "20".toList] := by
    unfold incrementText
    rw [splitBlank_append (by decide), splitBlank_append (by decide), hf, splitBlank_blanks,
      splitBlank_word hne hb, splitBlank_append (by decide), splitBlank_space, splitBlank_space,
      splitBlank_word (w := "1.0".toList) (by decide) (by decide),
      splitBlank_word (w := "1.00000000e-06".toList) (by decide) (by decide),
      splitBlank_word (w := "20".toList) (by decide) (by decide)]
    rfl
  unfold lineFactor
  rw [hsplit]
  dsimp only
  unfold NumberText.float
  have := stripText_word 0 hb
  simp only [List.replicate_zero, List.nil_append] at this
  rw [this, hp]
  rfl

theorem loadTotals_concat (fs : List ℝ) (x : ℝ) :
    loadTotals (fs ++ [x]) = loadTotals fs ++ [(loadTotals fs).getLastD 0 + x] := by
  have hlast : (loadTotals fs).getLastD 0 = fs.sum := by
    unfold loadTotals
    rw [List.range_succ, List.map_append]
    simp [List.getLastD_eq_getLast?, totalFactor]
  rw [hlast]
  unfold loadTotals
  rw [List.length_append, List.length_singleton, List.range_succ, List.map_append]
  congr 1
  · refine List.map_congr_left fun k hk => ?_
    have := List.mem_range.mp hk
    unfold totalFactor
    rw [List.take_append_of_le_length (by omega)]
  · simp [totalFactor, List.take_of_length_le]

theorem loadTotals_length (fs : List ℝ) : (loadTotals fs).length = fs.length + 1 := by
  simp [loadTotals]

theorem padZeros_self (l : List ℝ) : padZeros l.length l = l := by
  unfold padZeros
  have := range_getD l 0
  simpa [List.getD_eq_getElem?_getD] using this

theorem TfactState.hist_full {n : ℕ} {done : List ℝ} (h : done.length = n) :
    TfactState.hist ⟨(n : ℤ), 0 :: done, loadTotals done⟩ = ⟨(n : ℤ), 0 :: done, loadTotals done⟩ := by
  subst h
  unfold TfactState.hist
  have e : (((done.length : ℕ) : ℤ) + 1).toNat = done.length + 1 := by omega
  simp only [e]
  congr 1
  · exact padZeros_self (0 :: done)
  · have := padZeros_self (loadTotals done)
    rwa [loadTotals_length] at this

theorem readLoad_data {F : NumberText} {rd : ℝ → ℝ} (hF : FaithfulText F rd) (n : ℕ) {rest : List Text}
    (hrest : rest = [] ∨ rest.head? = some []) (fs done : List ℝ) (hn : done.length + fs.length = n) :
    readLoad F (some ⟨(n : ℤ), 0 :: done, loadTotals done⟩) (fs.map (incrementText F) ++ rest)
      = .ok ⟨(n : ℤ), 0 :: (done ++ fs.map rd), loadTotals (done ++ fs.map rd)⟩ := by
  induction fs generalizing done with
  | nil =>
    simp only [List.map_nil, List.nil_append, List.append_nil]
    have hd : done.length = n := by simpa using hn
    rcases hrest with rfl | h
    · rw [readLoad, TfactState.hist_full hd]
    · cases rest with
      | nil => cases h
      | cons l ls =>
        simp only [List.head?_cons, Option.some.injEq] at h
        subst h
        rw [readLoad, if_neg (by decide), if_neg (by decide)]
        rw [if_pos (by decide), TfactState.hist_full hd]
  | cons x fs ih =>
    have hx := incrementText_data hF x
    have hk1 := hx.noLinksKey (kw := "INCREMENTS".toList) (by decide)
    have hk2 : searchWord "Number_of_Increments".toList (incrementText F x) = false :=
      searchWord_false (c := 's') (by decide) fun d hd => lineChar_S (hx.chars d hd)
    simp only [List.length_cons] at hn
    rw [List.map_cons, List.cons_append, readLoad, if_neg (Bool.eq_false_iff.mp hk2), if_neg (Bool.eq_false_iff.mp hk1)]
    rw [if_neg (Bool.eq_false_iff.mp hx.noEnd), lineFactor_increment hF]
    have hpush : TfactState.push ⟨(n : ℤ), 0 :: done, loadTotals done⟩ (rd x)
        = .ok ⟨(n : ℤ), 0 :: (done ++ [rd x]), loadTotals (done ++ [rd x])⟩ := by
      unfold TfactState.push
      rw [(raiseIf_ok (u := ())).mpr (by simp only [List.length_cons]; omega)]
      rw [loadTotals_concat]
      rfl
    simp only [bind, Except.bind, hpush]
    rw [ih (done ++ [rd x]) (by simp; omega)]
    simp

/-- The keyword line. -/
def incrementsKey (n : ℕ) : Text := "INCREMENTS".toList ++ ' ' :: strNat n

theorem startLoad_key {kw l : Text} {n : ℕ} (h : splitBlank l = [kw, strNat n]) :
    startLoad l = .ok ⟨(n : ℤ), [0], [0]⟩ := by
  obtain ⟨h1, h2⟩ := keyCount (fs := []) h
  unfold startLoad
  rw [h1]
  simp only [bind, Except.bind, h2]
  rw [(raiseIf_ok (u := ())).mpr (by omega)]
  rfl

theorem readLoad_section {F : NumberText} {rd : ℝ → ℝ} (hF : FaithfulText F rd) (fs : List ℝ)
    {rest : List Text} (hrest : rest = [] ∨ rest.head? = some []) :
    readLoad F none (incrementsKey fs.length :: (fs.map (incrementText F) ++ rest))
      = .ok ⟨(fs.length : ℤ), 0 :: fs.map rd, loadTotals (fs.map rd)⟩ := by
  have h1 : searchWord "Number_of_Increments".toList (incrementsKey fs.length) = false := by
    refine searchWord_false (c := '_') (by decide) fun d hd => ?_
    unfold incrementsKey at hd
    simp only [List.mem_append, List.mem_cons] at hd
    rcases hd with hd | rfl | hd
    · revert d; decide
    · decide
    · exact digit_ne_letter (by decide) (isDigit_of_mem_strNat hd)
  have h2 : searchWord "INCREMENTS".toList (incrementsKey fs.length) = true :=
    searchWord_prefix _ _ rfl (by decide)
  obtain ⟨-, -, hs⟩ := splitBlank_key (kw := "INCREMENTS".toList) (by decide) (by decide) fs.length []
  rw [readLoad, if_neg (Bool.eq_false_iff.mp h1), if_pos h2, startLoad_key (l := incrementsKey fs.length) hs]
  have := readLoad_data hF fs.length hrest fs [] (by simp)
  simp only [bind, Except.bind]
  simpa [loadTotals, totalFactor] using this

theorem loadFactors_length {loading : String} {nReverse nInc : ℕ} {d : LoadDraws} {fs : List ℝ}
    (h : loadFactors loading nReverse nInc d = .ok fs) : fs.length = nInc := by
  unfold loadFactors at h
  split_ifs at h with hl hp
  · rw [((C110_cyclic hl nReverse nInc fs).mp h).2]
    simp
  · unfold polynomialFactors at h
    obtain ⟨t, -, h⟩ := bind_ok h
    rw [mapM_length h, List.length_range]

theorem incrementsKey_eq (n : ℕ) : "\nINCREMENTS ".toList ++ strNat n = '\n' :: incrementsKey n := by
  have : "\nINCREMENTS ".toList = '\n' :: ("INCREMENTS".toList ++ [' ']) := by decide
  rw [this]
  unfold incrementsKey
  generalize "INCREMENTS".toList = t
  simp

theorem lines_flatten (F : NumberText) (n : ℕ) (fs : List ℝ) (E : Text) :
    (("\nINCREMENTS ".toList ++ strNat n) :: (fs.map (incrementLine F))).flatten ++ E
      = ((incrementsKey n :: fs.map (incrementText F)).map ('\n' :: ·)).flatten ++ E := by
  rw [incrementsKey_eq, List.map_cons, List.map_map]
  rw [show (fs.map (incrementLine F)) = fs.map ((fun l => '\n' :: l) ∘ incrementText F) from
    List.map_congr_left fun x _ => incrementLine_eq F x]

theorem section_newline {F : NumberText} {rd : ℝ → ℝ} (hF : FaithfulText F rd) (n : ℕ) (fs : List ℝ) :
    ∀ l ∈ incrementsKey n :: fs.map (incrementText F), '\n' ∉ l := by
  intro l hl
  rcases List.mem_cons.mp hl with rfl | hl
  · unfold incrementsKey
    simp only [List.mem_append, List.mem_cons, not_or]
    exact ⟨by decide, by decide, newline_strNat n⟩
  · obtain ⟨x, -, rfl⟩ := List.mem_map.mp hl
    exact (incrementText_data hF x).noNewline

theorem section_last {F : NumberText} (n : ℕ) (fs : List ℝ) :
    ∃ s c, c ≠ '\n' ∧
      ((incrementsKey n :: fs.map (incrementText F)).map ('\n' :: ·)).flatten = s ++ [c] := by
  rcases List.eq_nil_or_concat fs with rfl | ⟨gs, x, rfl⟩
  · obtain ⟨s, c, hs⟩ : ∃ s c, strNat n = s ++ [c] := by
      rcases List.eq_nil_or_concat (strNat n) with h | ⟨s, c, h⟩
      · exact absurd h (strNat_ne_nil n)
      · exact ⟨s, c, by rw [h]; simp⟩
    refine ⟨'\n' :: ("INCREMENTS".toList ++ ' ' :: s), c, ?_, ?_⟩
    · rintro rfl
      exact newline_strNat n (by rw [hs]; simp)
    · unfold incrementsKey
      rw [hs]
      generalize "INCREMENTS".toList = t
      simp
  · obtain ⟨t, ht⟩ : ∃ t, incrementText F x = t ++ ['0'] := by
      have e : "20".toList = ['2'] ++ ['0'] := by decide
      refine ⟨"1.0".toList ++ ' ' :: (F.fmt x ++ ' ' :: ("1.00000000e-06".toList
        ++ ' ' :: ' ' :: ' ' :: ['2'])), ?_⟩
      unfold incrementText
      rw [e]
      generalize "1.0".toList = a
      generalize "1.00000000e-06".toList = b
      simp
    refine ⟨((incrementsKey n :: gs.map (incrementText F)).map ('\n' :: ·)).flatten ++ '\n' :: t,
      '0', by decide, ?_⟩
    rw [List.concat_eq_append, List.map_append, List.map_singleton, ht, ← List.cons_append,
      List.map_append, List.flatten_append]
    simp

/-- **C110 (reading).** The load factors read from a file with the increments of a simulation are its
increments, rounded to the digits written, and their totals; the file may begin with any text in which
the word "increments" does not occur, and may end or go on with a blank line after the increments. -/
theorem C110_read {F : NumberText} {rd : ℝ → ℝ} (hF : FaithfulText F rd) {S : LoadSettings}
    {d : LoadDraws} (hmode : S.mode = "increment_list") {fs : List ℝ}
    (hfs : loadFactors S.loading S.nReverse S.nInc d = .ok fs) {A T : Text} (hA : IncrementFree A)
    (hT : T = [] ∨ ∃ B, T = "\n\n".toList ++ B) :
    ∃ lines, loadLines F S d = .ok lines ∧ readLoadFile F (A ++ lines.flatten ++ T)
      = .ok ⟨(S.nInc : ℤ), 0 :: fs.map rd, loadTotals (fs.map rd)⟩ := by
  have hlen := loadFactors_length hfs
  refine ⟨_, by
    unfold loadLines
    rw [if_neg (by rw [hmode]; decide), if_pos hmode, hfs]
    rfl, ?_⟩
  unfold readLoadFile
  have hflat : ∀ E : List Text, (("\nINCREMENTS ".toList ++ strNat S.nInc)
      :: (fs.map (incrementLine F) ++ E)).flatten
      = ((incrementsKey S.nInc :: fs.map (incrementText F)).map ('\n' :: ·)).flatten ++ E.flatten := by
    intro E
    rw [← lines_flatten]
    simp
  rw [hflat]
  have key : ∃ rest, (rest = [] ∨ rest.head? = some []) ∧
      fileLines (A ++ (((incrementsKey S.nInc :: fs.map (incrementText F)).map ('\n' :: ·)).flatten
        ++ (if S.loading = "polynomial" then [] else ["\n".toList]).flatten) ++ T)
        = splitText (· == '\n') A ++ ((incrementsKey S.nInc :: fs.map (incrementText F)) ++ rest) := by
    have hn := section_newline hF S.nInc fs
    by_cases hp : S.loading = "polynomial"
    · rw [if_pos hp]
      rcases hT with rfl | ⟨B, rfl⟩
      · refine ⟨[], .inl rfl, ?_⟩
        obtain ⟨s, c, hc, hs⟩ := section_last (F := F) S.nInc fs
        simp only [List.flatten_nil, List.append_nil]
        have h1 := fileLines_section _ hn A []
        rw [hs] at h1 ⊢
        have h2 := fileLines_no_end (s := A ++ s) hc
        simp only [List.append_assoc] at h1 h2 ⊢
        rw [h2, h1]
        simp [show fileLines [] = [] from rfl]
      · refine ⟨fileLines ('\n' :: B), .inr ?_, ?_⟩
        · have := fileLines_append [] B
          rw [List.nil_append] at this
          rw [this]
          rfl
        · rw [← fileLines_section _ hn A ('\n' :: B)]
          simp
    · rw [if_neg hp]
      refine ⟨fileLines T, ?_, ?_⟩
      · rcases hT with rfl | ⟨B, rfl⟩
        · exact .inl rfl
        · right
          have := fileLines_append [] ('\n' :: B)
          rw [List.nil_append] at this
          show (fileLines ('\n' :: '\n' :: B)).head? = _
          rw [this]
          rfl
      · rw [← fileLines_section _ hn A T]
        simp
  obtain ⟨rest, hrest, hk⟩ := key
  rw [hk, readLoad_skip F hA, List.cons_append, ← hlen]
  exact readLoad_section hF fs hrest

/-- **C110 (number of increments).** In the mode with a number of increments only, which accepts
proportional loading alone, as many equal increments are read. -/
theorem C110_read_number {F : NumberText} {S : LoadSettings} {d : LoadDraws}
    (hmode : S.mode = "n_increments") {A T : Text} (hA : IncrementFree A) :
    (S.loading ≠ "proportional" → loadLines F S d = .error .runtimeError) ∧
    (S.loading = "proportional" → 0 < S.nInc → ∃ lines, loadLines F S d = .ok lines ∧
      readLoadFile F (A ++ lines.flatten ++ T) = .ok ⟨(S.nInc : ℤ),
        0 :: List.replicate S.nInc (1 / (S.nInc : ℝ)),
        loadTotals (List.replicate S.nInc (1 / (S.nInc : ℝ)))⟩) := by
  constructor
  · intro hl
    unfold loadLines raiseIf
    rw [if_pos hmode, if_pos hl]
    rfl
  · intro hl hpos
    have hlines : loadLines F S d = .ok ["\nNumber_of_Increments ".toList ++ strNat S.nInc ++ "\n".toList,
        "\nCONVERGENCE_TOLERANCE\n".toList ++ convTol ++ "\n".toList] := by
      unfold loadLines
      rw [if_pos hmode, (raiseIf_ok (u := ())).mpr (fun h => h hl)]
      rfl
    refine ⟨_, hlines, ?_⟩
    have hkey : "\nNumber_of_Increments ".toList = '\n' :: ("Number_of_Increments".toList ++ [' ']) := by
      decide
    have hnl : "\n".toList = ['\n'] := by decide
    obtain ⟨-, -, hs⟩ := splitBlank_key (kw := "Number_of_Increments".toList) (by decide) (by decide)
      S.nInc []
    have hnew : ∀ l ∈ ["Number_of_Increments".toList ++ ' ' :: strNat S.nInc], '\n' ∉ l := by
      intro l hl
      rw [List.mem_singleton] at hl
      subst hl
      simp only [List.mem_append, List.mem_cons, not_or]
      exact ⟨by decide, by decide, newline_strNat _⟩
    have h2 : searchWord "Number_of_Increments".toList
        ("Number_of_Increments".toList ++ ' ' :: strNat S.nInc) = true :=
      searchWord_prefix _ _ rfl (by decide)
    rw [hkey, hnl]
    clear hkey
    unfold readLoadFile
    have hf := fileLines_section _ hnew A
      ("\nCONVERGENCE_TOLERANCE\n".toList ++ convTol ++ ['\n'] ++ T)
    have key : readLoad F none (("Number_of_Increments".toList ++ ' ' :: strNat S.nInc)
        :: fileLines ("\nCONVERGENCE_TOLERANCE\n".toList ++ convTol ++ ['\n'] ++ T))
        = .ok ⟨(S.nInc : ℤ), 0 :: List.replicate S.nInc (1 / (S.nInc : ℝ)),
          loadTotals (List.replicate S.nInc (1 / (S.nInc : ℝ)))⟩ := by
      rw [readLoad, if_pos h2]
      unfold uniformLoad
      rw [startLoad_key hs]
      simp only [bind, Except.bind]
      rw [(raiseIf_ok (u := ())).mpr (by omega)]
      simp only
      rw [(raiseIf_ok (u := ())).mpr (by omega)]
      simp only [Int.toNat_natCast, Int.cast_natCast, pure, Except.pure]
      congr 2
      generalize (1 / (S.nInc : ℝ)) = x
      generalize S.nInc = n
      induction n with
      | zero => simp [loadTotals, totalFactor]
      | succ n ih =>
        rw [List.range_succ, List.foldl_append, ih, List.replicate_succ', loadTotals_concat]
        rfl
    have hfile : A ++ ([('\n' :: ("Number_of_Increments".toList ++ [' ']) ++ strNat S.nInc) ++ ['\n'],
        "\nCONVERGENCE_TOLERANCE\n".toList ++ convTol ++ ['\n']].flatten) ++ T
        = A ++ ((["Number_of_Increments".toList ++ ' ' :: strNat S.nInc].map ('\n' :: ·)).flatten
          ++ '\n' :: ("\nCONVERGENCE_TOLERANCE\n".toList ++ convTol ++ ['\n'] ++ T)) := by
      generalize "Number_of_Increments".toList = a
      generalize "\nCONVERGENCE_TOLERANCE\n".toList = b
      simp
    rw [hfile, hf, readLoad_skip F hA, List.singleton_append]
    exact key

/-- The text of a simulation before its increments. -/
def Spec.beforeIncrements (ip : LinksParams) : Text :=
  "\nTITLE \n".toList ++ ip.title ++ "\n\nANALYSIS_TYPE ".toList ++ ip.analysisType
    ++ "\n\nLARGE_STRAIN_FORMULATION ".toList ++ ip.largeStrain
    ++ "\n\nSOLUTION_ALGORITHM ".toList ++ ip.solutionAlgorithm ++ "\n".toList

theorem writeLinks_increments {F : NumberText} {nDim : ℕ} {ip : LinksParams} {increm : List Text}
    {phases : List ℕ} {T : Text} {g : ℕ} {materials : List Text} {cd : KDict ℕ (List ℝ)}
    {ed : KDict ℕ (List ℤ)} {phase : KDict ℕ ℕ} {disps : KDict ℕ (List (Option ℝ))} {file : Text}
    (h : writeLinksFile F nDim ip increm phases T g materials cd ed phase disps = .ok file) :
    ∃ B, file = beforeIncrements ip ++ increm.flatten ++ ("\n\n".toList ++ B) := by
  unfold writeLinksFile at h
  obtain ⟨els, -, h⟩ := bind_ok h
  obtain ⟨nds, -, h⟩ := bind_ok h
  obtain ⟨bcs, -, h⟩ := bind_ok h
  cases h
  have e1 : "\n\nSOLVER ".toList = "\n\n".toList ++ "SOLVER ".toList := by decide
  have e2 : "\n\nANALYSIS_TYPE ".toList = '\n' :: "\nANALYSIS_TYPE ".toList := by decide
  have e3 : "\n\nLARGE_STRAIN_FORMULATION ".toList = '\n' :: "\nLARGE_STRAIN_FORMULATION ".toList := by
    decide
  have e4 : "\n\nSOLUTION_ALGORITHM ".toList = '\n' :: "\nSOLUTION_ALGORITHM ".toList := by decide
  have e5 : "\n".toList = ['\n'] := by decide
  unfold linksHeader beforeIncrements
  rw [e1, e2, e3, e4, e5]
  generalize "\n\n".toList = x1
  generalize "SOLVER ".toList = x2
  generalize "\nANALYSIS_TYPE ".toList = x3
  generalize "\nLARGE_STRAIN_FORMULATION ".toList = x4
  generalize "\nSOLUTION_ALGORITHM ".toList = x5
  generalize "\nTITLE \n".toList = x6
  simp only [List.cons_append, List.flatten_cons, List.append_assoc, List.nil_append,
    List.flatten_append]
  exact ⟨_, rfl⟩

/-- **C110 (simulation).** The load factors read from the input data file of a simulation are the
increments prepared for it and their totals. -/
theorem C110_simulation {F : NumberText} {rd : ℝ → ℝ} (hF : FaithfulText F rd) {d : LoadDraws}
    {S : LoadSettings} (hmode : S.mode = "increment_list") {fs : List ℝ}
    (hfs : loadFactors S.loading S.nReverse S.nInc d = .ok fs) {lines : List Text}
    (hl : loadLines F S d = .ok lines) {nDim : ℕ} {ip : LinksParams}
    {phases : List ℕ} {T : Text} {g : ℕ} {materials : List Text} {cd : KDict ℕ (List ℝ)}
    {ed : KDict ℕ (List ℤ)} {phase : KDict ℕ ℕ} {disps : KDict ℕ (List (Option ℝ))} {file : Text}
    (h : writeLinksFile F nDim ip lines phases T g materials cd ed phase disps = .ok file)
    (hip : IncrementFree (beforeIncrements ip)) :
    readLoadFile F file = .ok ⟨(S.nInc : ℤ), 0 :: fs.map rd, loadTotals (fs.map rd)⟩ := by
  obtain ⟨B, rfl⟩ := writeLinks_increments h
  obtain ⟨lines', hl', hr⟩ := C110_read (A := beforeIncrements ip) (T := "\n\n".toList ++ B) hF hmode hfs
    hip (.inr ⟨B, rfl⟩)
  rw [hl] at hl'
  cases hl'
  exact hr

/-- The settings of the code, with three control points: one hundred increments. -/
example : ∃ fs lines, linksLoadSettings.mode = "increment_list" ∧
    loadFactors linksLoadSettings.loading linksLoadSettings.nReverse linksLoadSettings.nInc
      ⟨3, fun k => if k = 1 then 1 else -1⟩ = .ok fs ∧
    loadLines wholeText linksLoadSettings ⟨3, fun k => if k = 1 then 1 else -1⟩ = .ok lines ∧
    fs.length = 100 := by
  obtain ⟨fs, h, hlen, -⟩ := C110_polynomial 100 (d := ⟨3, fun k => if k = 1 then 1 else -1⟩) (by norm_num)
  have hl : loadFactors "polynomial" 1 100 ⟨3, fun k => if k = 1 then 1 else -1⟩ = .ok fs := by
    unfold loadFactors
    rw [if_neg (by decide), if_pos rfl]
    exact h
  obtain ⟨lines, h', -⟩ := C110_read (S := linksLoadSettings) (A := []) (T := []) wholeText_faithful rfl hl
    (by
      rintro ⟨a, w, b, h1, h2⟩
      obtain rfl : w = [] := by
        have := congrArg List.length h1
        simp only [List.length_nil, List.length_append] at this
        exact List.length_eq_zero_iff.mp (by omega)
      exact absurd h2 (by decide)) (.inl rfl)
  exact ⟨fs, lines, rfl, hl, h', hlen⟩

/-- The text before the increments of a simulation contains the word nowhere. -/
example : IncrementFree (beforeIncrements ⟨"Patch".toList, "4".toList, "ON".toList, "2".toList,
    [], [], [], [], []⟩) := by
  rintro ⟨a, w, b, h1, h2⟩
  have hd : 'd' ∉ "increments".toList := by decide
  have hlen : w.length = 10 := by
    have := congrArg List.length h2
    simpa using this
  have hk : ∀ k ≤ (beforeIncrements ⟨"Patch".toList, "4".toList, "ON".toList, "2".toList,
      [], [], [], [], []⟩).length, (((beforeIncrements ⟨"Patch".toList, "4".toList, "ON".toList,
      "2".toList, [], [], [], [], []⟩).drop k).take 10).map Char.toLower ≠ "increments".toList := by
    decide +kernel
  refine hk a.length (by rw [h1]; simp) ?_
  rw [h1, List.append_assoc, List.drop_left, List.take_left' hlen]
  exact h2

/-- **C110 is violated for titles.** If the title of the simulation is `Increments`, the load factors
cannot be read from its file: the title is taken for the keyword. -/
theorem C110_title_violated {F : NumberText} {nDim : ℕ} {ip : LinksParams} {increm : List Text}
    {phases : List ℕ} {T : Text} {g : ℕ} {materials : List Text} {cd : KDict ℕ (List ℝ)}
    {ed : KDict ℕ (List ℤ)} {phase : KDict ℕ ℕ} {disps : KDict ℕ (List (Option ℝ))} {file : Text}
    (h : writeLinksFile F nDim ip increm phases T g materials cd ed phase disps = .ok file)
    (ht : ip.title = "Increments".toList) : readLoadFile F file = .error .indexError := by
  obtain ⟨rest, rfl⟩ := writeLinks_title h
  have hl : fileLines ("\nTITLE \n".toList ++ (ip.title ++ '\n' :: rest))
      = [] :: "TITLE ".toList :: "Increments".toList :: fileLines rest := by
    have := fileLines_lines [[], "TITLE ".toList, "Increments".toList] (by decide) rest
    rw [ht]
    exact this
  unfold readLoadFile
  rw [hl, readLoad, if_neg (by decide), if_neg (by decide), readLoad, if_neg (by decide),
    if_neg (by decide), readLoad, if_neg (by decide), if_pos (by decide)]
  have h1 : startLoad "Increments".toList = .error .indexError := rfl
  rw [h1]
  rfl

/-- **C110 is violated for files without increments.** They are not refused: the history is never
assigned, which is `UnboundLocalError`. -/
theorem C110_missing_violated (F : NumberText) {A : Text} (hA : IncrementFree A) :
    readLoadFile F (A ++ "\n".toList) = .error .unboundLocal := by
  unfold readLoadFile
  have e5 : "\n".toList = ['\n'] := by decide
  rw [e5, fileLines_append, readLoad_skip F hA]
  rfl

/-- **C110 is violated for missing increments.** A file announcing more increments than it has is
accepted: the total load factor of the missing ones is zero, so that the load drops. -/
theorem C110_short_violated (F : NumberText) (hone : F.parse "0.5".toList = some (1 / 2)) :
    readLoadFile F "INCREMENTS 2\n0.5 1.0e-6 20\n".toList = .ok ⟨2, [0, 1 / 2, 0], [0, 1 / 2, 0]⟩ := by
  have hl : fileLines "INCREMENTS 2\n0.5 1.0e-6 20\n".toList
      = ["INCREMENTS 2".toList, "0.5 1.0e-6 20".toList] := by decide
  have h1 : startLoad "INCREMENTS 2".toList = .ok ⟨2, [0], [0]⟩ := rfl
  have h2 : lineFactor F "0.5 1.0e-6 20".toList = .ok (1 / 2) := by
    unfold lineFactor
    rw [show splitBlank "0.5 1.0e-6 20".toList = ["0.5".toList, "1.0e-6".toList, "20".toList] by decide]
    dsimp only
    unfold NumberText.float
    rw [show stripText "0.5".toList = "0.5".toList by decide, hone]
    rfl
  unfold readLoadFile
  rw [hl, readLoad, if_neg (by decide), if_pos (by decide), h1]
  simp only [bind, Except.bind]
  rw [readLoad, if_neg (by decide), if_neg (by decide), if_neg (by decide), h2]
  simp only [bind, Except.bind]
  have h3 : TfactState.push ⟨2, [0], [0]⟩ (1 / 2) = .ok ⟨2, [0, 1 / 2], [0, 0 + 1 / 2]⟩ := rfl
  rw [h3]
  dsimp only
  rw [readLoad]
  have h4 : ((2 : ℤ) + 1).toNat = 3 := by decide
  simp [TfactState.hist, padZeros, h4, List.range_succ]

end Hooke
