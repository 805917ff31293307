import Verif.Spec.SpecimenMesh
import Verif.Lemmas.TextFile
import Verif.Lemmas.StrainPath
import Verif.Props.LearnableParameters

/-!
# C105: the mesh read from a specimen mesh file is the mesh written to it
-/

namespace Hooke

open Spec

/-! ## Characters -/

theorem isBlankChar_numeral {c : Char} (h : NumeralChar c) : isBlankChar c = false := by
  rcases h with h | h
  · exact isBlankChar_digit h
  · revert h
    simp only [List.mem_cons, List.not_mem_nil, or_false]
    rintro (rfl | rfl | rfl | rfl | rfl | rfl | rfl | rfl) <;> decide

/-- Characters of the data lines. -/
def LineChar (c : Char) : Prop := NumeralChar c ∨ c = ' ' ∨ c = ','

theorem digit_bounds {c : Char} (h : c.isDigit = true) : 48 ≤ c.toNat ∧ c.toNat ≤ 57 := by
  have : 48 ≤ c.val ∧ c.val ≤ 57 := by simpa [Char.isDigit] using h
  exact ⟨by simpa using UInt32.le_iff_toNat_le.mp this.1,
    by simpa using UInt32.le_iff_toNat_le.mp this.2⟩

theorem toLower_digit {c : Char} (h : c.isDigit = true) : c.toLower = c := by
  have hb := digit_bounds h
  unfold Char.toLower
  rw [dif_neg]
  rintro ⟨h1, -⟩
  have := UInt32.le_iff_toNat_le.mp h1
  have h2 : c.val.toNat = c.toNat := rfl
  simp at this
  omega

/-- No character of a data line is a star or a letter other than those of numbers. -/
theorem lineChar_star {c : Char} (h : LineChar c) : '*'.toLower ≠ c.toLower := by
  rcases h with (h | h) | h
  · rw [toLower_digit h]
    intro e
    have h2 : '*'.toLower = '*' := by decide
    rw [h2] at e
    subst e
    exact absurd h (by decide)
  · revert h
    simp only [List.mem_cons, List.not_mem_nil, or_false]
    rintro (rfl | rfl | rfl | rfl | rfl | rfl | rfl | rfl) <;> decide
  · rcases h with rfl | rfl <;> decide

theorem lineChar_ne {c : Char} (h : LineChar c) : c ≠ '*' ∧ c ≠ '\n' := by
  constructor
  · rintro rfl
    exact lineChar_star h rfl
  · rintro rfl
    rcases h with (h | h) | h
    · exact absurd h (by decide)
    · revert h; decide
    · revert h; decide

theorem numeral_digit {n : ℕ} {c : Char} (h : c ∈ strNat n) : NumeralChar c :=
  Or.inl (isDigit_of_mem_strNat h)

theorem numeral_int {z : ℤ} {c : Char} (h : c ∈ textOfInt z) : NumeralChar c := by
  unfold textOfInt at h
  split_ifs at h
  · rcases List.mem_cons.mp h with rfl | h
    · exact Or.inr (by decide)
    · exact numeral_digit h
  · exact numeral_digit h

theorem padLeft_char {w : ℕ} {n : ℤ} {c : Char} (h : c ∈ padLeft w (textOfInt n)) : LineChar c := by
  unfold padLeft at h
  rcases List.mem_append.mp h with h | h
  · exact Or.inr (Or.inl (List.eq_of_mem_replicate h))
  · exact Or.inl (numeral_int h)

theorem numeral_ne_comma {c : Char} (h : NumeralChar c) : c ≠ ',' := by
  rintro rfl
  rcases h with h | h
  · exact absurd h (by decide)
  · revert h; decide

theorem padLeft_comma (w : ℕ) (n : ℤ) : ',' ∉ padLeft w (textOfInt n) := by
  intro h
  unfold padLeft at h
  rcases List.mem_append.mp h with h | h
  · exact absurd (List.eq_of_mem_replicate h) (by decide)
  · exact numeral_ne_comma (numeral_int h) rfl

theorem textOfInt_comma (n : ℤ) : ',' ∉ textOfInt n := fun h => numeral_ne_comma (numeral_int h) rfl

theorem fmt_char {F : NumberText} {rd : ℝ → ℝ} (hF : FaithfulText F rd) (x : ℝ) {c : Char}
    (h : c ∈ F.fmt x) : LineChar c ∧ c ≠ ',' := by
  obtain ⟨k, w, hf, -, hw, -⟩ := hF.fmt x
  rw [hf] at h
  rcases List.mem_append.mp h with h | h
  · have := List.eq_of_mem_replicate h
    exact ⟨Or.inr (Or.inl this), by rw [this]; decide⟩
  · exact ⟨Or.inl (hw c h), numeral_ne_comma (hw c h)⟩

theorem float_fmt {F : NumberText} {rd : ℝ → ℝ} (hF : FaithfulText F rd) (x : ℝ) :
    F.float (' ' :: F.fmt x) = .ok (rd x) := by
  obtain ⟨k, w, hf, -, hw, hp⟩ := hF.fmt x
  unfold NumberText.float
  have : ' ' :: F.fmt x = List.replicate (k + 1) ' ' ++ w := by rw [hf]; rfl
  rw [this, stripText_word _ fun c hc => isBlankChar_numeral (hw c hc), hp]
  rfl

theorem mem_joinText {c : Char} {xs : List Text} (h : c ∈ joinText ", ".toList xs) :
    c = ' ' ∨ c = ',' ∨ ∃ x ∈ xs, c ∈ x := by
  induction xs with
  | nil => cases h
  | cons x xs ih =>
    cases xs with
    | nil =>
      simp only [joinText, List.intercalate_singleton] at h
      exact Or.inr (Or.inr ⟨x, by simp, h⟩)
    | cons y ys =>
      have h1 : joinText ", ".toList (x :: y :: ys)
          = x ++ ',' :: ' ' :: joinText ", ".toList (y :: ys) := by
        unfold joinText
        simp [List.intercalate, List.intersperse]
      rw [h1] at h
      simp only [List.mem_append, List.mem_cons] at h
      rcases h with h | rfl | rfl | h
      · exact Or.inr (Or.inr ⟨x, by simp, h⟩)
      · exact Or.inr (Or.inl rfl)
      · exact Or.inl rfl
      · rcases ih h with h | h | ⟨z, hz, h⟩
        · exact Or.inl h
        · exact Or.inr (Or.inl h)
        · exact Or.inr (Or.inr ⟨z, by simp [hz], h⟩)

theorem joinText_cons (x : Text) {ys : List Text} (h : ys ≠ []) :
    joinText ", ".toList (x :: ys) = x ++ ", ".toList ++ joinText ", ".toList ys := by
  cases ys with
  | nil => exact absurd rfl h
  | cons y ys =>
    unfold joinText
    simp [List.intercalate, List.intersperse]

/-! ## The lines of the file -/

/-- Line of a node. -/
def nodeText (F : NumberText) (p : List ℝ × ℕ) : Text :=
  joinText ", ".toList (padLeft 3 (textOfInt p.2) :: p.1.map F.fmt)

/-- Line of an element. -/
def elemText (p : List ℤ × ℕ) : Text :=
  joinText ", ".toList (padLeft 3 (textOfInt p.2) :: p.1.map textOfInt)

/-- Line of a prescribed displacement. -/
def bcText (F : NumberText) (n : ℤ) (d : ℕ × ℝ) : Text :=
  joinText ", ".toList [padLeft 3 (textOfInt n), textOfInt d.1, textOfInt d.1, F.str d.2]

/-- Lines of the prescribed displacements. -/
def bcTexts (F : NumberText) (b : DirichletBcs) : List Text :=
  b.flatMap fun n => n.2.map (bcText F n.1)

/-- Lines after the elements. -/
def tailTexts (F : NumberText) : Option DirichletBcs → List Text
  | none => []
  | some b => [[], "*Boundary".toList] ++ bcTexts F b

theorem nodeText_char {F : NumberText} {rd : ℝ → ℝ} (hF : FaithfulText F rd) (p : List ℝ × ℕ)
    {c : Char} (h : c ∈ nodeText F p) : LineChar c := by
  rcases mem_joinText h with rfl | rfl | ⟨x, hx, hc⟩
  · exact Or.inr (Or.inl rfl)
  · exact Or.inr (Or.inr rfl)
  · rcases List.mem_cons.mp hx with rfl | hx
    · exact padLeft_char hc
    · obtain ⟨y, -, rfl⟩ := List.mem_map.mp hx
      exact (fmt_char hF y hc).1

theorem elemText_char (p : List ℤ × ℕ) {c : Char} (h : c ∈ elemText p) : LineChar c := by
  rcases mem_joinText h with rfl | rfl | ⟨x, hx, hc⟩
  · exact Or.inr (Or.inl rfl)
  · exact Or.inr (Or.inr rfl)
  · rcases List.mem_cons.mp hx with rfl | hx
    · exact padLeft_char hc
    · obtain ⟨y, -, rfl⟩ := List.mem_map.mp hx
      exact Or.inl (numeral_int hc)

theorem bcText_char {F : NumberText} {rd : ℝ → ℝ} (hF : FaithfulText F rd) (n : ℤ) (d : ℕ × ℝ)
    {c : Char} (h : c ∈ bcText F n d) : LineChar c := by
  rcases mem_joinText h with rfl | rfl | ⟨x, hx, hc⟩
  · exact Or.inr (Or.inl rfl)
  · exact Or.inr (Or.inr rfl)
  · simp only [List.mem_cons, List.not_mem_nil, or_false] at hx
    rcases hx with rfl | rfl | rfl | rfl
    · exact padLeft_char hc
    · exact Or.inl (numeral_int hc)
    · exact Or.inl (numeral_int hc)
    · exact Or.inl (hF.str _ c hc)

/-- A data line: characters of numbers, blanks and commas, beginning with a number. -/
structure DataText (l : Text) : Prop where
  chars : ∀ c ∈ l, LineChar c
  digit : ∃ c ∈ l, isBlankChar c = false

theorem DataText.noKey {l : Text} (h : DataText l) (pat : Text) (hp : '*' ∈ pat) :
    searchWord pat l = false :=
  searchWord_false hp fun d hd => lineChar_star (h.chars d hd)

theorem DataText.noEnd {l : Text} (h : DataText l) : endsSection l = false := by
  obtain ⟨c, hc, hb⟩ := h.digit
  refine endsSection_false ?_ hc hb
  intro he
  exact (lineChar_ne (h.chars _ (List.mem_of_mem_head? he))).1 rfl

theorem digit_of_join (w : ℕ) (n : ℤ) (ys : List Text) :
    ∃ c ∈ joinText ", ".toList (padLeft w (textOfInt n) :: ys), isBlankChar c = false := by
  obtain ⟨c, hc⟩ := List.exists_mem_of_ne_nil _ (textOfInt_ne_nil n)
  refine ⟨c, ?_, isBlankChar_numeral (numeral_int hc)⟩
  have hp : c ∈ padLeft w (textOfInt n) := List.mem_append_right _ hc
  cases ys with
  | nil => simpa [joinText] using hp
  | cons y ys =>
    rw [joinText_cons _ (by simp)]
    exact List.mem_append_left _ (List.mem_append_left _ hp)

theorem nodeText_data {F : NumberText} {rd : ℝ → ℝ} (hF : FaithfulText F rd) (p : List ℝ × ℕ) :
    DataText (nodeText F p) := ⟨fun _ h => nodeText_char hF p h, digit_of_join _ _ _⟩

theorem elemText_data (p : List ℤ × ℕ) : DataText (elemText p) :=
  ⟨fun _ h => elemText_char p h, digit_of_join _ _ _⟩

theorem bcText_data {F : NumberText} {rd : ℝ → ℝ} (hF : FaithfulText F rd) (n : ℤ) (d : ℕ × ℝ) :
    DataText (bcText F n d) := ⟨fun _ h => bcText_char hF n d h, digit_of_join _ _ _⟩

/-- The lines of the file. -/
def meshTexts (F : NumberText) (coords : List (List ℝ)) (conns : List (List ℤ)) (elemType : Text)
    (bcs : Option DirichletBcs) : List Text :=
  ["ADiMU mesh data file (generated from Links data)".toList, [], "*Node".toList]
    ++ (coords.zipIdx 1).map (nodeText F)
    ++ [[], "*Element, type=".toList ++ elemType]
    ++ (conns.zipIdx 1).map elemText
    ++ tailTexts F bcs

theorem fileLines_mesh {F : NumberText} {rd : ℝ → ℝ} (hF : FaithfulText F rd)
    (coords : List (List ℝ)) (conns : List (List ℤ)) (elemType : Text) (bcs : Option DirichletBcs)
    (hc : ∀ r ∈ coords, r ≠ []) (he : ∀ e ∈ conns, e ≠ []) (ht : '\n' ∉ elemType) :
    fileLines (writeMeshFile F coords conns elemType bcs) = meshTexts F coords conns elemType bcs := by
  have h1 : writeNodeLines F coords = ((coords.zipIdx 1).map (nodeText F)).map (· ++ ['\n']) := by
    unfold writeNodeLines
    rw [List.map_map]
    refine List.map_congr_left fun p hp => ?_
    have : p.1 ≠ [] := hc p.1 (List.fst_mem_of_mem_zipIdx hp)
    simp only [Function.comp_apply, nodeText]
    rw [joinText_cons _ (by simpa using this)]
  have h2 : writeElementLines conns = ((conns.zipIdx 1).map elemText).map (· ++ ['\n']) := by
    unfold writeElementLines
    rw [List.map_map]
    refine List.map_congr_left fun p hp => ?_
    have : p.1 ≠ [] := he p.1 (List.fst_mem_of_mem_zipIdx hp)
    simp only [Function.comp_apply, elemText]
    rw [joinText_cons _ (by simpa using this)]
  have h3 : ∀ b, writeBoundaryLines F b = (bcTexts F b).map (· ++ ['\n']) := by
    intro b
    unfold writeBoundaryLines bcTexts
    rw [List.map_flatMap]
    refine List.flatMap_congr fun n _ => ?_
    rw [List.map_map]
    refine List.map_congr_left fun d _ => ?_
    simp only [Function.comp_apply, bcText]
    rw [joinText_cons _ (by simp), joinText_cons _ (by simp), joinText_cons _ (by simp)]
    simp [joinText]
  have h4 : writeMeshFile F coords conns elemType bcs
      = ((meshTexts F coords conns elemType bcs).map (· ++ ['\n'])).flatten := by
    unfold writeMeshFile meshTexts
    rw [h1, h2]
    cases bcs with
    | none => simp [tailTexts]
    | some b => simp [tailTexts, h3]
  rw [h4]
  refine fileLines_flatten _ ?_
  intro l hl hn
  unfold meshTexts at hl
  simp only [List.mem_append, List.mem_map] at hl
  rcases hl with (((hl | ⟨p, -, rfl⟩) | hl) | ⟨p, -, rfl⟩) | hl
  · simp only [List.mem_cons, List.not_mem_nil, or_false] at hl
    rcases hl with rfl | rfl | rfl <;> revert hn <;> decide
  · exact (lineChar_ne (nodeText_char hF p hn)).2 rfl
  · simp only [List.mem_cons, List.not_mem_nil, or_false] at hl
    rcases hl with rfl | rfl
    · cases hn
    · rcases List.mem_append.mp hn with h | h
      · revert h; decide
      · exact ht h
  · exact (lineChar_ne (elemText_char p hn)).2 rfl
  · cases bcs with
    | none => cases hl
    | some b =>
      simp only [tailTexts, List.mem_append] at hl
      rcases hl with hl | hl
      · simp only [List.mem_cons, List.not_mem_nil, or_false] at hl
        rcases hl with rfl | rfl
        · cases hn
        · revert hn; decide
      · obtain ⟨n, -, h⟩ := List.mem_flatMap.mp hl
        obtain ⟨d, -, rfl⟩ := List.mem_map.mp h
        exact (lineChar_ne (bcText_char hF n.1 d hn)).2 rfl

/-! ## Reading the lines -/

theorem nodeCoords_text {F : NumberText} {rd : ℝ → ℝ} (hF : FaithfulText F rd) (nDim : ℕ)
    (p : List ℝ × ℕ) : nodeCoords F nDim (nodeText F p) = .ok ((p.1.take nDim).map rd) := by
  unfold nodeCoords nodeText
  rw [splitComma_join _ _ (padLeft_comma _ _) fun y hy => ?_]
  · rw [List.drop_one, List.tail_cons, List.map_map, ← List.map_take, List.mapM_map]
    exact mapM_of_forall fun x _ => float_fmt hF x
  · obtain ⟨x, -, rfl⟩ := List.mem_map.mp hy
    exact fun h => (fmt_char hF x h).2 rfl

theorem sameLength_of {α : Type} {rows : List (List α)} {w : ℕ} (h : ∀ r ∈ rows, r.length = w) :
    sameLength rows = true := by
  unfold sameLength
  rw [List.all_eq_true]
  intro r hr
  cases rows with
  | nil => cases hr
  | cons a as => simp [h r hr, h a (by simp)]

theorem zipIdx_map_fst {α β : Type} (l : List α) (k : ℕ) (f : α → β) :
    (l.zipIdx k).map (fun p => f p.1) = l.map f := by
  induction l generalizing k with
  | nil => rfl
  | cons a as ih => simp [List.zipIdx_cons, ih]

theorem readNodes_mesh {F : NumberText} {rd : ℝ → ℝ} (hF : FaithfulText F rd) (nDim : ℕ)
    (coords : List (List ℝ)) (conns : List (List ℤ)) (elemType : Text) (bcs : Option DirichletBcs)
    (hne : coords ≠ []) {w : ℕ} (hw : nDim ≤ w) (hr : ∀ r ∈ coords, r.length = w) :
    readNodes F nDim (meshTexts F coords conns elemType bcs)
      = .ok (coords.map fun r => (r.take nDim).map rd) := by
  have hs : dataLines (scanLines (searchWord "*node".toList) true false
      (meshTexts F coords conns elemType bcs)) = (coords.zipIdx 1).map (nodeText F) := by
    have e : meshTexts F coords conns elemType bcs
        = ["ADiMU mesh data file (generated from Links data)".toList, []]
          ++ ("*Node".toList :: ((coords.zipIdx 1).map (nodeText F)
          ++ ([] :: ("*Element, type=".toList ++ elemType) :: ((conns.zipIdx 1).map elemText
            ++ tailTexts F bcs)))) := by
      simp [meshTexts]
    rw [e, scanLines_skip _ _ (by decide), scanLines_key _ _ (by decide), scanLines_data,
      scanLines_blank_stop _ (by decide)]
    · simp only [dataLines]
      rw [dataLines_map]
      simp [dataLines]
    · intro l hl
      obtain ⟨p, -, rfl⟩ := List.mem_map.mp hl
      exact (nodeText_data hF p).noKey _ (by decide)
    · intro l hl
      obtain ⟨p, -, rfl⟩ := List.mem_map.mp hl
      exact (nodeText_data hF p).noEnd
  have hm : ((coords.zipIdx 1).map (nodeText F)).mapM (nodeCoords F nDim)
      = .ok (coords.map fun r => (r.take nDim).map rd) := by
    rw [List.mapM_map, ← zipIdx_map_fst coords 1 fun r => (r.take nDim).map rd]
    exact mapM_of_forall fun p _ => nodeCoords_text hF nDim p
  unfold readNodes
  rw [hs, hm]
  have hl : sameLength (coords.map fun r => (r.take nDim).map rd) = true := by
    refine sameLength_of (w := nDim) fun r h => ?_
    obtain ⟨r', h', rfl⟩ := List.mem_map.mp h
    simp [hr r' h', hw]
  simp only [bind, Except.bind, raiseIf, List.map_eq_nil_iff, hne, if_false, hl]
  rfl

theorem elemDataLine_text (n : ℕ) (s : ElemState) (kind : FEKind) (hk : s.kind = some kind)
    (p : List ℤ × ℕ) (hp : ∀ v ∈ p.1, 1 ≤ v ∧ v ≤ n) :
    elemDataLine n s (elemText p) = .ok
      { s with
        types := s.types.put (p.2 : ℤ) kind
        conns := s.conns.put (p.2 : ℤ) (p.1)
        used := s.used ++ p.1 } := by
  have h1 : splitComma (elemText p) = padLeft 3 (textOfInt p.2) :: (p.1.map textOfInt).map (' ' :: ·) := by
    unfold elemText
    rw [splitComma_join _ _ (padLeft_comma _ _) fun y hy => ?_]
    obtain ⟨x, -, rfl⟩ := List.mem_map.mp hy
    exact textOfInt_comma x
  have h2 : ((p.1.map textOfInt).map (' ' :: ·)).mapM intOfText = .ok (p.1) := by
    rw [List.map_map, List.mapM_map]
    have := mapM_of_forall (f := fun x => intOfText (' ' :: textOfInt x)) (g := id) (l := p.1)
      fun x _ => intOfText_space x
    rw [List.map_id] at this
    exact this
  have h3 : (p.1).any (fun v => decide (v < 1 ∨ (n : ℤ) < v)) = false := by
    rw [List.any_eq_false]
    intro v hv
    have := hp v hv
    simp only [decide_eq_true_eq]
    omega
  unfold elemDataLine
  rw [h1]
  simp only [List.headD_cons, intOfText_padLeft, List.drop_one, List.tail_cons, h2, hk, orRaise,
    raiseIf, h3, bind, Except.bind, pure, Except.pure, Bool.false_eq_true, if_false]

theorem elem_fold (n : ℕ) (kind : FEKind) (conns : List (List ℤ)) (k : ℕ) (s : ElemState)
    (hk : s.kind = some kind) (hr : ∀ e ∈ conns, ∀ v ∈ e, 1 ≤ v ∧ v ≤ n)
    (ht : ∀ id ∈ s.types.keys, id < (k : ℤ)) (hc : ∀ id ∈ s.conns.keys, id < (k : ℤ)) :
    (((conns.zipIdx k).map elemText).map ScanEvent.data).foldlM (elemEvent n) s = .ok
      { kind := some kind
        types := s.types ++ (conns.zipIdx k).map fun p => ((p.2 : ℤ), kind)
        conns := s.conns ++ (conns.zipIdx k).map fun p => ((p.2 : ℤ), p.1)
        used := s.used ++ conns.flatten } := by
  induction conns generalizing k s with
  | nil => simp [pure, Except.pure, ← hk]
  | cons e es ih =>
    simp only [List.zipIdx_cons, List.map_cons, List.foldlM_cons, elemEvent]
    rw [elemDataLine_text n s kind hk (e, k) (hr e (by simp))]
    simp only [bind, Except.bind]
    have f1 : s.types.put (k : ℤ) kind = s.types ++ [((k : ℤ), kind)] :=
      put_of_notMem _ _ _ fun h => lt_irrefl _ (ht _ h)
    have f2 : s.conns.put (k : ℤ) e
        = s.conns ++ [((k : ℤ), e)] :=
      put_of_notMem _ _ _ fun h => lt_irrefl _ (hc _ h)
    rw [ih (k + 1)
      { s with
        types := s.types.put (k : ℤ) kind
        conns := s.conns.put (k : ℤ) e
        used := s.used ++ e } hk (fun e' he' => hr e' (by simp [he']))]
    · simp [f1, f2]
    · intro id hid
      simp only [f1, KDict.keys, List.map_append, List.mem_append] at hid
      rcases hid with hid | hid
      · have := ht id hid
        push_cast
        omega
      · simp at hid
        subst hid
        push_cast
        omega
    · intro id hid
      simp only [f2, KDict.keys, List.map_append, List.mem_append] at hid
      rcases hid with hid | hid
      · have := hc id hid
        push_cast
        omega
      · simp at hid
        subst hid
        push_cast
        omega

/-- What the reader finds in the element keyword line. -/
theorem elementTable_read {t cls : String} {g : ℕ} (h : (t, cls, g) ∈ elementTable) :
    searchWord "*element, type".toList ("*Element, type=".toList ++ t.toList) = true ∧
    typeParameter ("*Element, type=".toList ++ t.toList) = some t.toList ∧
    elemTypeAbaqusToFetorch t.toList = .ok ⟨cls, g⟩ ∧
    searchWord "*boundary".toList ("*Element, type=".toList ++ t.toList) = false ∧
    '\n' ∉ t.toList := by
  simp only [elementTable, List.mem_cons, List.not_mem_nil, or_false, Prod.mk.injEq] at h
  rcases h with ⟨rfl, rfl, rfl⟩ | ⟨rfl, rfl, rfl⟩ | ⟨rfl, rfl, rfl⟩ | ⟨rfl, rfl, rfl⟩ |
    ⟨rfl, rfl, rfl⟩ | ⟨rfl, rfl, rfl⟩ <;> decide

theorem tail_noKey {F : NumberText} {rd : ℝ → ℝ} (hF : FaithfulText F rd)
    (bcs : Option DirichletBcs) :
    scanLines (searchWord "*element, type".toList) false true (tailTexts F bcs) = [] := by
  cases bcs with
  | none => rfl
  | some b =>
    simp only [tailTexts, List.cons_append, List.nil_append]
    rw [scanLines_blank _ (by decide)]
    have := scanLines_skip (isKey := searchWord "*element, type".toList) (stops := false)
      ("*Boundary".toList :: bcTexts F b) [] ?_
    · rw [List.append_nil] at this
      rw [this]
      rfl
    · intro l hl
      rcases List.mem_cons.mp hl with rfl | hl
      · decide
      · obtain ⟨n, -, h⟩ := List.mem_flatMap.mp hl
        obtain ⟨d, -, rfl⟩ := List.mem_map.mp h
        exact (bcText_data hF n.1 d).noKey _ (by decide)

theorem readElements_mesh {F : NumberText} {rd : ℝ → ℝ} (hF : FaithfulText F rd)
    (coords : List (List ℝ)) (conns : List (List ℤ)) {t cls : String} {g : ℕ}
    (ht : (t, cls, g) ∈ elementTable) (bcs : Option DirichletBcs)
    (hr : ∀ e ∈ conns, ∀ v ∈ e, 1 ≤ v ∧ v ≤ coords.length)
    (hcov : ∀ v : ℤ, 1 ≤ v → v ≤ coords.length → ∃ e ∈ conns, v ∈ e) :
    readElements coords.length (meshTexts F coords conns t.toList bcs) = .ok
      { kind := some ⟨cls, g⟩
        types := (conns.zipIdx 1).map fun p => ((p.2 : ℤ), ⟨cls, g⟩)
        conns := (conns.zipIdx 1).map fun p => ((p.2 : ℤ), p.1)
        used := conns.flatten } := by
  obtain ⟨hkey, hpar, hty, -, -⟩ := elementTable_read ht
  have hs : scanLines (searchWord "*element, type".toList) false false
      (meshTexts F coords conns t.toList bcs)
      = .key ("*Element, type=".toList ++ t.toList)
        :: ((conns.zipIdx 1).map elemText).map ScanEvent.data := by
    have e : meshTexts F coords conns t.toList bcs
        = (["ADiMU mesh data file (generated from Links data)".toList, [], "*Node".toList]
          ++ (coords.zipIdx 1).map (nodeText F) ++ [[]])
          ++ (("*Element, type=".toList ++ t.toList) :: ((conns.zipIdx 1).map elemText
            ++ tailTexts F bcs)) := by
      simp [meshTexts]
    rw [e, scanLines_skip, scanLines_key _ _ hkey, scanLines_data, tail_noKey hF, List.append_nil]
    · intro l hl
      obtain ⟨p, -, rfl⟩ := List.mem_map.mp hl
      exact (elemText_data p).noKey _ (by decide)
    · intro l hl
      obtain ⟨p, -, rfl⟩ := List.mem_map.mp hl
      exact (elemText_data p).noEnd
    · intro l hl
      simp only [List.mem_append, List.mem_map] at hl
      rcases hl with (hl | ⟨p, -, rfl⟩) | hl
      · simp only [List.mem_cons, List.not_mem_nil, or_false] at hl
        rcases hl with rfl | rfl | rfl <;> decide
      · exact (nodeText_data hF p).noKey _ (by decide)
      · simp only [List.mem_cons, List.not_mem_nil, or_false] at hl
        subst hl
        decide
  have hkl : elemKeyLine ⟨none, [], [], []⟩ ("*Element, type=".toList ++ t.toList)
      = .ok ⟨some ⟨cls, g⟩, [], [], []⟩ := by
    unfold elemKeyLine
    rw [hpar]
    simp only [orRaise, bind, Except.bind, hty]
    rfl
  have hcov' : (List.range coords.length).all
      (fun v => decide (((v + 1 : ℕ) : ℤ) ∈ conns.flatten)) = true := by
    rw [List.all_eq_true]
    intro v hv
    obtain ⟨e, he, hve⟩ := hcov ((v + 1 : ℕ) : ℤ) (by omega)
      (by have := List.mem_range.mp hv; omega)
    rw [decide_eq_true_eq]
    exact List.mem_flatten.mpr ⟨e, he, hve⟩
  unfold readElements
  rw [hs, List.foldlM_cons]
  simp only [elemEvent, hkl, bind, Except.bind]
  rw [elem_fold coords.length ⟨cls, g⟩ conns 1 ⟨some ⟨cls, g⟩, [], [], []⟩ rfl hr
    (by simp [KDict.keys]) (by simp [KDict.keys])]
  simp only [List.nil_append, hcov', raiseIf]
  rfl

/-! ## Boundary conditions -/

theorem wrapIndex_node {n : ℤ} {m : ℕ} (h1 : 1 ≤ n) (h2 : n ≤ m) :
    wrapIndex m (n - 1) = some (n - 1).toNat := by
  unfold wrapIndex
  rw [if_pos (by omega)]

theorem setFlag_fold (nNode : ℕ) (z : ℤ) (i : ℕ) (hi : wrapIndex nNode z = some i) (ds : List ℕ)
    (flags : ℕ → ℕ → ℕ) :
    ∃ fl, ds.foldlM (fun fl d =>
        (orRaise (wrapIndex nNode z) .indexError).map fun i => setFlag fl i d) flags
        = Except.ok (ε := PyErr) fl ∧
      ∀ a b, fl a b = if a = i ∧ b ∈ ds then 1 else flags a b := by
  induction ds generalizing flags with
  | nil => exact ⟨flags, rfl, fun a b => by simp⟩
  | cons d ds ih =>
    obtain ⟨fl, h1, h2⟩ := ih (setFlag flags i d)
    refine ⟨fl, ?_, ?_⟩
    · rw [List.foldlM_cons, hi]
      simp only [orRaise, Except.map, bind, Except.bind]
      rw [hi] at h1
      exact h1
    · intro a b
      rw [h2]
      unfold setFlag
      by_cases ha : a = i
      · by_cases hb : b ∈ ds
        · simp [ha, hb]
        · by_cases hd : b = d <;> simp [ha, hb, hd]
      · simp [ha]

theorem mem_dofRange {nDim d b : ℕ} : b ∈ dofRange nDim (d : ℤ) (d : ℤ) ↔ b < nDim ∧ b + 1 = d := by
  unfold dofRange
  simp only [List.mem_filter, List.mem_range, decide_eq_true_eq]
  omega

theorem boundaryLine_text {F : NumberText} {rd : ℝ → ℝ} (hF : FaithfulText F rd) (nNode nDim : ℕ)
    (flags : ℕ → ℕ → ℕ) (n : ℤ) (d : ℕ × ℝ) (h1 : 1 ≤ n) (h2 : n ≤ nNode) :
    ∃ fl, boundaryLine nNode nDim flags (bcText F n d) = .ok fl ∧
      ∀ a b, fl a b = if (a : ℤ) + 1 = n ∧ b + 1 = d.1 ∧ b < nDim then 1 else flags a b := by
  have hs : splitComma (bcText F n d) = padLeft 3 (textOfInt n) ::
      [textOfInt d.1, textOfInt d.1, F.str d.2].map (' ' :: ·) := by
    unfold bcText
    refine splitComma_join _ _ (padLeft_comma _ _) fun y hy => ?_
    simp only [List.mem_cons, List.not_mem_nil, or_false] at hy
    rcases hy with rfl | rfl | rfl
    · exact textOfInt_comma _
    · exact textOfInt_comma _
    · exact fun h => numeral_ne_comma (hF.str _ _ h) rfl
  obtain ⟨fl, hf, hv⟩ := setFlag_fold nNode (n - 1) (n - 1).toNat (wrapIndex_node h1 h2)
    (dofRange nDim (d.1 : ℤ) (d.1 : ℤ)) flags
  refine ⟨fl, ?_, ?_⟩
  · unfold boundaryLine
    rw [hs]
    simp only [List.headD_cons, intOfText_padLeft, List.drop_one, List.tail_cons, List.map_cons,
      List.map_nil, List.take_succ_cons, List.take_zero, List.mapM_cons, List.mapM_nil,
      intOfText_space, bind, Except.bind, pure, Except.pure, List.getElem?_cons_zero,
      List.getElem?_cons_succ, orRaise]
    exact hf
  · intro a b
    rw [hv]
    refine if_congr ?_ rfl rfl
    rw [mem_dofRange]
    omega

theorem boundary_fold {F : NumberText} {rd : ℝ → ℝ} (hF : FaithfulText F rd) (nNode nDim : ℕ)
    (ps : List (ℤ × ℕ × ℝ)) (h : ∀ p ∈ ps, 1 ≤ p.1 ∧ p.1 ≤ nNode) (flags : ℕ → ℕ → ℕ) :
    ∃ fl, (ps.map fun p => bcText F p.1 p.2).foldlM (boundaryLine nNode nDim) flags = .ok fl ∧
      (∀ (a b : ℕ), (∃ p ∈ ps, (a : ℤ) + 1 = p.1 ∧ b + 1 = p.2.1 ∧ b < nDim) → fl a b = 1) ∧
      (∀ (a b : ℕ), (¬ ∃ p ∈ ps, (a : ℤ) + 1 = p.1 ∧ b + 1 = p.2.1 ∧ b < nDim) → fl a b = flags a b) := by
  induction ps generalizing flags with
  | nil => exact ⟨flags, rfl, by simp, by simp⟩
  | cons p ps ih =>
    obtain ⟨f1, e1, v1⟩ := boundaryLine_text hF nNode nDim flags p.1 p.2 (h p (by simp)).1
      (h p (by simp)).2
    obtain ⟨fl, e2, v2, v3⟩ := ih (fun q hq => h q (by simp [hq])) f1
    refine ⟨fl, ?_, ?_, ?_⟩
    · rw [List.map_cons, List.foldlM_cons, e1]
      exact e2
    · rintro a b ⟨q, hq, hh⟩
      by_cases hex : ∃ p ∈ ps, (a : ℤ) + 1 = p.1 ∧ b + 1 = p.2.1 ∧ b < nDim
      · exact v2 a b hex
      · rw [v3 a b hex, v1]
        rcases List.mem_cons.mp hq with rfl | hq
        · rw [if_pos hh]
        · exact absurd ⟨q, hq, hh⟩ hex
    · intro a b hno
      rw [v3 a b fun ⟨q, hq, hh⟩ => hno ⟨q, by simp [hq], hh⟩, v1,
        if_neg fun hh => hno ⟨p, by simp, hh⟩]

/-- The prescribed displacements as a list. -/
def bcPairs (b : DirichletBcs) : List (ℤ × ℕ × ℝ) := b.flatMap fun n => n.2.map fun d => (n.1, d)

theorem bcTexts_pairs (F : NumberText) (b : DirichletBcs) :
    bcTexts F b = (bcPairs b).map fun p => bcText F p.1 p.2 := by
  unfold bcTexts bcPairs
  rw [List.map_flatMap]
  refine List.flatMap_congr fun n _ => ?_
  rw [List.map_map]
  rfl

theorem readBoundary_mesh {F : NumberText} {rd : ℝ → ℝ} (hF : FaithfulText F rd) (nDim : ℕ)
    (coords : List (List ℝ)) (conns : List (List ℤ)) {t cls : String} {g : ℕ}
    (ht : (t, cls, g) ∈ elementTable) (bcs : Option DirichletBcs)
    (hb : ∀ b, bcs = some b → ∀ n ds, (n, ds) ∈ b → 1 ≤ n ∧ n ≤ coords.length) :
    ∃ fl, readBoundary coords.length nDim (meshTexts F coords conns t.toList bcs) = .ok fl ∧
      (∀ (a b : ℕ), b < nDim → Prescribed bcs ((a : ℤ) + 1) (b + 1) → fl a b = 1) ∧
      (∀ (a b : ℕ), b < nDim → ¬ Prescribed bcs ((a : ℤ) + 1) (b + 1) → fl a b = 0) := by
  obtain ⟨-, -, -, hnb, -⟩ := elementTable_read ht
  have hpre : ∀ l ∈ ["ADiMU mesh data file (generated from Links data)".toList, [], "*Node".toList]
      ++ (coords.zipIdx 1).map (nodeText F) ++ [[], "*Element, type=".toList ++ t.toList]
      ++ (conns.zipIdx 1).map elemText, searchWord "*boundary".toList l = false := by
    intro l hl
    simp only [List.mem_append, List.mem_map] at hl
    rcases hl with ((hl | ⟨p, -, rfl⟩) | hl) | ⟨p, -, rfl⟩
    · simp only [List.mem_cons, List.not_mem_nil, or_false] at hl
      rcases hl with rfl | rfl | rfl <;> decide
    · exact (nodeText_data hF p).noKey _ (by decide)
    · simp only [List.mem_cons, List.not_mem_nil, or_false] at hl
      rcases hl with rfl | rfl
      · decide
      · exact hnb
    · exact (elemText_data p).noKey _ (by decide)
  unfold readBoundary meshTexts
  rw [scanLines_skip _ _ hpre]
  cases bcs with
  | none =>
    refine ⟨fun _ _ => 0, rfl, ?_, fun _ _ _ _ => rfl⟩
    rintro a b - ⟨b', ds, u, h, -⟩
    cases h
  | some b =>
    have hs : dataLines (scanLines (searchWord "*boundary".toList) false false
        (tailTexts F (some b))) = bcTexts F b := by
      have e : tailTexts F (some b) = [[]] ++ ("*Boundary".toList :: (bcTexts F b ++ [])) := by
        simp [tailTexts]
      have hd : ∀ l ∈ bcTexts F b, DataText l := by
        intro l hl
        obtain ⟨n, -, h⟩ := List.mem_flatMap.mp hl
        obtain ⟨d, -, rfl⟩ := List.mem_map.mp h
        exact bcText_data hF n.1 d
      rw [e, scanLines_skip _ _ (by decide), scanLines_key _ _ (by decide),
        scanLines_data _ _ (fun l hl => (hd l hl).noKey _ (by decide)) fun l hl => (hd l hl).noEnd]
      simp only [dataLines]
      rw [dataLines_map]
      simp [scanLines, dataLines]
    rw [hs, bcTexts_pairs]
    have hmem : ∀ n d u, (n, d, u) ∈ bcPairs b ↔ ∃ ds, (n, ds) ∈ b ∧ (d, u) ∈ ds := by
      intro n d u
      unfold bcPairs
      simp only [List.mem_flatMap, List.mem_map, Prod.mk.injEq]
      constructor
      · rintro ⟨⟨n', ds⟩, hn, ⟨d', u'⟩, hd, rfl, rfl, rfl⟩
        exact ⟨ds, hn, hd⟩
      · rintro ⟨ds, hn, hd⟩
        exact ⟨(n, ds), hn, (d, u), hd, rfl, rfl⟩
    obtain ⟨fl, h1, h2, h3⟩ := boundary_fold hF coords.length nDim (bcPairs b) (by
      rintro ⟨n, d, u⟩ hp
      obtain ⟨ds, hn, -⟩ := (hmem n d u).mp hp
      exact hb b rfl n ds hn) fun _ _ => 0
    refine ⟨fl, h1, ?_, ?_⟩
    · rintro i d hd ⟨b', ds, u, hb', hn, hu⟩
      cases hb'
      exact h2 i d ⟨((i : ℤ) + 1, d + 1, u), (hmem _ _ _).mpr ⟨ds, hn, hu⟩, rfl, rfl, hd⟩
    · intro i d hd hno
      refine h3 i d ?_
      rintro ⟨⟨n, d', u⟩, hp, hn', hd', -⟩
      simp only at hn' hd'
      obtain ⟨ds, hn, hu⟩ := (hmem _ _ _).mp hp
      exact hno ⟨b, ds, u, rfl, hn' ▸ hn, hd' ▸ hu⟩

theorem zipIdx_snd {α β : Type} (l : List α) (k : ℕ) (f : ℕ → β) :
    (l.zipIdx k).map (fun p => f p.2) = (List.range l.length).map fun i => f (i + k) := by
  induction l generalizing k with
  | nil => rfl
  | cons a as ih =>
    rw [List.zipIdx_cons, List.map_cons, ih, List.length_cons, List.range_succ_eq_map,
      List.map_cons, List.map_map]
    simp only [Nat.zero_add, List.cons.injEq, true_and]
    refine List.map_congr_left fun i _ => ?_
    simp only [Function.comp_apply]
    congr 1
    omega

/-- **C105.** A mesh written to a specimen mesh file is read back: whatever the mesh, its size, its
element type and its prescribed displacements, the reader returns the coordinates (rounded to the
digits written), the element types, the connectivities and the marks of the prescribed degrees of
freedom. -/
theorem C105_round_trip {F : NumberText} {rd : ℝ → ℝ} (hF : FaithfulText F rd) {nDim : ℕ}
    {coords : List (List ℝ)} {conns : List (List ℤ)} {bcs : Option DirichletBcs}
    (hm : ProperMesh nDim coords conns bcs) {t cls : String} {g : ℕ}
    (ht : (t, cls, g) ∈ elementTable) :
    ∃ m, readSpecimenMesh F nDim (writeMeshFile F coords conns t.toList bcs) = .ok m ∧
      ReadsBack rd nDim coords conns ⟨cls, g⟩ bcs m := by
  obtain ⟨w, hw, hr⟩ := hm.width
  have hne : ∀ r ∈ coords, r ≠ [] := by
    rintro r h rfl
    have := hr _ h
    have := hm.dim
    simp at *
    omega
  have hfl := fileLines_mesh hF coords conns t.toList bcs hne hm.connNonempty
    (elementTable_read ht).2.2.2.2
  obtain ⟨fl, hb, hb1, hb0⟩ := readBoundary_mesh hF nDim coords conns ht bcs hm.bcsRange
  refine ⟨⟨coords.map fun r => (r.take nDim).map rd,
    (conns.zipIdx 1).map fun p => ((p.2 : ℤ), ⟨cls, g⟩),
    (conns.zipIdx 1).map fun p => ((p.2 : ℤ), p.1), fl⟩, ?_, ?_⟩
  · unfold readSpecimenMesh
    rw [hfl, readNodes_mesh hF nDim coords conns t.toList bcs hm.nonempty hw hr]
    simp only [bind, Except.bind, List.length_map]
    rw [readElements_mesh hF coords conns ht bcs hm.connRange hm.covered]
    simp only [hb]
    rfl
  · refine ⟨rfl, ?_, ?_, ?_, fun i d _ hd h => hb1 i d hd h, fun i d _ hd h => hb0 i d hd h⟩
    · exact zipIdx_snd conns 1 fun i => ((i : ℤ), (⟨cls, g⟩ : FEKind))
    · simp only [List.map_map]
      exact zipIdx_snd conns 1 fun i => (i : ℤ)
    · simp only [List.map_map]
      have := zipIdx_map_fst conns 1 fun e => e
      rw [List.map_id'] at this
      exact this

end Hooke
