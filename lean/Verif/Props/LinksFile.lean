import Verif.Spec.LinksFile
import Verif.Lemmas.LinksFile
import Verif.Props.SpecimenMesh

/-!
# C106: the mesh of a Links input data file is read back
-/

namespace Hooke

open Spec

/-! ## Characters -/

theorem digit_ne_letter {l d : Char} (hl : l.toLower.isDigit = false) (h : d.isDigit = true) :
    l.toLower ≠ d.toLower := by
  rw [toLower_digit h]
  rintro rfl
  rw [h] at hl
  cases hl

theorem lineChar_S {c : Char} (h : LineChar c) : 'S'.toLower ≠ c.toLower := by
  rcases h with (h | h) | h
  · exact digit_ne_letter (by decide) h
  · revert h
    simp only [List.mem_cons, List.not_mem_nil, or_false]
    rintro (rfl | rfl | rfl | rfl | rfl | rfl | rfl | rfl) <;> decide
  · rcases h with rfl | rfl <;> decide

theorem DataText.noLinksKey {l : Text} (h : DataText l) {kw : Text} (hk : 'S' ∈ kw) :
    searchWord kw l = false :=
  searchWord_false hk fun d hd => lineChar_S (h.chars d hd)

/-- A line made of a literal and a number contains no keyword with a letter foreign to it. -/
theorem literal_noKey {kw a b : Text} {n : ℕ} (c : Char) (hc : c ∈ kw)
    (hd : c.toLower.isDigit = false) (ha : ∀ d ∈ a, c.toLower ≠ d.toLower)
    (hb : ∀ d ∈ b, c.toLower ≠ d.toLower) : searchWord kw (a ++ strNat n ++ b) = false := by
  refine searchWord_false hc fun d h => ?_
  simp only [List.mem_append] at h
  rcases h with (h | h) | h
  · exact ha d h
  · exact digit_ne_letter hd (isDigit_of_mem_strNat h)
  · exact hb d h

theorem keywordFree_line {s l kw : Text} (h : KeywordFree s) (hl : l ∈ splitText (· == '\n') s)
    (hk : kw ∈ linksKeywords) : searchWord kw l = false := by
  by_contra hf
  rw [Bool.not_eq_false] at hf
  obtain ⟨a, w, b, rfl, hw⟩ := searchWord_some hf
  obtain ⟨x, y, hxy⟩ := splitText_infix hl
  exact h kw hk ⟨x ++ a, w, b ++ y, by rw [← hxy]; simp, hw⟩

/-! ## Lines -/

/-- Line of an element. -/
def linksElemText (i m : ℕ) (e : List ℤ) : Text :=
  padLeft 3 (textOfInt (i : ℤ)) ++ padCenter 5 (textOfInt (m : ℤ))
    ++ joinText " ".toList (e.map textOfInt)

/-- Line of a node. -/
def linksNodeText (F : NumberText) (i : ℕ) (r : List ℝ) : Text :=
  padLeft 3 (textOfInt (i : ℤ)) ++ ' ' :: joinText " ".toList (r.map F.fmt)

/-- Line of the prescribed displacements of a node. -/
def linksDispText (F : NumberText) (n : ℕ) (v : List ℝ) : Text :=
  ' ' :: (padLeft 3 (textOfInt (n : ℤ)) ++ ' ' :: (v.map (fun _ => '1')
    ++ joinText " ".toList (v.map F.fmt)))

theorem mem_joinBlank {c : Char} {xs : List Text} (h : c ∈ joinText " ".toList xs) :
    c = ' ' ∨ ∃ x ∈ xs, c ∈ x := by
  induction xs with
  | nil => cases h
  | cons x xs ih =>
    cases xs with
    | nil =>
      simp only [joinText, List.intercalate_singleton] at h
      exact Or.inr ⟨x, by simp, h⟩
    | cons y ys =>
      have h1 : joinText " ".toList (x :: y :: ys) = x ++ ' ' :: joinText " ".toList (y :: ys) := by
        unfold joinText
        simp [List.intercalate, List.intersperse]
      rw [h1] at h
      simp only [List.mem_append, List.mem_cons] at h
      rcases h with h | rfl | h
      · exact Or.inr ⟨x, by simp, h⟩
      · exact Or.inl rfl
      · rcases ih h with h | ⟨z, hz, h⟩
        · exact Or.inl h
        · exact Or.inr ⟨z, by simp [hz], h⟩

theorem padCenter_char {w : ℕ} {n : ℤ} {c : Char} (h : c ∈ padCenter w (textOfInt n)) :
    LineChar c := by
  unfold padCenter at h
  simp only [List.mem_append] at h
  rcases h with (h | h) | h
  · exact Or.inr (Or.inl (List.eq_of_mem_replicate h))
  · exact Or.inl (numeral_int h)
  · exact Or.inr (Or.inl (List.eq_of_mem_replicate h))

theorem padLeft_digit (w : ℕ) (n : ℤ) : ∃ c ∈ padLeft w (textOfInt n), isBlankChar c = false := by
  obtain ⟨c, hc⟩ := List.exists_mem_of_ne_nil _ (textOfInt_ne_nil n)
  exact ⟨c, List.mem_append_right _ hc, isBlankChar_numeral (numeral_int hc)⟩

theorem linksElemText_data (i m : ℕ) (e : List ℤ) : DataText (linksElemText i m e) := by
  refine ⟨?_, ?_⟩
  · intro c hc
    unfold linksElemText at hc
    simp only [List.mem_append] at hc
    rcases hc with (hc | hc) | hc
    · exact padLeft_char hc
    · exact padCenter_char hc
    · rcases mem_joinBlank hc with rfl | ⟨x, hx, hc⟩
      · exact Or.inr (Or.inl rfl)
      · obtain ⟨y, -, rfl⟩ := List.mem_map.mp hx
        exact Or.inl (numeral_int hc)
  · obtain ⟨c, hc, hb⟩ := padLeft_digit 3 (i : ℤ)
    exact ⟨c, List.mem_append_left _ (List.mem_append_left _ hc), hb⟩

theorem linksNodeText_data {F : NumberText} {rd : ℝ → ℝ} (hF : FaithfulText F rd) (i : ℕ)
    (r : List ℝ) : DataText (linksNodeText F i r) := by
  refine ⟨?_, ?_⟩
  · intro c hc
    unfold linksNodeText at hc
    simp only [List.mem_append, List.mem_cons] at hc
    rcases hc with hc | rfl | hc
    · exact padLeft_char hc
    · exact Or.inr (Or.inl rfl)
    · rcases mem_joinBlank hc with rfl | ⟨x, hx, hc⟩
      · exact Or.inr (Or.inl rfl)
      · obtain ⟨y, -, rfl⟩ := List.mem_map.mp hx
        exact (fmt_char hF y hc).1
  · obtain ⟨c, hc, hb⟩ := padLeft_digit 3 (i : ℤ)
    exact ⟨c, List.mem_append_left _ hc, hb⟩

theorem linksDispText_data {F : NumberText} {rd : ℝ → ℝ} (hF : FaithfulText F rd) (n : ℕ)
    (v : List ℝ) : DataText (linksDispText F n v) := by
  refine ⟨?_, ?_⟩
  · intro c hc
    unfold linksDispText at hc
    simp only [List.mem_append, List.mem_cons] at hc
    rcases hc with rfl | hc | rfl | hc | hc
    · exact Or.inr (Or.inl rfl)
    · exact padLeft_char hc
    · exact Or.inr (Or.inl rfl)
    · obtain ⟨y, -, rfl⟩ := List.mem_map.mp hc
      exact Or.inl (Or.inl (by decide))
    · rcases mem_joinBlank hc with rfl | ⟨x, hx, hc⟩
      · exact Or.inr (Or.inl rfl)
      · obtain ⟨y, -, rfl⟩ := List.mem_map.mp hx
        exact (fmt_char hF y hc).1
  · obtain ⟨c, hc, hb⟩ := padLeft_digit 3 (n : ℤ)
    exact ⟨c, by unfold linksDispText; simp [hc], hb⟩

/-! ## Fields of the lines -/

theorem splitBlank_int (k : ℕ) (z : ℤ) :
    splitBlank (List.replicate k ' ' ++ textOfInt z) = [textOfInt z] := by
  rw [splitBlank_blanks, splitBlank_word (textOfInt_ne_nil z)
    fun c hc => isBlankChar_numeral (numeral_int hc)]

theorem splitBlank_padLeft (w : ℕ) (z : ℤ) : splitBlank (padLeft w (textOfInt z)) = [textOfInt z] :=
  splitBlank_int _ z

theorem splitBlank_ints (e : List ℤ) :
    splitBlank (joinText " ".toList (e.map textOfInt)) = e.map textOfInt := by
  rw [splitBlank_join, List.flatMap_map]
  induction e with
  | nil => rfl
  | cons z zs ih =>
    have h0 := splitBlank_int 0 z
    rw [List.replicate_zero, List.nil_append] at h0
    rw [List.flatMap_cons, ih, h0]
    rfl

theorem splitBlank_fmts {F : NumberText} {rd : ℝ → ℝ} (hF : FaithfulText F rd) (r : List ℝ) :
    (splitBlank (joinText " ".toList (r.map F.fmt))).length = r.length ∧
    ∀ k, ((splitBlank (joinText " ".toList (r.map F.fmt))).take k).mapM F.float
      = .ok ((r.take k).map rd) := by
  have hx : ∀ x, ∃ w, splitBlank (F.fmt x) = [w] ∧ F.float w = .ok (rd x) := by
    intro x
    obtain ⟨k, w, hf, hne, hw, hp⟩ := hF.fmt x
    refine ⟨w, ?_, ?_⟩
    · rw [hf, splitBlank_blanks, splitBlank_word hne fun c hc => isBlankChar_numeral (hw c hc)]
    · unfold NumberText.float
      have := stripText_word 0 (w := w) fun c hc => isBlankChar_numeral (hw c hc)
      rw [List.replicate_zero, List.nil_append] at this
      rw [this, hp]
      rfl
  choose w h1 h2 using hx
  have h3 : splitBlank (joinText " ".toList (r.map F.fmt)) = r.map w := by
    rw [splitBlank_join, List.flatMap_map]
    induction r with
    | nil => rfl
    | cons x xs ih =>
      rw [List.flatMap_cons, ih, h1]
      rfl
  rw [h3]
  refine ⟨by simp, fun k => ?_⟩
  rw [← List.map_take, List.mapM_map]
  exact mapM_of_forall fun x _ => h2 x

theorem strNat_length_le {m : ℕ} (h : m < 1000) : (strNat m).length ≤ 3 := by
  unfold strNat
  split_ifs
  · simp
  · rw [List.length_reverse, List.length_map]
    exact (Nat.digits_length_le_iff (by norm_num) _).mpr h

theorem splitBlank_elem (i m : ℕ) (e : List ℤ) (hm : m < 1000) :
    splitBlank (linksElemText i m e)
      = textOfInt (i : ℤ) :: textOfInt (m : ℤ) :: e.map textOfInt := by
  have hl := strNat_length_le hm
  have hpos : 0 < (strNat m).length := List.length_pos_iff.mpr (strNat_ne_nil m)
  unfold linksElemText padCenter
  rw [textOfInt_natCast m]
  obtain ⟨a, ha⟩ : ∃ a, (5 - (strNat m).length) / 2 = a + 1 :=
    ⟨(5 - (strNat m).length) / 2 - 1, by omega⟩
  obtain ⟨b, hb⟩ : ∃ b, 5 - (strNat m).length - (5 - (strNat m).length) / 2 = b + 1 :=
    ⟨5 - (strNat m).length - (5 - (strNat m).length) / 2 - 1, by omega⟩
  rw [hb, ha, List.replicate_succ, List.replicate_succ]
  have e1 : padLeft 3 (textOfInt (i : ℤ))
      ++ (' ' :: List.replicate a ' ' ++ strNat m ++ ' ' :: List.replicate b ' ')
      ++ joinText " ".toList (e.map textOfInt)
      = padLeft 3 (textOfInt (i : ℤ)) ++ ' ' :: ((List.replicate a ' ' ++ strNat m)
        ++ ' ' :: (List.replicate b ' ' ++ joinText " ".toList (e.map textOfInt))) := by
    simp
  rw [e1, splitBlank_append (by decide), splitBlank_append (by decide), splitBlank_padLeft,
    splitBlank_blanks b, splitBlank_ints, ← textOfInt_natCast m, splitBlank_int]
  rfl

theorem splitBlank_node (F : NumberText) (i : ℕ) (r : List ℝ) :
    splitBlank (linksNodeText F i r)
      = textOfInt (i : ℤ) :: splitBlank (joinText " ".toList (r.map F.fmt)) := by
  unfold linksNodeText
  rw [splitBlank_append (by decide), splitBlank_padLeft]
  rfl

theorem joinBlank_head {x : Text} {xs : List Text} (h : x.head? = some ' ') :
    ∃ t, joinText " ".toList (x :: xs) = ' ' :: t := by
  cases x with
  | nil => cases h
  | cons c cs =>
    simp only [List.head?_cons, Option.some.injEq] at h
    subst h
    cases xs with
    | nil => exact ⟨cs, by simp [joinText]⟩
    | cons y ys =>
      exact ⟨cs ++ ' ' :: joinText " ".toList (y :: ys), by
        unfold joinText
        simp [List.intercalate, List.intersperse]⟩

theorem splitBlank_disp {F : NumberText} (n : ℕ) (v : List ℝ) (hv : v ≠ [])
    (hs : ∀ x, v.head? = some x → (F.fmt x).head? = some ' ') :
    splitBlank (linksDispText F n v)
      = textOfInt (n : ℤ) :: v.map (fun _ => '1')
        :: splitBlank (joinText " ".toList (v.map F.fmt)) := by
  cases v with
  | nil => exact absurd rfl hv
  | cons x xs =>
    unfold linksDispText
    rw [splitBlank_space, splitBlank_append (by decide), splitBlank_padLeft]
    obtain ⟨t, ht⟩ := joinBlank_head (xs := xs.map F.fmt) (hs x rfl)
    rw [List.map_cons (f := F.fmt), ht, splitBlank_append (by decide), splitBlank_space, splitBlank_word]
    · rfl
    · simp
    · intro c hc
      obtain ⟨y, -, rfl⟩ := List.mem_map.mp hc
      decide

/-! ## The file -/

/-- The lines from the element types to the materials. -/
def linksTypeLines (T : Text) (g n : ℕ) : List Text :=
  ["ELEMENT_TYPES 1".toList, "1 ".toList ++ T, "  ".toList ++ strNat g ++ " GP".toList, [],
    "MATERIALS ".toList ++ strNat n]

/-- Material phase of an element. -/
def linksPhase (phase : KDict ℕ ℕ) (i : ℕ) : ℕ := (phase.get? (i + 1)).getD 0

/-- The lines of the elements. -/
def linksElemTexts (conns : List (List ℤ)) (phase : KDict ℕ ℕ) : List Text :=
  (List.range conns.length).map fun i =>
    linksElemText (i + 1) (linksPhase phase i) (conns[i]?.getD [])

/-- The lines of the nodes. -/
def linksNodeTexts (F : NumberText) (coords : List (List ℝ)) : List Text :=
  (List.range coords.length).map fun i => linksNodeText F (i + 1) (coords[i]?.getD [])

/-- The displacements written for a node. -/
noncomputable def linksDispValues (nDim : ℕ) (disps : KDict ℕ (List (Option ℝ))) (n : ℕ) : List ℝ :=
  ((disps.get? n).getD []).map (fun x => x.getD 0) ++ (if nDim = 2 then [0] else [])

/-- The lines of the prescribed displacements. -/
noncomputable def linksDispTexts (F : NumberText) (nDim : ℕ) (disps : KDict ℕ (List (Option ℝ))) :
    List Text :=
  (sortedLabels disps).map fun n => linksDispText F n (linksDispValues nDim disps n)

theorem range_getD {α : Type} (l : List α) (d : α) :
    ((List.range l.length).map fun i => l[i]?.getD d) = l := by
  apply List.ext_getElem
  · simp
  · intro i h1 h2
    simp [h2]

theorem linksElementLines_eq {elements : KDict ℕ (List ℤ)} {phase : KDict ℕ ℕ}
    {conns : List (List ℤ)} (h : LabelledFromOne elements conns)
    (hp : ∀ i, i < conns.length → ∃ m, phase.get? (i + 1) = some m) :
    linksElementLines elements phase = .ok ((linksElemTexts conns phase).map (· ++ ['\n'])) := by
  unfold linksElementLines linksElemTexts
  rw [h.1, List.map_map]
  refine mapM_of_forall fun i hi => ?_
  rw [List.mem_range] at hi
  obtain ⟨m, hm⟩ := hp i hi
  rw [h.2 i, List.getElem?_eq_getElem hi, hm]
  simp only [orRaise, bind, Except.bind, pure, Except.pure, Function.comp_apply, linksElemText,
    linksPhase, hm, Option.getD_some, Nat.cast_add, Nat.cast_one, List.getElem?_eq_getElem hi]

theorem linksNodeLines_eq (F : NumberText) {coordsDict : KDict ℕ (List ℝ)} {coords : List (List ℝ)}
    (h : LabelledFromOne coordsDict coords) :
    linksNodeLines F coordsDict = .ok ((linksNodeTexts F coords).map (· ++ ['\n'])) := by
  unfold linksNodeLines linksNodeTexts
  rw [h.1, List.map_map]
  refine mapM_of_forall fun i hi => ?_
  rw [List.mem_range] at hi
  rw [h.2 i, List.getElem?_eq_getElem hi]
  simp [orRaise, bind, Except.bind, pure, Except.pure, linksNodeText,
    List.getElem?_eq_getElem hi]

theorem mem_sortedLabels {disps : KDict ℕ (List (Option ℝ))} {n : ℕ} :
    n ∈ sortedLabels disps ↔ n ∈ disps.map Prod.fst := by
  unfold sortedLabels
  rw [List.mem_insertionSort]
  rfl

theorem sortedLabels_length (disps : KDict ℕ (List (Option ℝ))) :
    (sortedLabels disps).length = disps.length := by
  unfold sortedLabels
  rw [List.length_insertionSort]
  simp [KDict.keys]

theorem sortedLabels_lt {disps : KDict ℕ (List (Option ℝ))} (h : (disps.map Prod.fst).Nodup) :
    (sortedLabels disps).Pairwise (· < ·) := by
  have h1 : (sortedLabels disps).Pairwise (· ≤ ·) := List.pairwise_insertionSort _ _
  have h2 : (sortedLabels disps).Nodup := by
    unfold sortedLabels
    exact (List.perm_insertionSort _ _).nodup_iff.mpr h
  exact (h1.and h2).imp fun ⟨a, b⟩ => lt_of_le_of_ne a b

/-- What is known of the displacements of a node in the file. -/
theorem linksDispValues_of {nDim : ℕ} {coords : List (List ℝ)}
    {conns : List (List ℤ)} {cd : KDict ℕ (List ℝ)} {ed : KDict ℕ (List ℤ)} {phase : KDict ℕ ℕ}
    {disps : KDict ℕ (List (Option ℝ))} (hd : LinksData nDim coords conns cd ed phase disps)
    {n : ℕ} (hn : n ∈ sortedLabels disps) :
    ∃ v : List ℝ, (n, v.map some) ∈ disps ∧ disps.get? n = some (v.map some) ∧
      linksDispValues nDim disps n = v ++ (if nDim = 2 then [0] else []) ∧
      (linksDispValues nDim disps n).length = 3 ∧
      ∃ x w, v = x :: w := by
  rw [mem_sortedLabels] at hn
  obtain ⟨⟨m, u⟩, hmem, hm⟩ := List.mem_map.mp hn
  dsimp only at hm
  subst hm
  obtain ⟨v, rfl, hl⟩ := hd.dispsValues _ _ hmem
  have hg : disps.get? m = some (v.map some) := get?_of_mem disps hd.dispsLabels _ _ hmem
  have he : linksDispValues nDim disps m = v ++ (if nDim = 2 then [0] else []) := by
    unfold linksDispValues
    rw [hg]
    simp
  refine ⟨v, hmem, hg, he, ?_, ?_⟩
  · rw [he]
    by_cases h2 : nDim = 2
    · rw [if_pos h2] at hl ⊢; simp [hl]
    · rw [if_neg h2] at hl ⊢; simp [hl]
  · cases v with
    | nil => by_cases h2 : nDim = 2 <;> simp [h2] at hl
    | cons x xs => exact ⟨x, xs, rfl⟩

theorem linksDispLines_eq {F : NumberText} {nDim : ℕ} {coords : List (List ℝ)}
    {conns : List (List ℤ)} {cd : KDict ℕ (List ℝ)} {ed : KDict ℕ (List ℤ)} {phase : KDict ℕ ℕ}
    {disps : KDict ℕ (List (Option ℝ))} (hd : LinksData nDim coords conns cd ed phase disps) :
    (sortedLabels disps).mapM (linksDispLine F nDim disps)
      = .ok ((linksDispTexts F nDim disps).map (· ++ ['\n'])) := by
  unfold linksDispTexts
  rw [List.map_map]
  refine mapM_of_forall fun n hn => ?_
  obtain ⟨v, -, hg, he, -, -⟩ := linksDispValues_of hd hn
  unfold linksDispLine
  have h1 : (if nDim = 2 then v.map some ++ [some 0] else v.map some)
      = (linksDispValues nDim disps n).map some := by
    rw [he]
    by_cases h2 : nDim = 2 <;> simp [h2]
  have h2 : ((linksDispValues nDim disps n).map some).mapM (fun x => orRaise x PyErr.typeError)
      = .ok (linksDispValues nDim disps n) := by
    rw [List.mapM_map]
    have := mapM_of_forall (l := linksDispValues nDim disps n)
      (f := (fun x => orRaise x PyErr.typeError) ∘ some) (g := id) fun _ _ => rfl
    rwa [List.map_id] at this
  simp only [hg, orRaise, bind, Except.bind, pure, Except.pure] at h2 ⊢
  rw [h1]
  simp only [h2]
  simp [linksDispText, dispCode, Function.comp_def]

/-- The keyword line of the elements. -/
def linksElemKey (n : ℕ) : Text := "ELEMENTS".toList ++ ' ' :: strNat n

/-- The keyword line of the nodes. -/
def linksNodeKey (n : ℕ) : Text := "NODE_COORDINATES".toList ++ ' ' :: (strNat n ++ " CARTESIAN".toList)

/-- The keyword line of the prescribed displacements. -/
def linksDispKey (n : ℕ) : Text := "NODES_WITH_PRESCRIBED_DISPLACEMENTS".toList ++ ' ' :: strNat n

theorem newline_strNat (n : ℕ) : '\n' ∉ strNat n := fun h =>
  absurd (isDigit_of_mem_strNat h) (by decide)

theorem DataText.noNewline {l : Text} (h : DataText l) : '\n' ∉ l := by
  intro hc
  rcases h.chars _ hc with (h | h) | h
  · exact absurd h (by decide)
  · exact absurd h (by decide)
  · rcases h with h | h <;> exact absurd h (by decide)

theorem linksTypeLines_newline {T : Text} (hT : '\n' ∉ T) (g n : ℕ) :
    ∀ l ∈ linksTypeLines T g n, '\n' ∉ l := by
  intro l hl
  simp only [linksTypeLines, List.mem_cons, List.not_mem_nil, or_false] at hl
  rcases hl with rfl | rfl | rfl | rfl | rfl
  · decide
  · simp only [List.mem_append, not_or]; exact ⟨by decide, hT⟩
  · simp only [List.mem_append, not_or]; exact ⟨⟨by decide, newline_strNat g⟩, by decide⟩
  · decide
  · simp only [List.mem_append, not_or]; exact ⟨by decide, newline_strNat _⟩

/-- The lines from the elements on. -/
noncomputable def linksMeshLines (F : NumberText) (nDim : ℕ) (coords : List (List ℝ))
    (conns : List (List ℤ)) (phase : KDict ℕ ℕ) (disps : KDict ℕ (List (Option ℝ))) : List Text :=
  linksElemKey conns.length :: (linksElemTexts conns phase
    ++ ([] :: linksNodeKey coords.length :: (linksNodeTexts F coords
    ++ ([] :: linksDispKey disps.length :: linksDispTexts F nDim disps))))

theorem linksMeshLines_newline {F : NumberText} {rd : ℝ → ℝ} (hF : FaithfulText F rd) (nDim : ℕ)
    (coords : List (List ℝ)) (conns : List (List ℤ)) (phase : KDict ℕ ℕ)
    (disps : KDict ℕ (List (Option ℝ))) :
    ∀ l ∈ linksMeshLines F nDim coords conns phase disps, '\n' ∉ l := by
  intro l hl
  unfold linksMeshLines at hl
  simp only [List.mem_cons, List.mem_append] at hl
  rcases hl with rfl | hl | rfl | rfl | hl | rfl | rfl | hl
  · unfold linksElemKey
    simp only [List.mem_append, List.mem_cons, not_or]
    exact ⟨by decide, by decide, newline_strNat _⟩
  · obtain ⟨i, -, rfl⟩ := List.mem_map.mp hl
    exact (linksElemText_data _ _ _).noNewline
  · decide
  · unfold linksNodeKey
    simp only [List.mem_append, List.mem_cons, not_or]
    exact ⟨by decide, by decide, newline_strNat _, by decide⟩
  · obtain ⟨i, -, rfl⟩ := List.mem_map.mp hl
    exact (linksNodeText_data hF _ _).noNewline
  · decide
  · unfold linksDispKey
    simp only [List.mem_append, List.mem_cons, not_or]
    exact ⟨by decide, by decide, newline_strNat _⟩
  · obtain ⟨i, -, rfl⟩ := List.mem_map.mp hl
    exact (linksDispText_data hF _ _).noNewline

/-- The lines of the file. -/
theorem writeLinks_lines {F : NumberText} {rd : ℝ → ℝ} (hF : FaithfulText F rd) {nDim : ℕ}
    {coords : List (List ℝ)} {conns : List (List ℤ)} {cd : KDict ℕ (List ℝ)}
    {ed : KDict ℕ (List ℤ)} {phase : KDict ℕ ℕ} {disps : KDict ℕ (List (Option ℝ))}
    (hd : LinksData nDim coords conns cd ed phase disps) (ip : LinksParams) (increm : List Text)
    (phases : List ℕ) {T : Text} (hT : '\n' ∉ T) (g : ℕ) (materials : List Text) :
    ∃ file, writeLinksFile F nDim ip increm phases T g materials cd ed phase disps = .ok file ∧
      fileLines file = splitText (· == '\n') (linksHeader ip increm phases).flatten
        ++ (linksTypeLines T g phases.length ++ (splitText (· == '\n') materials.flatten
        ++ linksMeshLines F nDim coords conns phase disps)) := by
  unfold writeLinksFile
  rw [linksElementLines_eq hd.connsLabels hd.phases, linksNodeLines_eq F hd.coordsLabels,
    linksDispLines_eq hd]
  simp only [bind, Except.bind, pure, Except.pure]
  refine ⟨_, rfl, ?_⟩
  rw [hd.connsLabels.1, hd.coordsLabels.1]
  have h2 := fileLines_lines _ (linksMeshLines_newline hF nDim coords conns phase disps) []
  rw [List.append_nil, show fileLines [] = [] from rfl, List.append_nil] at h2
  rw [← h2, ← fileLines_append, ← fileLines_lines _ (linksTypeLines_newline hT g phases.length),
    ← fileLines_append]
  congr 1
  unfold linksMeshLines linksTypeLines linksElemKey linksNodeKey linksDispKey
  rw [show "\nELEMENT_TYPES 1\n".toList = '\n' :: ("ELEMENT_TYPES 1".toList ++ ['\n']) by decide,
    show " GP\n".toList = " GP".toList ++ ['\n'] by decide,
    show "\nMATERIALS ".toList = '\n' :: "MATERIALS ".toList by decide,
    show "\nELEMENTS ".toList = '\n' :: ("ELEMENTS".toList ++ [' ']) by decide,
    show "\nNODE_COORDINATES ".toList = '\n' :: ("NODE_COORDINATES".toList ++ [' ']) by decide,
    show " CARTESIAN\n".toList = " CARTESIAN".toList ++ ['\n'] by decide,
    show "\nNODES_WITH_PRESCRIBED_DISPLACEMENTS ".toList
      = '\n' :: ("NODES_WITH_PRESCRIBED_DISPLACEMENTS".toList ++ [' ']) by decide]
  generalize (linksHeader ip increm phases) = HL
  generalize "ELEMENT_TYPES 1".toList = s1
  generalize " GP".toList = s2
  generalize "MATERIALS ".toList = s3
  generalize "ELEMENTS".toList = s4
  generalize "NODE_COORDINATES".toList = s5
  generalize " CARTESIAN".toList = s6
  generalize "NODES_WITH_PRESCRIBED_DISPLACEMENTS".toList = s7
  generalize "1 ".toList = s8
  generalize "  ".toList = s9
  simp

/-! ## Keywords in the lines -/

theorem linksElemTypeData_cases {nDim : ℕ} {t : String} {T : Text} {g : ℕ}
    (h : linksElemTypeData nDim t = .ok (T, g)) :
    (T = "QUAD4".toList ∧ g = 4) ∨ (T = "QUAD8".toList ∧ g = 4) ∨ (T = "HEXA8".toList ∧ g = 8) ∨
      (T = "HEXA20".toList ∧ g = 8) := by
  unfold linksElemTypeData at h
  split_ifs at h <;> cases h <;> simp

/-- The last three keywords. -/
def linksMeshKeywords : List Text :=
  ["ELEMENTS", "NODE_COORDINATES", "NODES_WITH_PRESCRIBED_DISPLACEMENTS"].map String.toList

theorem linksMeshKeywords_mem {kw : Text} (h : kw ∈ linksMeshKeywords) :
    kw ∈ linksKeywords ∧ 'N' ∈ kw ∧ 'S' ∈ kw ∧ searchWord kw [] = false := by
  simp only [linksMeshKeywords, List.map_cons, List.map_nil, List.mem_cons, List.not_mem_nil,
    or_false] at h
  rcases h with rfl | rfl | rfl <;> decide

theorem linksTypeLines_noKey {T : Text} {g : ℕ} (n : ℕ)
    (hT : (T = "QUAD4".toList ∧ g = 4) ∨ (T = "QUAD8".toList ∧ g = 4) ∨
      (T = "HEXA8".toList ∧ g = 8) ∨ (T = "HEXA20".toList ∧ g = 8)) {kw : Text}
    (hk : kw ∈ linksMeshKeywords) : ∀ l ∈ linksTypeLines T g n, searchWord kw l = false := by
  intro l hl
  simp only [linksTypeLines, List.mem_cons, List.not_mem_nil, or_false] at hl
  rcases hl with rfl | rfl | rfl | rfl | rfl
  · simp only [linksMeshKeywords, List.map_cons, List.map_nil, List.mem_cons, List.not_mem_nil,
      or_false] at hk
    rcases hk with rfl | rfl | rfl <;> decide
  · refine searchWord_false (linksMeshKeywords_mem hk).2.1 ?_
    rcases hT with ⟨rfl, rfl⟩ | ⟨rfl, rfl⟩ | ⟨rfl, rfl⟩ | ⟨rfl, rfl⟩ <;> decide
  · exact literal_noKey 'N' (linksMeshKeywords_mem hk).2.1 (by decide) (by decide) (by decide)
  · exact (linksMeshKeywords_mem hk).2.2.2
  · have := literal_noKey (n := n) (a := "MATERIALS ".toList) (b := []) 'N'
      (linksMeshKeywords_mem hk).2.1 (by decide) (by decide) (by decide)
    rwa [List.append_nil] at this

theorem linksElemKey_noKey (n : ℕ) :
    searchWord "NODE_COORDINATES".toList (linksElemKey n) = false ∧
    searchWord "NODES_WITH_PRESCRIBED_DISPLACEMENTS".toList (linksElemKey n) = false := by
  have h : ∀ kw : Text, 'O' ∈ kw → searchWord kw (linksElemKey n) = false := by
    intro kw hk
    have := literal_noKey (n := n) (a := "ELEMENTS ".toList) (b := []) 'O' hk (by decide)
      (by decide) (by decide)
    rw [List.append_nil] at this
    exact this
  exact ⟨h _ (by decide), h _ (by decide)⟩

theorem linksNodeKey_noKey (n : ℕ) :
    searchWord "NODES_WITH_PRESCRIBED_DISPLACEMENTS".toList (linksNodeKey n) = false := by
  have := literal_noKey (n := n) (kw := "NODES_WITH_PRESCRIBED_DISPLACEMENTS".toList)
    (a := "NODE_COORDINATES ".toList) (b := " CARTESIAN".toList) 'W' (by decide) (by decide)
    (by decide) (by decide)
  exact this

theorem linksElemKey_key (n : ℕ) : searchWord "ELEMENTS".toList (linksElemKey n) = true :=
  searchWord_prefix _ _ rfl (by decide)

theorem linksNodeKey_key (n : ℕ) : searchWord "NODE_COORDINATES".toList (linksNodeKey n) = true :=
  searchWord_prefix _ _ rfl (by decide)

theorem linksDispKey_key (n : ℕ) :
    searchWord "NODES_WITH_PRESCRIBED_DISPLACEMENTS".toList (linksDispKey n) = true :=
  searchWord_prefix _ _ rfl (by decide)

theorem splitBlank_key {kw : Text} (hne : kw ≠ []) (hb : ∀ c ∈ kw, isBlankChar c = false) (n : ℕ)
    (r : Text) :
    ∃ fs, splitBlank (kw ++ ' ' :: (strNat n ++ ' ' :: r)) = kw :: strNat n :: fs ∧
      splitBlank (kw ++ ' ' :: strNat n) = [kw, strNat n] := by
  have h1 : splitBlank (strNat n) = [strNat n] :=
    splitBlank_word (strNat_ne_nil n) fun c hc => isBlankChar_digit (isDigit_of_mem_strNat hc)
  refine ⟨splitBlank r, ?_, ?_⟩
  · rw [splitBlank_append (by decide), splitBlank_append (by decide), splitBlank_word hne hb, h1]
    rfl
  · rw [splitBlank_append (by decide), splitBlank_word hne hb, h1]
    rfl

theorem keyCount {l kw : Text} {n : ℕ} {fs : List Text} (h : splitBlank l = kw :: strNat n :: fs) :
    fieldOf l 1 = .ok (strNat n) ∧ intOfText (strNat n) = .ok (n : ℤ) := by
  refine ⟨by unfold fieldOf; rw [h]; rfl, ?_⟩
  have := intOfText_strNat 0 n
  simpa using this

/-! ## Loops -/

theorem rowEvent_fold {α β : Type} {row : Text → Py α} {f : β → Text} {g : β → α} (bs : List β)
    (h : ∀ b ∈ bs, row (f b) = .ok (g b)) (acc : List α) :
    (((bs.map f).map ScanEvent.data).foldlM (rowEvent row) (some acc))
      = .ok (some (acc ++ bs.map g)) := by
  induction bs generalizing acc with
  | nil => simp [pure, Except.pure]
  | cons b bs ih =>
    rw [List.map_cons, List.map_cons, List.foldlM_cons]
    have h1 : rowEvent row (some acc) (ScanEvent.data (f b)) = .ok (some (acc ++ [g b])) := by
      unfold rowEvent
      dsimp only
      rw [h b (by simp)]
      rfl
    rw [h1]
    have := ih (fun b hb => h b (by simp [hb])) (acc ++ [g b])
    simp only [bind, Except.bind]
    rw [this]
    simp

/-- Reading the rows of a section between lines without its keyword. -/
theorem extractRows_section {α β : Type} {kw : Text} {row : Text → Py (List α)} {f : β → Text}
    {g : β → List α} {file : Text} {pre post : List Text} {key : Text} (bs : List β) {n : ℕ}
    {fs : List Text}
    (hf : fileLines file = pre ++ (key :: (bs.map f ++ [] :: post)))
    (hpre : ∀ l ∈ pre, searchWord kw l = false) (hkey : searchWord kw key = true)
    (hfs : splitBlank key = kw :: strNat n :: fs)
    (hd : ∀ b ∈ bs, searchWord kw (f b) = false ∧ endsSection (f b) = false ∧
      row (f b) = .ok (g b))
    (hnil : searchWord kw [] = false) (hw : ∃ w, ∀ b ∈ bs, (g b).length = w) :
    extractRows kw row file = .ok (bs.map g) := by
  unfold extractRows
  rw [hf, scanLines_skip _ _ hpre, scanLines_key _ _ hkey, scanLines_data, scanLines_blank_stop _ hnil,
    List.append_nil]
  · rw [List.foldlM_cons]
    have h1 : rowEvent row none (ScanEvent.key key) = .ok (some []) := by
      unfold rowEvent
      simp only [(keyCount hfs).1, (keyCount hfs).2, bind, Except.bind, pure, Except.pure]
    rw [h1]
    have h2 := rowEvent_fold (row := row) bs (fun b hb => (hd b hb).2.2) []
    simp only [bind, Except.bind]
    rw [h2]
    have h3 : sameLength (bs.map g) = true := by
      obtain ⟨w, hw⟩ := hw
      refine sameLength_of (w := w) ?_
      intro r hr
      obtain ⟨b, hb, rfl⟩ := List.mem_map.mp hr
      exact hw b hb
    simp [orRaise, raiseIf, h3, pure, Except.pure]
  · intro l hl
    obtain ⟨b, hb, rfl⟩ := List.mem_map.mp hl
    exact (hd b hb).1
  · intro l hl
    obtain ⟨b, hb, rfl⟩ := List.mem_map.mp hl
    exact (hd b hb).2.1

theorem dispEvent_fold {F : NumberText} {f : ℕ → Text} {g : ℕ → KDict ℕ ℝ} (ns : List ℕ)
    (hn : ns.Nodup) (h : ∀ n ∈ ns, dispLine F (f n) = .ok ((n : ℤ), g n)) (acc : DirichletBcs)
    (ha : ∀ n ∈ ns, (n : ℤ) ∉ acc.keys) :
    (((ns.map f).map ScanEvent.data).foldlM (dispEvent F) (some acc))
      = .ok (some (acc ++ ns.map fun n : ℕ => ((n : ℤ), g n))) := by
  induction ns generalizing acc with
  | nil => simp [pure, Except.pure]
  | cons n ns ih =>
    rw [List.map_cons, List.map_cons, List.foldlM_cons]
    have h1 : dispEvent F (some acc) (ScanEvent.data (f n)) = .ok (some (acc ++ [((n : ℤ), g n)])) := by
      unfold dispEvent
      dsimp only
      rw [h n (by simp)]
      simp only [orRaise, bind, Except.bind, pure, Except.pure]
      rw [put_of_notMem _ _ _ (ha n (by simp))]
    rw [h1]
    rw [List.nodup_cons] at hn
    have := ih hn.2 (fun b hb => h b (by simp [hb])) (acc ++ [((n : ℤ), g n)]) (by
      intro m hm
      unfold KDict.keys
      rw [List.map_append, List.mem_append, not_or]
      refine ⟨ha m (by simp [hm]), ?_⟩
      simp only [List.map_cons, List.map_nil, List.mem_singleton, Nat.cast_inj]
      rintro rfl
      exact hn.1 hm)
    simp only [bind, Except.bind]
    rw [this]
    simp

/-! ## Extraction -/

theorem elemRow {i m : ℕ} (e : List ℤ) (hm : m < 1000) :
    ((splitBlank (linksElemText i m e)).drop 2).mapM intOfText = .ok e := by
  rw [splitBlank_elem i m e hm, List.drop_succ_cons, List.drop_succ_cons, List.drop_zero,
    List.mapM_map]
  have := mapM_of_forall (l := e) (f := intOfText ∘ textOfInt) (g := id)
    fun z _ => intOfText_word z
  rwa [List.map_id] at this

theorem nodeRow {F : NumberText} {rd : ℝ → ℝ} (hF : FaithfulText F rd) (i : ℕ) (r : List ℝ) :
    ((splitBlank (linksNodeText F i r)).drop 1).mapM F.float = .ok (r.map rd) := by
  rw [splitBlank_node, List.drop_succ_cons, List.drop_zero]
  obtain ⟨h1, h2⟩ := splitBlank_fmts hF r
  have := h2 r.length
  rwa [← h1, List.take_length, h1, List.take_length] at this

theorem dispRow {F : NumberText} {rd : ℝ → ℝ} (hF : FaithfulText F rd) (n : ℕ) {v : List ℝ}
    (hl : v.length = 3) (hs : ∀ x, v.head? = some x → (F.fmt x).head? = some ' ') :
    dispLine F (linksDispText F n v)
      = .ok ((n : ℤ), (v.zipIdx 1).map fun p : ℝ × ℕ => (p.2, rd p.1)) := by
  have hsp := splitBlank_disp n v (by rintro rfl; cases hl) hs
  obtain ⟨-, h2⟩ := splitBlank_fmts hF v
  have h3 := h2 3
  rw [List.take_of_length_le (l := v) (by omega)] at h3
  unfold dispLine fieldOf
  rw [hsp]
  obtain ⟨a, b, c, rfl⟩ := List.length_eq_three.mp hl
  simp only [List.getElem?_cons_zero, List.getElem?_cons_succ, orRaise, bind, Except.bind,
    List.drop_succ_cons, List.drop_zero, intOfText_word, h3, pure, Except.pure]
  rfl

theorem keywordFree_split {s kw : Text} (h : KeywordFree s) (hk : kw ∈ linksMeshKeywords) :
    ∀ l ∈ splitText (· == '\n') s, searchWord kw l = false :=
  fun _ hl => keywordFree_line h hl (linksMeshKeywords_mem hk).1

/-- The element type is read. -/
theorem extractElemType_of {file H : Text} {T : Text} {g n : ℕ} {post : List Text}
    (hH : KeywordFree H)
    (hT : (T = "QUAD4".toList ∧ g = 4) ∨ (T = "QUAD8".toList ∧ g = 4) ∨
      (T = "HEXA8".toList ∧ g = 8) ∨ (T = "HEXA20".toList ∧ g = 8))
    (hf : fileLines file = splitText (· == '\n') H ++ (linksTypeLines T g n ++ post)) :
    extractElemType file = .ok (T, (g : ℤ)) := by
  unfold extractElemType
  have hl : linksTypeLines T g n ++ post
      = "ELEMENT_TYPES 1".toList :: (["1 ".toList ++ T, "  ".toList ++ strNat g ++ " GP".toList]
        ++ [] :: (("MATERIALS ".toList ++ strNat n) :: post)) := rfl
  rw [hf, hl, scanLines_skip _ _ fun l hl => keywordFree_line hH hl (by decide),
    scanLines_key _ _ (by decide), scanLines_data, scanLines_blank_stop _ (by decide)]
  · rcases hT with ⟨rfl, rfl⟩ | ⟨rfl, rfl⟩ | ⟨rfl, rfl⟩ | ⟨rfl, rfl⟩ <;> rfl
  · rcases hT with ⟨rfl, rfl⟩ | ⟨rfl, rfl⟩ | ⟨rfl, rfl⟩ | ⟨rfl, rfl⟩ <;> decide
  · rcases hT with ⟨rfl, rfl⟩ | ⟨rfl, rfl⟩ | ⟨rfl, rfl⟩ | ⟨rfl, rfl⟩ <;> decide

/-- **C106.** The mesh and the prescribed displacements of a simulation are read back from its
Links input data file: the element type, the coordinates (rounded to the digits written), the
connectivities, and the prescribed displacements of exactly the nodes that have them, in the order
of the labels. -/
theorem C106_extract {F : NumberText} {rd : ℝ → ℝ} (hF : FaithfulText F rd) {nDim : ℕ}
    {coords : List (List ℝ)} {conns : List (List ℤ)} {cd : KDict ℕ (List ℝ)}
    {ed : KDict ℕ (List ℤ)} {phase : KDict ℕ ℕ} {disps : KDict ℕ (List (Option ℝ))}
    (hd : LinksData nDim coords conns cd ed phase disps) (hp : ShortPhases phase)
    (hb : BlankBefore F disps) {t : String} {T : Text} {g : ℕ}
    (ht : linksElemTypeData nDim t = .ok (T, g)) (ip : LinksParams) (increm : List Text)
    (phases : List ℕ) (materials : List Text)
    (hH : KeywordFree (linksHeader ip increm phases).flatten) (hM : KeywordFree materials.flatten) :
    ∃ file, writeLinksFile F nDim ip increm phases T g materials cd ed phase disps = .ok file ∧
      extractElemType file = .ok (T, (g : ℤ)) ∧
      extractCoords F file = .ok (coords.map fun r => r.map rd) ∧
      extractConns file = .ok conns ∧
      ∃ d, extractBcs F file = .ok d ∧ (d.map Prod.fst).Pairwise (· < ·) ∧
        d.length = disps.length ∧
        ∀ n b, (n, b) ∈ d ↔
          ∃ m v, (m, v.map some) ∈ disps ∧ n = (m : ℤ) ∧ b = readDisps rd nDim v := by
  have hT := linksElemTypeData_cases ht
  have hTn : '\n' ∉ T := by
    rcases hT with ⟨rfl, rfl⟩ | ⟨rfl, rfl⟩ | ⟨rfl, rfl⟩ | ⟨rfl, rfl⟩ <;> decide
  obtain ⟨file, hw, hf⟩ := writeLinks_lines hF hd ip increm phases hTn g materials
  have hpre : ∀ kw ∈ linksMeshKeywords,
      ∀ l ∈ splitText (· == '\n') (linksHeader ip increm phases).flatten
        ++ (linksTypeLines T g phases.length ++ splitText (· == '\n') materials.flatten),
      searchWord kw l = false := by
    intro kw hk l hl
    simp only [List.mem_append] at hl
    rcases hl with hl | hl | hl
    · exact keywordFree_split hH hk l hl
    · exact linksTypeLines_noKey _ hT hk l hl
    · exact keywordFree_split hM hk l hl
  have hels : ∀ kw ∈ linksMeshKeywords, ∀ l ∈ linksElemTexts conns phase,
      searchWord kw l = false := by
    intro kw hk l hl
    obtain ⟨i, -, rfl⟩ := List.mem_map.mp hl
    exact (linksElemText_data _ _ _).noLinksKey (linksMeshKeywords_mem hk).2.2.1
  have hnds : ∀ kw ∈ linksMeshKeywords, ∀ l ∈ linksNodeTexts F coords,
      searchWord kw l = false := by
    intro kw hk l hl
    obtain ⟨i, -, rfl⟩ := List.mem_map.mp hl
    exact (linksNodeText_data hF _ _).noLinksKey (linksMeshKeywords_mem hk).2.2.1
  refine ⟨file, hw, extractElemType_of hH hT hf, ?_, ?_, ?_⟩
  · -- coordinates
    unfold extractCoords
    obtain ⟨fs, hfs, -⟩ := splitBlank_key (kw := "NODE_COORDINATES".toList) (by decide) (by decide)
      coords.length "CARTESIAN".toList
    rw [extractRows_section (kw := "NODE_COORDINATES".toList) (List.range coords.length)
      (f := fun i => linksNodeText F (i + 1) (coords[i]?.getD []))
      (g := fun i => (coords[i]?.getD []).map rd) (n := coords.length) (fs := fs)
      (key := linksNodeKey coords.length)
      (pre := splitText (· == '\n') (linksHeader ip increm phases).flatten
        ++ (linksTypeLines T g phases.length ++ splitText (· == '\n') materials.flatten)
        ++ (linksElemKey conns.length :: (linksElemTexts conns phase ++ [[]])))
      (post := linksDispKey disps.length :: linksDispTexts F nDim disps)]
    · have := congrArg (List.map fun r => List.map rd r) (range_getD coords [])
      rw [List.map_map] at this
      exact congrArg Except.ok this
    · rw [hf]
      unfold linksMeshLines linksNodeTexts
      simp
    · intro l hl
      rcases List.mem_append.mp hl with hl | hl
      · exact hpre _ (by decide) l hl
      rw [List.mem_cons, List.mem_append, List.mem_singleton] at hl
      rcases hl with rfl | hl | rfl
      · exact (linksElemKey_noKey _).1
      · exact hels _ (by decide) l hl
      · decide
    · exact linksNodeKey_key _
    · exact hfs
    · intro i _
      exact ⟨(linksNodeText_data hF _ _).noLinksKey (by decide), (linksNodeText_data hF _ _).noEnd,
        nodeRow hF _ _⟩
    · decide
    · obtain ⟨w, hw⟩ := hd.coordsWidth
      refine ⟨w, fun i hi => ?_⟩
      rw [List.mem_range] at hi
      rw [List.getElem?_eq_getElem hi, Option.getD_some, List.length_map]
      exact hw _ (List.getElem_mem hi)
  · -- connectivities
    unfold extractConns
    obtain ⟨-, -, hfs⟩ := splitBlank_key (kw := "ELEMENTS".toList) (by decide) (by decide)
      conns.length []
    rw [extractRows_section (kw := "ELEMENTS".toList) (List.range conns.length)
      (f := fun i => linksElemText (i + 1) (linksPhase phase i) (conns[i]?.getD []))
      (g := fun i => conns[i]?.getD []) (n := conns.length) (fs := [])
      (key := linksElemKey conns.length)
      (pre := splitText (· == '\n') (linksHeader ip increm phases).flatten
        ++ (linksTypeLines T g phases.length ++ splitText (· == '\n') materials.flatten))
      (post := linksNodeKey coords.length :: (linksNodeTexts F coords
        ++ ([] :: linksDispKey disps.length :: linksDispTexts F nDim disps)))]
    · rw [range_getD]
    · rw [hf]
      unfold linksMeshLines linksElemTexts
      simp
    · exact hpre _ (by decide)
    · exact linksElemKey_key _
    · exact hfs
    · intro i hi
      rw [List.mem_range] at hi
      obtain ⟨m, hm⟩ := hd.phases i hi
      refine ⟨(linksElemText_data _ _ _).noLinksKey (by decide), (linksElemText_data _ _ _).noEnd,
        elemRow _ ?_⟩
      unfold linksPhase
      rw [hm]
      exact hp _ _ hm
    · decide
    · obtain ⟨w, hw⟩ := hd.connsWidth
      refine ⟨w, fun i hi => ?_⟩
      rw [List.mem_range] at hi
      rw [List.getElem?_eq_getElem hi, Option.getD_some]
      exact hw _ (List.getElem_mem hi)
  · -- prescribed displacements
    have hsort := sortedLabels_lt hd.dispsLabels
    refine ⟨(sortedLabels disps).map fun n : ℕ =>
      ((n : ℤ), ((linksDispValues nDim disps n).zipIdx 1).map fun p : ℝ × ℕ => (p.2, rd p.1)),
      ?_, ?_, ?_, ?_⟩
    · have hf' : fileLines file = (splitText (· == '\n') (linksHeader ip increm phases).flatten
          ++ (linksTypeLines T g phases.length ++ splitText (· == '\n') materials.flatten)
          ++ (linksElemKey conns.length :: (linksElemTexts conns phase
          ++ ([] :: linksNodeKey coords.length :: (linksNodeTexts F coords ++ [[]])))))
          ++ (linksDispKey disps.length :: (linksDispTexts F nDim disps ++ [])) := by
        rw [hf]
        unfold linksMeshLines
        simp
      unfold extractBcs
      rw [hf', scanLines_skip, scanLines_key _ _ (linksDispKey_key _), scanLines_data,
        show scanLines (searchWord "NODES_WITH_PRESCRIBED_DISPLACEMENTS".toList) true true [] = []
          from rfl, List.append_nil, List.foldlM_cons]
      · have h1 : dispEvent F none (ScanEvent.key (linksDispKey disps.length)) = .ok (some []) := rfl
        rw [h1]
        have h2 := dispEvent_fold (F := F) (f := fun n => linksDispText F n (linksDispValues nDim disps n))
          (g := fun n => ((linksDispValues nDim disps n).zipIdx 1).map
            fun p : ℝ × ℕ => (p.2, rd p.1)) (sortedLabels disps)
          (hsort.imp fun h => ne_of_lt h) (by
            intro n hn
            obtain ⟨v, hv, -, he, hl, x, w, rfl⟩ := linksDispValues_of hd hn
            refine dispRow hF n hl fun y hy => ?_
            rw [he] at hy
            simp only [List.cons_append, List.head?_cons, Option.some.injEq] at hy
            subst hy
            exact hb n x (w.map some) hv) [] (by simp [KDict.keys])
        simp only [bind, Except.bind]
        unfold linksDispTexts
        rw [h2]
        rfl
      · intro l hl
        obtain ⟨i, -, rfl⟩ := List.mem_map.mp hl
        exact (linksDispText_data hF _ _).noLinksKey (by decide)
      · intro l hl
        obtain ⟨i, -, rfl⟩ := List.mem_map.mp hl
        exact (linksDispText_data hF _ _).noEnd
      · intro l hl
        rcases List.mem_append.mp hl with hl | hl
        · exact hpre _ (by decide) l hl
        rw [List.mem_cons, List.mem_append, List.mem_cons, List.mem_cons,
          List.mem_append, List.mem_singleton] at hl
        rcases hl with rfl | hl | rfl | rfl | hl | rfl
        · exact (linksElemKey_noKey _).2
        · exact hels _ (by decide) l hl
        · decide
        · exact linksNodeKey_noKey _
        · exact hnds _ (by decide) l hl
        · decide
    · rw [List.map_map, List.pairwise_map]
      exact hsort.imp fun h => by simpa using h
    · rw [List.length_map, sortedLabels_length]
    · intro n b
      rw [List.mem_map]
      constructor
      · rintro ⟨m, hm, h⟩
        cases h
        obtain ⟨v, hv, -, he, -⟩ := linksDispValues_of hd hm
        exact ⟨m, v, hv, rfl, by rw [he]; rfl⟩
      · rintro ⟨m, v, hv, rfl, rfl⟩
        have hn : m ∈ sortedLabels disps := mem_sortedLabels.mpr (List.mem_map.mpr ⟨_, hv, rfl⟩)
        obtain ⟨v', -, hg, he, -⟩ := linksDispValues_of hd hn
        have hg' : disps.get? m = some (v.map some) := get?_of_mem disps hd.dispsLabels _ _ hv
        rw [hg] at hg'
        have hvv : v' = v :=
          List.map_injective_iff.mpr (Option.some_injective ℝ) (Option.some.inj hg')
        subst hvv
        exact ⟨m, hn, by rw [he]; rfl⟩

end Hooke
