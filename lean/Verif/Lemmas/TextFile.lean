import Verif.Model.TextFile
import Verif.Lemmas.ModelState

namespace Hooke

/-! ## Splitting -/

theorem splitText_ne_nil (p : Char → Bool) (s : Text) : splitText p s ≠ [] := by
  cases s with
  | nil => simp [splitText]
  | cons c cs =>
    unfold splitText
    split
    · simp
    · split <;> simp

theorem splitText_none {p : Char → Bool} {s : Text} (h : ∀ c ∈ s, p c = false) :
    splitText p s = [s] := by
  induction s with
  | nil => rfl
  | cons c cs ih =>
    unfold splitText
    rw [if_neg (by simp [h c (by simp)]), ih fun d hd => h d (by simp [hd])]

theorem splitText_append {p : Char → Bool} {sep : Char} (hs : p sep = true) (a b : Text) :
    splitText p (a ++ sep :: b) = splitText p a ++ splitText p b := by
  induction a with
  | nil => simp [splitText, hs]
  | cons c cs ih =>
    simp only [List.cons_append]
    rw [splitText, splitText]
    by_cases hc : p c = true
    · rw [if_pos hc, if_pos hc, ih]; rfl
    · rw [if_neg hc, if_neg hc, ih]
      cases h : splitText p cs with
      | nil => exact absurd h (splitText_ne_nil p cs)
      | cons x xs => rfl

/-- The fields of a joined line. -/
theorem splitComma_join (x : Text) (xs : List Text) (hx : ',' ∉ x) (hxs : ∀ y ∈ xs, ',' ∉ y) :
    splitComma (joinText ", ".toList (x :: xs)) = x :: xs.map (' ' :: ·) := by
  induction xs generalizing x with
  | nil =>
    unfold splitComma joinText
    simp only [List.intercalate_singleton, List.map_nil]
    refine splitText_none fun c hc => ?_
    have : c ≠ ',' := fun h => hx (h ▸ hc)
    simpa using this
  | cons y ys ih =>
    have h1 : joinText ", ".toList (x :: y :: ys)
        = x ++ ',' :: joinText ", ".toList ((' ' :: y) :: ys) := by
      unfold joinText
      cases ys <;> simp [List.intercalate, List.intersperse]
    rw [h1]
    unfold splitComma at ih ⊢
    rw [splitText_append (by decide), ih (' ' :: y) (by simpa using hxs y (by simp))
      fun z hz => hxs z (by simp [hz]), splitText_none]
    · simp
    · intro c hc
      have : c ≠ ',' := fun h => hx (h ▸ hc)
      simpa using this

/-- The lines of a file written line by line. -/
theorem fileLines_flatten (ls : List Text) (h : ∀ l ∈ ls, '\n' ∉ l) :
    fileLines ((ls.map (· ++ ['\n'])).flatten) = ls := by
  have key : splitText (· == '\n') ((ls.map (· ++ ['\n'])).flatten) = ls ++ [[]] := by
    induction ls with
    | nil => rfl
    | cons l ls ih =>
      simp only [List.map_cons, List.flatten_cons, List.append_assoc, List.cons_append,
        List.nil_append]
      rw [splitText_append (by decide), ih fun m hm => h m (by simp [hm]), splitText_none]
      · rfl
      · intro c hc
        have : c ≠ '\n' := fun e => h l (by simp) (e ▸ hc)
        simpa using this
  unfold fileLines
  rw [key]
  simp

/-! ## Blanks -/

theorem dropWhile_blanks (k : ℕ) (s : Text) :
    (List.replicate k ' ' ++ s).dropWhile isBlankChar = s.dropWhile isBlankChar := by
  induction k with
  | zero => simp
  | succ k ih =>
    rw [List.replicate_succ, List.cons_append, List.dropWhile_cons, if_pos (by decide), ih]

theorem dropWhile_self {s : Text} (h : ∀ c ∈ s, isBlankChar c = false) :
    s.dropWhile isBlankChar = s := by
  cases s with
  | nil => rfl
  | cons c cs => rw [List.dropWhile_cons, if_neg (by simp [h c (by simp)])]

/-- A word between blanks on the left. -/
theorem stripText_word (k : ℕ) {w : Text} (h : ∀ c ∈ w, isBlankChar c = false) :
    stripText (List.replicate k ' ' ++ w) = w := by
  unfold stripText
  rw [dropWhile_blanks, dropWhile_self h, dropWhile_self (s := w.reverse)
    fun c hc => h c (by simpa using hc), List.reverse_reverse]

theorem mem_dropWhile_of_not {α : Type} {p : α → Bool} {s : List α} {c : α} (hc : c ∈ s)
    (h : p c = false) : c ∈ s.dropWhile p := by
  induction s with
  | nil => cases hc
  | cons d ds ih =>
    rw [List.dropWhile_cons]
    split
    · rename_i hd
      rcases List.mem_cons.mp hc with rfl | hc'
      · rw [h] at hd; cases hd
      · exact ih hc'
    · exact hc

theorem stripText_ne_nil {s : Text} {c : Char} (hc : c ∈ s) (h : isBlankChar c = false) :
    stripText s ≠ [] := by
  intro h'
  unfold stripText at h'
  have h1 : c ∈ (s.dropWhile isBlankChar).reverse :=
    List.mem_reverse.mpr (mem_dropWhile_of_not hc h)
  have h2 := List.mem_reverse.mpr (mem_dropWhile_of_not h1 h)
  rw [h'] at h2
  cases h2

theorem isBlankChar_digit {c : Char} (h : c.isDigit = true) : isBlankChar c = false := by
  by_contra hb
  rw [Bool.not_eq_false] at hb
  unfold isBlankChar at hb
  simp only [Bool.or_eq_true, beq_iff_eq] at hb
  rcases hb with ((((rfl | rfl) | rfl) | rfl) | rfl) | rfl <;> exact absurd h (by decide)

/-! ## Numbers -/

theorem intOfText_digits {w : Text} {s : Text} (hs : stripText s = w)
    (hw : ∀ c ∈ w, c.isDigit = true) :
    intOfText s = (orRaise (parseInt w) .valueError).map fun n : ℕ => (n : ℤ) := by
  unfold intOfText
  rw [hs]
  split
  · exact absurd (hw '-' (by simp)) (by decide)
  · exact absurd (hw '+' (by simp)) (by decide)
  · rfl

theorem intOfText_strNat (k n : ℕ) : intOfText (List.replicate k ' ' ++ strNat n) = .ok (n : ℤ) := by
  rw [intOfText_digits (stripText_word k fun c hc => isBlankChar_digit (isDigit_of_mem_strNat hc))
    (fun c hc => isDigit_of_mem_strNat hc), parseInt_strNat]
  rfl

theorem intOfText_textOfInt (k : ℕ) (z : ℤ) :
    intOfText (List.replicate k ' ' ++ textOfInt z) = .ok z := by
  unfold textOfInt
  by_cases hz : z < 0
  · rw [if_pos hz]
    have : stripText (List.replicate k ' ' ++ '-' :: strNat z.natAbs) = '-' :: strNat z.natAbs := by
      refine stripText_word k fun c hc => ?_
      rcases List.mem_cons.mp hc with rfl | hc
      · decide
      · exact isBlankChar_digit (isDigit_of_mem_strNat hc)
    unfold intOfText
    rw [this]
    have : -(z.natAbs : ℤ) = z := by omega
    simp only [parseInt_strNat, orRaise, Except.map, this]
  · rw [if_neg hz, intOfText_strNat]
    congr 1
    omega

theorem textOfInt_natCast (n : ℕ) : textOfInt (n : ℤ) = strNat n := by
  unfold textOfInt
  rw [if_neg (by omega), Int.natAbs_natCast]

theorem intOfText_padLeft (w : ℕ) (z : ℤ) : intOfText (padLeft w (textOfInt z)) = .ok z :=
  intOfText_textOfInt _ z

theorem intOfText_space (z : ℤ) : intOfText (' ' :: textOfInt z) = .ok z :=
  intOfText_textOfInt 1 z

theorem intOfText_word (z : ℤ) : intOfText (textOfInt z) = .ok z :=
  intOfText_textOfInt 0 z

theorem textOfInt_ne_nil (z : ℤ) : textOfInt z ≠ [] := by
  unfold textOfInt
  split_ifs
  · simp
  · exact strNat_ne_nil _

/-! ## Keywords -/

theorem afterPrefixCI_none {pat s : Text} {c : Char} (hc : c ∈ pat)
    (h : ∀ d ∈ s, c.toLower ≠ d.toLower) : afterPrefixCI pat s = none := by
  induction pat generalizing s with
  | nil => cases hc
  | cons a as ih =>
    cases s with
    | nil => rfl
    | cons d ds =>
      unfold afterPrefixCI
      by_cases hd : a.toLower = d.toLower
      · rw [if_pos hd]
        rcases List.mem_cons.mp hc with rfl | hc'
        · exact absurd hd (h d (by simp))
        · exact ih hc' fun x hx => h x (by simp [hx])
      · rw [if_neg hd]

theorem searchWord_false {pat s : Text} {c : Char} (hc : c ∈ pat)
    (h : ∀ d ∈ s, c.toLower ≠ d.toLower) : searchWord pat s = false := by
  induction s with
  | nil =>
    unfold searchWord matchWord
    rw [afterPrefixCI_none hc h]
  | cons d ds ih =>
    unfold searchWord matchWord
    rw [afterPrefixCI_none hc h, ih fun x hx => h x (by simp [hx])]
    rfl

theorem isStarKeyword_false {s : Text} (h : s.head? ≠ some '*') : isStarKeyword s = false := by
  unfold isStarKeyword
  split
  · simp at h
  · rfl

theorem endsSection_false {s : Text} {c : Char} (h : s.head? ≠ some '*') (hc : c ∈ s)
    (hb : isBlankChar c = false) : endsSection s = false := by
  unfold endsSection
  rw [isStarKeyword_false h]
  simpa using stripText_ne_nil hc hb

/-! ## Scanning -/

theorem scanLines_skip {isKey : Text → Bool} {stops : Bool} (pre rest : List Text)
    (h : ∀ l ∈ pre, isKey l = false) :
    scanLines isKey stops false (pre ++ rest) = scanLines isKey stops false rest := by
  induction pre with
  | nil => rfl
  | cons l ls ih =>
    simp only [List.cons_append]
    rw [scanLines, if_neg (by simp [h l (by simp)])]
    simpa using ih fun m hm => h m (by simp [hm])

theorem scanLines_key {isKey : Text → Bool} {stops found : Bool} (l : Text) (rest : List Text)
    (h : isKey l = true) :
    scanLines isKey stops found (l :: rest) = .key l :: scanLines isKey stops true rest := by
  rw [scanLines, if_pos h]

theorem scanLines_data {isKey : Text → Bool} {stops : Bool} (ds rest : List Text)
    (h : ∀ l ∈ ds, isKey l = false) (he : ∀ l ∈ ds, endsSection l = false) :
    scanLines isKey stops true (ds ++ rest)
      = ds.map ScanEvent.data ++ scanLines isKey stops true rest := by
  induction ds with
  | nil => rfl
  | cons l ls ih =>
    simp only [List.cons_append]
    rw [scanLines, if_neg (by simp [h l (by simp)]), if_neg (by simp [he l (by simp)]),
      if_pos rfl, ih (fun m hm => h m (by simp [hm])) fun m hm => he m (by simp [hm])]
    rfl

theorem scanLines_blank_stop {isKey : Text → Bool} (rest : List Text) (h : isKey [] = false) :
    scanLines isKey true true ([] :: rest) = [] := by
  rw [scanLines, if_neg (by simp [h]), if_pos (by decide), if_pos rfl]

theorem scanLines_blank {isKey : Text → Bool} (rest : List Text) (h : isKey [] = false) :
    scanLines isKey false true ([] :: rest) = scanLines isKey false false rest := by
  rw [scanLines, if_neg (by simp [h]), if_pos (by decide), if_neg (by simp)]

theorem dataLines_map (ds : List Text) (es : List ScanEvent) :
    dataLines (ds.map ScanEvent.data ++ es) = ds ++ dataLines es := by
  induction ds with
  | nil => rfl
  | cons l ls ih => simp [dataLines, ih]

end Hooke
