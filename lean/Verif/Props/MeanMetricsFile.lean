import Verif.Spec.MeanMetrics
import Verif.Spec.NumberFormat
import Verif.Props.NumberFormat
import Verif.Props.PredictionData
import Verif.Props.LearnableParameters

/-!
# C117: the file of the mean prediction metrics
-/

namespace Hooke

open Spec

/-! ## Patterns -/

theorem searchCI_cons {p : Char} {ps : Text} {c : Char} (cs : Text) (h : p.toLower ≠ c.toLower) :
    searchCI (p :: ps) (c :: cs) = searchCI (p :: ps) cs := by
  rw [searchCI, afterPrefixCI, if_neg h]
  rfl

theorem searchCI_skip {p : Char} {ps : Text} (a b : Text) (h : ∀ c ∈ a, p.toLower ≠ c.toLower) :
    searchCI (p :: ps) (a ++ b) = searchCI (p :: ps) b := by
  induction a with
  | nil => rfl
  | cons c a ih =>
    rw [List.cons_append, searchCI_cons _ (h c (by simp)), ih fun d hd => h d (by simp [hd])]

theorem afterPrefixCI_isSome {p s : Text} (h : (afterPrefixCI p s).isSome = true) :
    ∃ r, s.map Char.toLower = p.map Char.toLower ++ r := by
  induction p generalizing s with
  | nil => exact ⟨s.map Char.toLower, rfl⟩
  | cons c p ih =>
    cases s with
    | nil => rw [afterPrefixCI] at h; cases h
    | cons d s =>
      rw [afterPrefixCI] at h
      by_cases hcd : c.toLower = d.toLower
      · rw [if_pos hcd] at h
        obtain ⟨r, hr⟩ := ih h
        exact ⟨r, by simp [hcd, hr]⟩
      · rw [if_neg hcd] at h; cases h

theorem searchCI_pieces {p s : Text} (h : searchCI p s = true) :
    ∃ a r, s.map Char.toLower = a ++ p.map Char.toLower ++ r := by
  induction s with
  | nil =>
    obtain ⟨r, hr⟩ := afterPrefixCI_isSome h
    exact ⟨[], r, hr⟩
  | cons c s ih =>
    rw [searchCI, Bool.or_eq_true] at h
    rcases h with h | h
    · obtain ⟨r, hr⟩ := afterPrefixCI_isSome h
      exact ⟨[], r, hr⟩
    · obtain ⟨a, r, hr⟩ := ih h
      exact ⟨c.toLower :: a, r, by simp [hr]⟩

theorem searchCI_notMem {p s : Text} {c : Char} (hc : c ∈ p) (h : ∀ d ∈ s, c.toLower ≠ d.toLower) :
    searchCI p s = false := by
  by_contra hn
  obtain ⟨a, r, he⟩ := searchCI_pieces (by simpa using hn)
  have : c.toLower ∈ s.map Char.toLower := by
    rw [he]
    simp only [List.mem_append]
    exact .inl (.inr (List.mem_map.mpr ⟨c, hc, rfl⟩))
  obtain ⟨d, hd, hcd⟩ := List.mem_map.mp this
  exact h d hd hcd.symm

/-! ## The lines of the file -/

/-- The line of a metric. -/
noncomputable def metricRow (p : String × List MetricVal) : Text :=
  "    > ".toList ++ p.1.toList ++ ": [".toList ++ joinText ", ".toList (p.2.map metricField)
    ++ "]".toList

/-- The lines of a process. -/
noncomputable def processRows (n : ℕ) (res : PyDict (List MetricVal)) (label : Text) : List Text :=
  [] :: ("> Process: ".toList ++ label) :: ("    > n_sample = ".toList ++ strNat n) ::
    (res.map metricRow ++ [[]])

theorem formatMetrics_rows (n : ℕ) (res : PyDict (List MetricVal)) (label : Text) :
    formatMetrics n res label = ((processRows n res label).map (· ++ ['\n'])).flatten := by
  have h : ∀ l : PyDict (List MetricVal), (l.map metricText).flatten ++ ['\n']
      = '\n' :: ((l.map metricRow).map (· ++ ['\n'])).flatten := by
    intro l
    induction l with
    | nil => rfl
    | cons p l ih =>
      have : metricText p = '\n' :: metricRow p := by
        unfold metricText metricRow
        simp
      simp only [List.map_cons, List.flatten_cons, List.append_assoc, ih, this]
      simp
  unfold formatMetrics processRows
  have e : "\n\n".toList = ['\n'] ++ ['\n'] := rfl
  rw [e, ← List.append_assoc, List.append_assoc (bs := (res.map metricText).flatten), h]
  simp

/-- The characters of a field. -/
theorem metricField_char (v : MetricVal) : ∀ c ∈ metricField v, c = ' ' ∨ NumeralChar c := by
  intro c hc
  cases v with
  | num x =>
    unfold metricField sciField padLeft at hc
    rcases List.mem_append.mp hc with hc | hc
    · exact .inl (List.eq_of_mem_replicate hc)
    · exact .inr (sciText_char 8 x c hc)
  | inf =>
    have : ∀ c ∈ metricField .inf, c = ' ' ∨ c ∈ ['+', '-', '.', 'e', 'i', 'n', 'f', 'a'] := by decide
    exact (this c hc).imp id .inr
  | nan =>
    have : ∀ c ∈ metricField .nan, c = ' ' ∨ c ∈ ['+', '-', '.', 'e', 'i', 'n', 'f', 'a'] := by decide
    exact (this c hc).imp id .inr

theorem metricField_notMem {v : MetricVal} {d : Char} (h1 : d ≠ ' ') (h2 : ¬ NumeralChar d) :
    d ∉ metricField v := by
  intro hd
  rcases metricField_char v d hd with h | h
  · exact h1 h
  · exact h2 h

/-- The text of a value. -/
noncomputable def metricWord : MetricVal → Text
  | .num x => sciText 8 x
  | .inf => "inf".toList
  | .nan => "nan".toList

theorem numeral_not_blank {c : Char} (h : NumeralChar c) : isBlankChar c = false := by
  rcases h with h | h
  · exact isBlankChar_digit h
  · revert h
    revert c
    decide

theorem strip_field (k : ℕ) (v : MetricVal) :
    stripText (List.replicate k ' ' ++ metricField v) = metricWord v := by
  have key : ∀ w : Text, (∀ c ∈ w, NumeralChar c) →
      stripText (List.replicate k ' ' ++ padLeft 15 w) = w := by
    intro w hw
    unfold padLeft
    rw [← List.append_assoc, List.replicate_append_replicate]
    exact stripText_word _ fun c hc => numeral_not_blank (hw c hc)
  cases v with
  | num x => exact key _ (sciText_char 8 x)
  | inf => exact key _ fun c hc => .inr (by revert hc; revert c; decide)
  | nan => exact key _ fun c hc => .inr (by revert hc; revert c; decide)

/-- The pieces between the commas. -/
noncomputable def metricPieces : List MetricVal → List Text
  | [] => [[]]
  | v :: vs => metricField v :: vs.map fun u => ' ' :: metricField u

theorem splitComma_fields (vs : List MetricVal) :
    splitComma (joinText ", ".toList (vs.map metricField)) = metricPieces vs := by
  have hc : ∀ v : MetricVal, ',' ∉ metricField v := fun v =>
    metricField_notMem (by decide) (by unfold NumeralChar; decide)
  cases vs with
  | nil => rfl
  | cons v vs =>
    rw [List.map_cons, splitComma_join _ _ (hc v)]
    · simp [metricPieces]
    · intro y hy
      obtain ⟨u, -, rfl⟩ := List.mem_map.mp hy
      exact hc u

theorem dropWhile_digits {a b : Text} (ha : ∀ c ∈ a, c.isDigit = true)
    (hb : ∀ c, b.head? = some c → c.isDigit = false) : (a ++ b).dropWhile Char.isDigit = b := by
  induction a with
  | nil =>
    cases b with
    | nil => rfl
    | cons c b => rw [List.nil_append, List.dropWhile_cons, if_neg (by simp [hb c rfl])]
  | cons c a ih =>
    rw [List.cons_append, List.dropWhile_cons, if_pos (ha c (by simp)), ih fun d hd => ha d (by simp [hd])]

theorem isNumberPattern_sci (x : ℝ) : isNumberPattern (sciText 8 x) = true := by
  have hd : ∀ (w n : ℕ), ∀ c ∈ zeroPad w (strNat n), c.isDigit = true := fun w n c hc => zeroPad_digit hc
  unfold sciText
  dsimp only
  generalize hz : zeroPad (8 + 1) (strNat (sciParts 8 x).1) = ds
  have hds : ∀ c ∈ ds, c.isDigit = true := by
    rw [← hz]
    exact hd _ _
  have hne : ds ≠ [] := by
    rw [← hz]
    unfold zeroPad
    simp [strNat_ne_nil]
  obtain ⟨c, cs, rfl⟩ := List.exists_cons_of_ne_nil hne
  generalize hk : zeroPad 2 (strNat (sciParts 8 x).2.natAbs) = k
  have hkd : ∀ c ∈ k, c.isDigit = true := by
    rw [← hk]
    exact hd _ _
  have hkn : k ≠ [] := by
    rw [← hk]
    unfold zeroPad
    simp [strNat_ne_nil]
  have hp : (parseInt k).isSome = true := by
    unfold parseInt
    rw [if_pos ⟨hkn, by simpa using hkd⟩]
    rfl
  have hc := hds c (by simp)
  have h1 : ∀ sg : Text, sg = ['-'] ∨ sg = [] →
      dropChar '-' (sg ++ [c] ++ '.' :: cs ++ 'e' :: (if (sciParts 8 x).2 < 0 then '-' else '+') :: k)
        = [c] ++ '.' :: (cs ++ 'e' :: (if (sciParts 8 x).2 < 0 then '-' else '+') :: k) := by
    rintro sg (rfl | rfl)
    · simp [dropChar]
    · have : c ≠ '-' := by rintro rfl; cases hc
      simp [dropChar, this]
  unfold isNumberPattern
  have e1 : (c :: cs).take 1 = [c] := rfl
  have e2 : (c :: cs).drop 1 = cs := rfl
  rw [e1, e2, h1 _ (by split_ifs <;> simp), dropWhile_digits (by simpa using hc) (by
    intro d hd
    cases hd
    rfl)]
  have h2 : ∀ t : Text, dropChar '.' ('.' :: t) = t := fun t => by simp [dropChar]
  rw [h2, dropWhile_digits (fun d hd => hds d (by simp [hd])) (by
    intro d hd
    cases hd
    rfl)]
  split_ifs
  · exact hp
  · exact hp

theorem pattern_word (v : MetricVal) : isNumberPattern (metricWord v) = v.num?.isSome := by
  cases v with
  | num x => exact isNumberPattern_sci x
  | inf => decide
  | nan => decide

theorem strip_piece {vs : List MetricVal} {f : Text} (hf : f ∈ metricPieces vs) :
    (vs = [] ∧ stripText f = []) ∨ ∃ v ∈ vs, stripText f = metricWord v := by
  cases vs with
  | nil =>
    have : f = [] := by simpa [metricPieces] using hf
    subst this
    exact .inl ⟨rfl, rfl⟩
  | cons v vs =>
    unfold metricPieces at hf
    rcases List.mem_cons.mp hf with rfl | hf
    · exact .inr ⟨v, by simp, strip_field 0 v⟩
    · obtain ⟨u, hu, rfl⟩ := List.mem_map.mp hf
      exact .inr ⟨u, by simp [hu], strip_field 1 u⟩

theorem mem_intercalate {sep : Text} {xs : List Text} {c : Char} (h : c ∈ joinText sep xs) :
    c ∈ sep ∨ ∃ x ∈ xs, c ∈ x := by
  unfold joinText List.intercalate at h
  obtain ⟨l, hl, hc⟩ := List.mem_flatten.mp h
  induction xs with
  | nil => simp at hl
  | cons x xs ih =>
    cases xs with
    | nil =>
      have : l = x := by simpa using hl
      exact .inr ⟨x, by simp, this ▸ hc⟩
    | cons y ys =>
      rw [List.intersperse_cons₂] at hl
      rcases List.mem_cons.mp hl with rfl | hl
      · exact .inr ⟨_, by simp, hc⟩
      · rcases List.mem_cons.mp hl with rfl | hl
        · exact .inl hc
        · have hj : c ∈ (List.intersperse sep (y :: ys)).flatten := List.mem_flatten.mpr ⟨l, hl, hc⟩
          rcases ih hj hl with h | ⟨z, hz, h⟩
          · exact .inl h
          · exact .inr ⟨z, by simp [List.mem_cons.mp hz], h⟩

theorem fields_char {vs : List MetricVal} {c : Char}
    (h : c ∈ joinText ", ".toList (vs.map metricField)) : c = ',' ∨ c = ' ' ∨ NumeralChar c := by
  rcases mem_intercalate h with h | ⟨x, hx, h⟩
  · have : c = ',' ∨ c = ' ' := by simpa using h
    exact this.imp id .inl
  · obtain ⟨v, -, rfl⟩ := List.mem_map.mp hx
    exact .inr (metricField_char v c h)

theorem word_not_blank {c : Char} (h : c.isAlphanum = true ∨ c = '_') : isBlankChar c = false := by
  by_contra hb
  have hb : isBlankChar c = true := by simpa using hb
  unfold isBlankChar at hb
  simp only [Bool.or_eq_true, beq_iff_eq] at hb
  rcases hb with ((((rfl | rfl) | rfl) | rfl) | rfl) | rfl <;> revert h <;> decide

theorem takeWhile_stop {α : Type} {p : α → Bool} {a : List α} {c : α} (b : List α)
    (ha : ∀ x ∈ a, p x = true) (hc : p c = false) :
    (a ++ c :: b).takeWhile p = a ∧ (a ++ c :: b).dropWhile p = c :: b := by
  induction a with
  | nil => simp [hc]
  | cons x a ih =>
    have := ih fun y hy => ha y (by simp [hy])
    simp [ha x (by simp), this]

/-- What the line of a metric is read as. -/
theorem metricLine_row {p : String × List MetricVal} (hn : MetricName p.1) :
    metricLine (metricRow p) = if ∀ v ∈ p.2, v.num?.isSome then some (p.1.toList, metricPieces p.2)
      else none := by
  obtain ⟨m, vs⟩ := p
  obtain ⟨hne, hw⟩ := hn
  have hword : ∀ c ∈ m.toList, isWordChar c = true := by
    intro c hc
    unfold isWordChar
    rcases hw c hc with h | rfl
    · simp [h]
    · rfl
  generalize hJ : joinText ", ".toList (vs.map metricField) = J
  have hbr : ']' ∉ J := by
    rw [← hJ]
    intro h
    rcases fields_char h with h | h | h
    · exact absurd h (by decide)
    · exact absurd h (by decide)
    · exact absurd h (by unfold NumeralChar; decide)
  have h1 : (metricRow (m, vs)).dropWhile isBlankChar
      = '>' :: ' ' :: (m.toList ++ ':' :: ' ' :: '[' :: (J ++ [']'])) := by
    unfold metricRow
    rw [hJ]
    have e : "    > ".toList = List.replicate 4 ' ' ++ ['>', ' '] := rfl
    rw [e]
    simp only [List.append_assoc]
    rw [dropWhile_blanks]
    simp [isBlankChar]
  have h2 : (' ' :: (m.toList ++ ':' :: ' ' :: '[' :: (J ++ [']']))).dropWhile isBlankChar
      = m.toList ++ ':' :: ' ' :: '[' :: (J ++ [']']) := by
    rw [List.dropWhile_cons, if_pos (by decide)]
    obtain ⟨c, cs, hm⟩ := List.exists_cons_of_ne_nil hne
    rw [hm, List.cons_append, List.dropWhile_cons, if_neg]
    rw [word_not_blank (hw c (by rw [hm]; simp))]
    decide
  have h3 := takeWhile_stop (c := ':') (' ' :: '[' :: (J ++ [']'])) hword (by decide)
  have h4 : (' ' :: '[' :: (J ++ [']'])).dropWhile isBlankChar = '[' :: (J ++ [']']) := by
    rw [List.dropWhile_cons, if_pos (by decide), List.dropWhile_cons, if_neg (by decide)]
  have h5 : (J ++ [']']).takeWhile (· ≠ ']') = J :=
    (takeWhile_stop (p := fun x => decide (x ≠ ']')) (c := ']') [] (fun x hx => by
      have : x ≠ ']' := fun e => hbr (e ▸ hx)
      simpa using this) (by decide)).1
  have h6 : splitComma J = metricPieces vs := by rw [← hJ, splitComma_fields]
  obtain ⟨c, cs, hm⟩ := List.exists_cons_of_ne_nil hne
  unfold metricLine
  rw [h1]
  simp only
  rw [h2, h3.1, h3.2, hm]
  simp only
  rw [h4]
  simp only
  rw [h5, h6]
  have h7 : (']' ∈ J ++ [']'] ∧ ∀ f ∈ metricPieces vs, isNumberPattern (stripText f) = true) ↔
      ∀ v ∈ vs, v.num?.isSome = true := by
    constructor
    · rintro ⟨-, h⟩ v hv
      cases vs with
      | nil => cases hv
      | cons u us =>
        rcases List.mem_cons.mp hv with rfl | hv
        · have := h (metricField v) (by simp [metricPieces])
          rwa [show stripText (metricField v) = metricWord v from strip_field 0 v, pattern_word] at this
        · have := h (' ' :: metricField v) (by
            unfold metricPieces
            exact List.mem_cons_of_mem _ (List.mem_map.mpr ⟨v, hv, rfl⟩))
          rwa [show stripText (' ' :: metricField v) = metricWord v from strip_field 1 v,
            pattern_word] at this
    · intro h
      refine ⟨by simp, fun f hf => ?_⟩
      rcases strip_piece hf with ⟨-, e⟩ | ⟨v, hv, e⟩
      · rw [e]; decide
      · rw [e, pattern_word, h v hv]
  simp only [h7]

theorem metricWord_ne_nil (v : MetricVal) : metricWord v ≠ [] := by
  cases v with
  | num x => exact sciText_ne_nil 8 x
  | inf => decide
  | nan => decide

theorem fieldValues_pieces (xs : List ℝ) :
    fieldValues (metricPieces (xs.map .num)) = .ok (xs.map (roundSig 8)) := by
  have h0 : ∀ k : ℕ, ∀ x : ℝ, stripText (List.replicate k ' ' ++ metricField (.num x)) = sciText 8 x :=
    fun k x => strip_field k (.num x)
  unfold fieldValues
  cases xs with
  | nil =>
    have : metricPieces (([] : List ℝ).map .num) = [[]] := rfl
    rw [this]
    rfl
  | cons x xs =>
    rw [List.map_cons, metricPieces]
    have e0 : stripText (metricField (.num x)) = sciText 8 x := h0 0 x
    have e1 : ∀ y : ℝ, stripText (' ' :: metricField (.num y)) = sciText 8 y := fun y => h0 1 y
    rw [List.filter_eq_self.mpr]
    · rw [List.mapM_cons, e0, C113_read]
      simp only [orRaise, bind, Except.bind, List.map_map]
      rw [List.mapM_map]
      rw [mapM_of_forall (g := fun y => roundSig 8 y)]
      · rfl
      · intro y _
        simp only [Function.comp_apply]
        rw [e1, C113_read]
    · intro f hf
      rcases List.mem_cons.mp hf with rfl | hf
      · rw [e0]; simp [sciText_ne_nil]
      · simp only [List.map_map, List.mem_map, Function.comp_apply] at hf
        obtain ⟨y, -, rfl⟩ := hf
        rw [e1]; simp [sciText_ne_nil]

/-! ## Reading the lines -/

theorem toLower_eq_equals {c : Char} (h : '='.toLower = c.toLower) : c = '=' := by
  have e : '='.toLower = '=' := by decide
  rw [e] at h
  unfold Char.toLower at h
  split_ifs at h with hu
  · exfalso
    have hv := congrArg Char.val h
    simp only at hv
    have h2 : ('='.val).toNat = (c.val + ('a'.val - 'A'.val)).toNat := congrArg _ hv
    have h1 : 65 ≤ c.val.toNat ∧ c.val.toNat ≤ 90 := by
      simpa [UInt32.le_iff_toNat_le] using hu
    rw [UInt32.toNat_add] at h2
    have h3 : ('a'.val - 'A'.val : UInt32).toNat = 32 := by decide
    have h4 : '='.val.toNat = 61 := by decide
    rw [h3, h4] at h2
    omega
  · exact h.symm

theorem key_samples (n : ℕ) :
    searchCI "n_sample =".toList ("    > n_sample = ".toList ++ strNat n) = true := by
  have e : "    > n_sample = ".toList ++ strNat n
      = "    > ".toList ++ ("n_sample =".toList ++ ' ' :: strNat n) := by simp
  have e2 : "n_sample =".toList = 'n' :: "_sample =".toList := rfl
  rw [e, e2, searchCI_skip _ _ (by decide), ← e2]
  have h := afterPrefixCI_append "n_sample =".toList (' ' :: strNat n)
  generalize "n_sample =".toList ++ ' ' :: strNat n = t at h
  cases t with
  | nil => rw [searchCI, h]; rfl
  | cons c t => rw [searchCI, h]; rfl

theorem samplesOf_row (n : ℕ) : samplesOf ("    > n_sample = ".toList ++ strNat n) = some n := by
  have hskip : ∀ (a b : Text), (∀ c ∈ a, c ≠ 'n') → samplesOf (a ++ b) = samplesOf b := by
    intro a b ha
    induction a with
    | nil => rfl
    | cons c a ih =>
      rw [List.cons_append, samplesOf]
      have : samplesHere (c :: (a ++ b)) = none := by
        unfold samplesHere
        have e2 : "n_sample".toList = 'n' :: "_sample".toList := rfl
        rw [e2, afterPrefix_ne fun e => ha c (by simp) e.symm]
      rw [this]
      exact ih fun d hd => ha d (by simp [hd])
  have e : "    > n_sample = ".toList ++ strNat n
      = "    > ".toList ++ ("n_sample".toList ++ ' ' :: '=' :: ' ' :: strNat n) := by simp
  rw [e, hskip _ _ (by decide)]
  have hh : samplesHere ("n_sample".toList ++ ' ' :: '=' :: ' ' :: strNat n) = some n := by
    unfold samplesHere
    rw [afterPrefix_append]
    have h1 : (' ' :: '=' :: ' ' :: strNat n).dropWhile isBlankChar = '=' :: ' ' :: strNat n := by
      rw [List.dropWhile_cons, if_pos (by decide), List.dropWhile_cons, if_neg (by decide)]
    have h2 : (' ' :: strNat n).dropWhile isBlankChar = strNat n := by
      rw [List.dropWhile_cons, if_pos (by decide)]
      exact dropWhile_self fun c hc => isBlankChar_digit (isDigit_of_mem_strNat hc)
    have h3 : (strNat n).takeWhile Char.isDigit = strNat n := by
      have h := fun c (hc : c ∈ strNat n) => isDigit_of_mem_strNat hc
      generalize strNat n = w at h
      induction w with
      | nil => rfl
      | cons c w ih =>
        rw [List.takeWhile_cons, if_pos (h c (by simp)), ih fun d hd => h d (by simp [hd])]
    simp only
    rw [h1]
    simp only
    rw [h2, h3, parseInt_strNat]
  generalize "n_sample".toList ++ ' ' :: '=' :: ' ' :: strNat n = t at hh
  cases t with
  | nil => exact hh
  | cons c t => rw [samplesOf, hh]

theorem metricRow_not_key {p : String × List MetricVal} (hn : MetricName p.1) :
    searchCI "n_sample =".toList (metricRow p) = false := by
  refine searchCI_notMem (c := '=') (by decide) ?_
  intro d hd he
  have := toLower_eq_equals he
  subst this
  unfold metricRow at hd
  simp only [List.mem_append] at hd
  rcases hd with (((hd | hd) | hd) | hd) | hd
  · exact absurd hd (by decide)
  · rcases hn.2 _ hd with h | h
    · exact absurd h (by decide)
    · exact absurd h (by decide)
  · exact absurd hd (by decide)
  · rcases fields_char hd with h | h | h
    · exact absurd h (by decide)
    · exact absurd h (by decide)
    · exact absurd h (by unfold NumeralChar; decide)
  · exact absurd hd (by decide)

theorem metricRow_not_end (p : String × List MetricVal) : endsSection (metricRow p) = false := by
  have e : metricRow p = ' ' :: ("   > ".toList ++ p.1.toList ++ ": [".toList ++
      joinText ", ".toList (p.2.map metricField) ++ "]".toList) := rfl
  refine endsSection_false (c := '>') ?_ ?_ (by decide)
  · rw [e]; simp
  · rw [e]; simp

theorem label_not_key {l : Text} (h : PlainLabel l) :
    searchCI "n_sample =".toList ("> Process: ".toList ++ l) = false := by
  have e2 : "n_sample =".toList = 'n' :: "_sample =".toList := rfl
  rw [e2, searchCI_skip _ _ (by decide), ← e2]
  by_contra hn
  obtain ⟨a, r, he⟩ := searchCI_pieces (by simpa using hn)
  exact h.2.2 a r he

/-- Lines before the section. -/
theorem loop_skip {n : Option ℕ} {acc : PyDict (List ℝ)} (ls rest : List Text)
    (h : ∀ l ∈ ls, searchCI "n_sample =".toList l = false) :
    readMetricsLoop n false acc (ls ++ rest) = readMetricsLoop n false acc rest := by
  induction ls with
  | nil => rfl
  | cons l ls ih =>
    rw [List.cons_append, readMetricsLoop, if_neg (by rw [h l (by simp)]; decide)]
    simp only [Bool.false_and, Bool.false_eq_true, if_false]
    exact ih fun m hm => h m (by simp [hm])

theorem loop_key {n : Option ℕ} {acc : PyDict (List ℝ)} (k : ℕ) (rest : List Text) :
    readMetricsLoop n false acc (("    > n_sample = ".toList ++ strNat k) :: rest)
      = readMetricsLoop n (decide (n = none ∨ n = some k)) acc rest := by
  rw [readMetricsLoop, if_pos (key_samples k), samplesOf_row]
  simp only [Bool.false_or]

/-- The metrics of the section. -/
theorem loop_metrics {n : Option ℕ} (ms : PyDict (List ℝ)) (acc : PyDict (List ℝ)) (rest : List Text)
    (hn : ∀ m ∈ ms.keys, MetricName m) (hd : (acc.keys ++ ms.keys).Nodup) :
    readMetricsLoop n true acc ((ms.map fun p => metricRow (p.1, p.2.map .num)) ++ rest)
      = readMetricsLoop n true (acc ++ ms.map fun p => (p.1, p.2.map (roundSig 8))) rest := by
  induction ms generalizing acc with
  | nil => simp
  | cons p ms ih =>
    have hp : MetricName p.1 := hn p.1 (by simp [KDict.keys])
    rw [List.map_cons, List.cons_append, readMetricsLoop,
      if_neg (by rw [metricRow_not_key (p := (p.1, p.2.map .num)) hp]; decide)]
    have hall : ∀ v ∈ p.2.map MetricVal.num, v.num?.isSome = true := by
      intro v hv
      obtain ⟨x, -, rfl⟩ := List.mem_map.mp hv
      rfl
    rw [metricRow_not_end, metricLine_row (p := (p.1, p.2.map .num)) hp]
    simp only [Bool.and_false, Bool.false_eq_true, if_false, if_true]
    rw [if_pos hall]
    simp only
    rw [fieldValues_pieces]
    simp only
    rw [String.ofList_toList, put_of_notMem, ih]
    · simp
    · exact fun m hm => hn m (by simp only [KDict.keys, List.map_cons, List.mem_cons]; exact .inr hm)
    · simpa [KDict.keys, List.append_assoc] using hd
    · intro hmem
      have := List.disjoint_of_nodup_append hd hmem
      exact this (by simp [KDict.keys])

/-- A metric that is not finite stops the reading. -/
theorem loop_not_finite {n : Option ℕ} (ms : PyDict (List MetricVal)) (acc : PyDict (List ℝ))
    (rest : List Text) (hn : ∀ m ∈ ms.keys, MetricName m) (hf : ∃ p ∈ ms, ∃ v ∈ p.2, NotFinite v) :
    readMetricsLoop n true acc (ms.map metricRow ++ rest) = .error .attributeError := by
  induction ms generalizing acc with
  | nil => simp at hf
  | cons p ms ih =>
    have hp : MetricName p.1 := hn p.1 (by simp [KDict.keys])
    rw [List.map_cons, List.cons_append, readMetricsLoop,
      if_neg (by rw [metricRow_not_key hp]; decide), metricRow_not_end, metricLine_row hp]
    simp only [Bool.and_false, Bool.false_eq_true, if_false, if_true]
    by_cases hall : ∀ v ∈ p.2, v.num?.isSome = true
    · rw [if_pos hall]
      simp only
      have hx : ∃ xs : List ℝ, p.2 = xs.map .num := by
        generalize p.2 = vs at hall
        induction vs with
        | nil => exact ⟨[], rfl⟩
        | cons v vs ih =>
          obtain ⟨xs, hxs⟩ := ih fun u hu => hall u (by simp [hu])
          cases hv : v with
          | num x => exact ⟨x :: xs, by rw [hxs]; rfl⟩
          | inf => have := hall v (by simp); rw [hv] at this; cases this
          | nan => have := hall v (by simp); rw [hv] at this; cases this
      obtain ⟨xs, hxs⟩ := hx
      rw [hxs, fieldValues_pieces]
      simp only
      refine ih _ (fun m hm => hn m (by simp only [KDict.keys, List.map_cons, List.mem_cons]; exact .inr hm)) ?_
      obtain ⟨q, hq, v, hv, hv'⟩ := hf
      rcases List.mem_cons.mp hq with rfl | hq
      · have := hall v hv
        cases hvv : v with
        | num x => exact absurd hvv (hv' x)
        | inf => rw [hvv] at this; cases this
        | nan => rw [hvv] at this; cases this
      · exact ⟨q, hq, v, hv, hv'⟩
    · rw [if_neg hall]

/-! ## The file -/

/-- The first lines of the file. -/
def headRows : List Text := [[], "Mean prediction metrics".toList, "-----------------------".toList]

/-- The values of a record. -/
noncomputable def recordValues (p : ProcessRecord) : PyDict (List MetricVal) :=
  p.metrics.map fun m => (m.1, m.2.map .num)

theorem newFile_rows (n : ℕ) (res : PyDict (List MetricVal)) (label : Text) (o : Bool) :
    writeMetrics none o n res label
      = ((headRows ++ processRows n res label).map (· ++ ['\n'])).flatten := by
  have e : writeMetrics none o n res label
      = "\nMean prediction metrics\n-----------------------\n".toList ++ formatMetrics n res label := by
    cases o <;> rfl
  rw [e, formatMetrics_rows, List.map_append, List.flatten_append]
  rfl

theorem file_rows (ps : List ProcessRecord) (p : ProcessRecord) :
    (p :: ps).foldl (fun f p => some (writeMetrics f false p.n (recordValues p) p.label)) none
      = some (((headRows ++ (p :: ps).flatMap fun p => processRows p.n (recordValues p) p.label).map
          (· ++ ['\n'])).flatten) := by
  rw [List.foldl_cons, newFile_rows]
  have key : ∀ (qs : List ProcessRecord) (rows : List Text),
      qs.foldl (fun f p => some (writeMetrics f false p.n (recordValues p) p.label))
        (some ((rows.map (· ++ ['\n'])).flatten))
        = some (((rows ++ qs.flatMap fun p => processRows p.n (recordValues p) p.label).map
          (· ++ ['\n'])).flatten) := by
    intro qs
    induction qs with
    | nil => intro rows; simp
    | cons q qs ih =>
      intro rows
      rw [List.foldl_cons]
      have e : writeMetrics (some ((rows.map (· ++ ['\n'])).flatten)) false q.n (recordValues q) q.label
          = ((rows ++ processRows q.n (recordValues q) q.label).map (· ++ ['\n'])).flatten := by
        rw [List.map_append, List.flatten_append, ← formatMetrics_rows]
        rfl
      rw [e, ih]
      simp
  rw [key]
  simp

theorem metricRow_newline {p : String × List MetricVal} (hn : MetricName p.1) : '\n' ∉ metricRow p := by
  intro hd
  unfold metricRow at hd
  simp only [List.mem_append] at hd
  rcases hd with (((hd | hd) | hd) | hd) | hd
  · exact absurd hd (by decide)
  · rcases hn.2 _ hd with h | h
    · exact absurd h (by decide)
    · exact absurd h (by decide)
  · exact absurd hd (by decide)
  · rcases fields_char hd with h | h | h
    · exact absurd h (by decide)
    · exact absurd h (by decide)
    · exact absurd h (by unfold NumeralChar; decide)
  · exact absurd hd (by decide)

theorem processRows_newline {n : ℕ} {res : PyDict (List MetricVal)} {label : Text} (hl : '\n' ∉ label)
    (hn : ∀ m ∈ res.keys, MetricName m) : ∀ l ∈ processRows n res label, '\n' ∉ l := by
  intro l h
  unfold processRows at h
  simp only [List.mem_cons, List.mem_append, List.not_mem_nil, or_false] at h
  rcases h with rfl | rfl | rfl | h | rfl
  · simp
  · intro h
    rcases List.mem_append.mp h with h | h
    · exact absurd h (by decide)
    · exact hl h
  · intro h
    rcases List.mem_append.mp h with h | h
    · exact absurd h (by decide)
    · exact absurd (isDigit_of_mem_strNat h) (by decide)
  · obtain ⟨p, hp, rfl⟩ := List.mem_map.mp h
    exact metricRow_newline (hn _ (List.mem_map.mpr ⟨p, hp, rfl⟩))
  · simp

theorem headRows_plain : ∀ l ∈ headRows, '\n' ∉ l ∧ searchCI "n_sample =".toList l = false := by
  decide

theorem recordValues_keys (p : ProcessRecord) : (recordValues p).keys = p.metrics.keys := by
  unfold recordValues KDict.keys
  simp [Function.comp_def]

/-- The lines of a process up to the number of samples. -/
theorem loop_process {q : Option ℕ} {acc : PyDict (List ℝ)} {n : ℕ} {res : PyDict (List MetricVal)}
    {label : Text} (hl : PlainLabel label) (rest : List Text) :
    readMetricsLoop q false acc (processRows n res label ++ rest)
      = readMetricsLoop q (decide (q = none ∨ q = some n)) acc (res.map metricRow ++ [] :: rest) := by
  have e : processRows n res label ++ rest = [[], "> Process: ".toList ++ label] ++
      (("    > n_sample = ".toList ++ strNat n) :: (res.map metricRow ++ [] :: rest)) := by
    simp [processRows]
  rw [e, loop_skip, loop_key]
  intro l hl'
  simp only [List.mem_cons, List.not_mem_nil, or_false] at hl'
  rcases hl' with rfl | rfl
  · decide
  · exact label_not_key hl

theorem loop_processes {q : Option ℕ} (ps : List ProcessRecord) (hp : ∀ p ∈ ps, ProperRecord p) :
    readMetricsLoop q false [] (ps.flatMap fun p => processRows p.n (recordValues p) p.label)
      = match ps.find? fun p => decide (q = none ∨ q = some p.n) with
        | none => .ok []
        | some p => .ok (p.metrics.map fun m => (m.1, m.2.map (roundSig 8))) := by
  induction ps with
  | nil => rfl
  | cons p ps ih =>
    have hpp := hp p (by simp)
    rw [List.flatMap_cons, loop_process hpp.label]
    by_cases hq : q = none ∨ q = some p.n
    · rw [List.find?_cons_of_pos (by simpa using hq), decide_eq_true hq]
      have e : (recordValues p).map metricRow
          = p.metrics.map fun m => metricRow (m.1, m.2.map .num) := by
        simp [recordValues, Function.comp_def]
      rw [e, loop_metrics p.metrics [] _ hpp.names hpp.nodup]
      rw [readMetricsLoop, if_neg (by decide)]
      rfl
    · rw [List.find?_cons_of_neg (by simpa using hq), decide_eq_false hq,
        ← ih fun r hr => hp r (by simp [hr])]
      have e : ((recordValues p).map metricRow ++ [] ::
          ps.flatMap fun p => processRows p.n (recordValues p) p.label)
          = ((recordValues p).map metricRow ++ [[]]) ++
            ps.flatMap fun p => processRows p.n (recordValues p) p.label := by simp
      rw [e, loop_skip]
      intro l hl
      rcases List.mem_append.mp hl with hl | hl
      · obtain ⟨m, hm, rfl⟩ := List.mem_map.mp hl
        refine metricRow_not_key (hpp.names _ ?_)
        rw [← recordValues_keys]
        exact List.mem_map.mpr ⟨m, hm, rfl⟩
      · have : l = [] := by simpa using hl
        subst this
        decide

/-- **C117 (file).** The metrics of processes, written one after the other, are read back with the
numbers rounded to nine digits: those of the first process, or of the first process with the given number
of samples.  Without such a process a `RuntimeError` is raised. -/
theorem C117_file {ps : List ProcessRecord} (hp : ∀ p ∈ ps, ProperRecord p) :
    ∃ rd, RoundsTo 8 rd ∧ ∀ file,
      ps.foldl (fun f p => some (writeMetrics f false p.n
        (p.metrics.map fun m => (m.1, m.2.map .num)) p.label)) none = some file →
      ∀ n : Option ℕ, readMetrics file n
        = match ps.find? fun p => decide (n = none ∨ n = some p.n) with
          | none => .error .runtimeError
          | some p => .ok (p.metrics.map fun m => (m.1, m.2.map rd)) := by
  refine ⟨roundSig 8, C113_rounding 8, fun file hf n => ?_⟩
  cases ps with
  | nil => cases hf
  | cons p ps =>
    have hf' : (p :: ps).foldl (fun f p => some (writeMetrics f false p.n (recordValues p) p.label)) none
        = some file := hf
    rw [file_rows] at hf'
    have hfile := (Option.some.inj hf').symm
    unfold readMetrics
    rw [hfile, fileLines_flatten, loop_skip _ _ fun l hl => (headRows_plain l hl).2, loop_processes _ hp]
    · cases hfd : (p :: ps).find? fun p => decide (n = none ∨ n = some p.n) with
      | none => rfl
      | some r =>
        simp only [bind, Except.bind]
        rw [(raiseIf_ok (u := ())).mpr]
        · rfl
        · have := (hp r (List.mem_of_find?_eq_some hfd)).some
          simpa using this
    · intro l hl
      rcases List.mem_append.mp hl with hl | hl
      · exact (headRows_plain l hl).1
      · obtain ⟨r, hr, hl⟩ := List.mem_flatMap.mp hl
        exact processRows_newline (hp r hr).label.1 (by
          rw [recordValues_keys]
          exact (hp r hr).names) l hl

/-- **C117 (overwriting).** What was in the file before does not count. -/
theorem C117_overwrite (old : Option Text) (n : ℕ) (res : PyDict (List MetricVal)) (label : Text) :
    writeMetrics old true n res label = writeMetrics none false n res label := by
  cases old <;> rfl

/-- **C117 is violated for metrics that are not finite.** A file with an infinite entry or an entry that
is not a number, as the normalized error of a feature whose ground truth is zero, cannot be read: an
`AttributeError` is raised. -/
theorem C117_not_finite_violated {res : PyDict (List MetricVal)} {label : Text} (hl : PlainLabel label)
    (hn : ∀ m ∈ res.keys, MetricName m) (hf : ∃ p ∈ res, ∃ v ∈ p.2, NotFinite v) (n : ℕ)
    {q : Option ℕ} (hq : q = none ∨ q = some n) :
    readMetrics (writeMetrics none false n res label) q = .error .attributeError := by
  unfold readMetrics
  rw [newFile_rows, fileLines_flatten, loop_skip _ _ fun l hl => (headRows_plain l hl).2]
  · have := loop_process (q := q) (acc := []) (n := n) (res := res) hl []
    rw [List.append_nil] at this
    rw [this, decide_eq_true hq, loop_not_finite res [] _ hn hf]
    rfl
  · intro l hl'
    rcases List.mem_append.mp hl' with hl' | hl'
    · exact (headRows_plain l hl').1
    · exact processRows_newline hl.1 hn l hl'

end Hooke
