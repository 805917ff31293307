import Verif.Props.NumberFormat

/-!
# C113: cases, and numbers that do not fit
-/

namespace Hooke

open Spec

/-! ## Cases -/

/-- `f'{-0.25:16.8e}'`. -/
example : sciField 16 8 (-1 / 4) = " -2.50000000e-01".toList := by
  have h : sciParts 8 (-1 / 4) = (250000000, -1) := by
    refine sciParts_exact (by norm_num) (by norm_num) ?_
    unfold partsValue
    norm_num [abs_of_neg]
  unfold sciField sciText
  rw [h, if_pos (by norm_num)]
  decide

/-- `f'{100:11.4e}'`. -/
example : sciField 11 4 100 = " 1.0000e+02".toList := by
  have h : sciParts 4 100 = (10000, 2) := by
    refine sciParts_exact (by norm_num) (by norm_num) ?_
    unfold partsValue
    norm_num
  unfold sciField sciText
  rw [h, if_neg (by norm_num)]
  decide

/-- Rounding up to the next power of ten: `f'{99999.6:.4e}'`. -/
example : sciText 4 99999.6 = "1.0000e+05".toList ∧ roundSig 4 99999.6 = 100000 := by
  have h0 : (99999.6 : ℝ) ≠ 0 := by norm_num
  have hl : Int.log 10 |(99999.6 : ℝ)| = 4 := log_unique (by norm_num) (by norm_num)
  have hs : scaled 4 99999.6 = 99999.6 := by
    unfold scaled
    rw [hl]
    norm_num
  have hf : ⌊(99999.6 : ℝ)⌋₊ = 99999 := by
    rw [Nat.floor_eq_iff (by norm_num)]
    norm_num
  have hr : roundEven 99999.6 = 100000 := by
    unfold roundEven
    rw [hf, if_neg (by norm_num), if_pos (by norm_num)]
  have hp : sciParts 4 99999.6 = (10000, 5) := by
    rw [sciParts_of h0, hs, hr, hl]
    norm_num
  constructor
  · unfold sciText
    rw [hp, if_neg (by norm_num)]
    decide
  · unfold roundSig partsValue
    rw [hp, if_neg (by norm_num)]
    norm_num

/-- A tie is rounded to the even digit: `f'{1.25:.1e}'`. -/
example : sciText 1 1.25 = "1.2e+00".toList := by
  have h0 : (1.25 : ℝ) ≠ 0 := by norm_num
  have hl : Int.log 10 |(1.25 : ℝ)| = 0 := log_unique (by norm_num) (by norm_num)
  have hs : scaled 1 1.25 = 12.5 := by
    unfold scaled
    rw [hl]
    norm_num
  have hf : ⌊(12.5 : ℝ)⌋₊ = 12 := by
    rw [Nat.floor_eq_iff (by norm_num)]
    norm_num
  have hr : roundEven 12.5 = 12 := by
    unfold roundEven
    rw [hf, if_neg (by norm_num), if_neg (by norm_num), if_pos (by norm_num)]
  have hp : sciParts 1 1.25 = (12, 0) := by
    rw [sciParts_of h0, hs, hr, hl]
    norm_num
  unfold sciText
  rw [hp, if_neg (by norm_num)]
  decide

/-- The texts of the numbers can be those of the scientific notation themselves. -/
example : FaithfulText (pythonNumbers (sciText 8)) (roundSig 8) := C113_faithful fun x => sciText_char 8 x

/-- The mesh of one triangle. -/
example : ∃ (str : ℝ → Text) (coords : List (List ℝ)) (conns : List (List ℤ)),
    (∀ x, ∀ c ∈ str x, NumeralChar c) ∧ ProperMesh 2 coords conns none ∧
    ("CPE3", "FETri3", 1) ∈ elementTable ∧ coords = [[0, 0], [1 / 3, 0], [0, 2 / 7]] := by
  refine ⟨sciText 8, _, [[1, 2, 3]], fun x => sciText_char 8 x, ⟨by norm_num, by simp,
    ⟨2, le_refl _, by simp⟩, by simp, ?_, ?_, by simp⟩, by decide, rfl⟩
  · simp
  · intro v h1 h2
    refine ⟨[1, 2, 3], by simp, ?_⟩
    have h3 : v ≤ 3 := h2
    simp only [List.mem_cons, List.not_mem_nil, or_false]
    omega

/-! ## Numbers that do not fit -/

theorem splitText_prefix {p : Char → Bool} {w : Text} (hw : ∀ c ∈ w, p c = false) (s : Text) :
    ∃ h t, splitText p (w ++ s) = (w ++ h) :: t := by
  induction w with
  | nil =>
    cases hs : splitText p s with
    | nil => exact absurd hs (splitText_ne_nil p s)
    | cons h t => exact ⟨h, t, by simpa using hs⟩
  | cons c w ih =>
    obtain ⟨h, t, ht⟩ := ih fun d hd => hw d (by simp [hd])
    refine ⟨h, t, ?_⟩
    rw [List.cons_append, splitText, hw c (by simp), ht]
    rfl

theorem splitBlank_prefix {w : Text} (hne : w ≠ []) (hw : ∀ c ∈ w, isBlankChar c = false) (s : Text) :
    ∃ h t, splitBlank (w ++ s) = (w ++ h) :: t := by
  obtain ⟨h, t, ht⟩ := splitText_prefix hw s
  refine ⟨h, t.filter (fun w => decide (w ≠ [])), ?_⟩
  unfold splitBlank
  rw [ht, List.filter_cons, if_pos (by simp [hne])]

theorem intOfText_valueError (s : Text) : intOfText s = .error .valueError ∨ ∃ z, intOfText s = .ok z := by
  have key : ∀ (r : Text) (f : ℕ → ℤ), (orRaise (parseInt r) PyErr.valueError).map f = .error .valueError ∨
      ∃ z, (orRaise (parseInt r) PyErr.valueError).map f = .ok z := by
    intro r f
    cases parseInt r with
    | none => exact .inl rfl
    | some n => exact .inr ⟨_, rfl⟩
  unfold intOfText
  split <;> exact key _ _

/-- A number with a minus sign and an exponent of three digits fills the field. -/
theorem sciField_full {x : ℝ} (hx : x < 0) (he : 100 ≤ (sciParts 8 x).2.natAbs) :
    ∃ s, sciField 16 8 x = '-' :: s := by
  have hl : 3 ≤ (zeroPad 2 (strNat (sciParts 8 x).2.natAbs)).length := by
    unfold zeroPad
    rw [List.length_append]
    have : 3 ≤ (strNat (sciParts 8 x).2.natAbs).length := by
      unfold strNat
      rw [if_neg (by omega), List.length_reverse, List.length_map]
      exact (Nat.lt_digits_length_iff (by norm_num) _).mpr (by omega)
    omega
  have hlen := sciText_length 8 x
  rw [if_pos hx] at hlen
  unfold sciField padLeft
  rw [show 16 - (sciText 8 x).length = 0 by omega, List.replicate_zero, List.nil_append]
  unfold sciText
  dsimp only
  rw [if_pos hx]
  exact ⟨_, rfl⟩

/-- The prescribed displacements of a node cannot be read if the first is written without a
blank before it. -/
theorem dispLine_glued {F : NumberText} {n : ℕ} {x : ℝ} {v : List ℝ} {s : Text}
    (h : F.fmt x = '-' :: s) : dispLine F (linksDispText F n (x :: v)) = .error .valueError := by
  obtain ⟨r, hr⟩ : ∃ r, joinText " ".toList ((x :: v).map F.fmt) = '-' :: r := by
    rw [List.map_cons, h]
    unfold joinText
    cases v with
    | nil => exact ⟨s, by simp⟩
    | cons y ys => exact ⟨s ++ ' ' :: joinText " ".toList ((y :: ys).map F.fmt), by
        unfold joinText
        simp [List.intercalate, List.intersperse]⟩
  have hsp : ∃ t fs, splitBlank (linksDispText F n (x :: v))
      = textOfInt (n : ℤ) :: ((((x :: v).map fun _ => '1') ++ ['-']) ++ t) :: fs := by
    unfold linksDispText
    rw [splitBlank_space, splitBlank_append (by decide), splitBlank_padLeft, hr]
    obtain ⟨t, fs, h1⟩ := splitBlank_prefix (w := ((x :: v).map fun _ => '1') ++ ['-']) (by simp)
      (by
        intro c hc
        rcases List.mem_append.mp hc with hc | hc
        · obtain ⟨y, -, rfl⟩ := List.mem_map.mp hc
          decide
        · rw [List.mem_singleton.mp hc]
          decide) r
    refine ⟨t, fs, ?_⟩
    rw [show (((x :: v).map fun _ => '1') ++ '-' :: r) = (((x :: v).map fun _ => '1') ++ ['-']) ++ r by simp,
      h1]
    rfl
  obtain ⟨t, fs, hsp⟩ := hsp
  unfold dispLine fieldOf
  rw [hsp]
  have hm : (((((x :: v).map fun _ => '1') ++ ['-']) ++ t).mapM fun c => intOfText [c])
      = .error .valueError :=
    mapM_error (x := '-') (by simp) (by decide) fun c _ => intOfText_valueError [c]
  simp only [List.getElem?_cons_zero, List.getElem?_cons_succ, orRaise, bind, Except.bind,
    intOfText_word, hm]

/-- **C113 is violated for tiny and huge negative displacements.** A negative number with an exponent of
three digits, such as -1e-100, fills its field of 16 characters: the prescribed displacements of
a node beginning with it, glued to the code before it, cannot be read. -/
theorem C113_glued_violated (str : ℝ → Text) (n : ℕ) (v : List ℝ) :
    (∀ x, x < 0 → 100 ≤ (sciParts 8 x).2.natAbs →
      dispLine (pythonNumbers str) (linksDispText (pythonNumbers str) n (x :: v))
        = .error .valueError) ∧
    (-(10 : ℝ) ^ (-100 : ℤ) < 0 ∧ (sciParts 8 (-(10 : ℝ) ^ (-100 : ℤ))).2 = -100) := by
  refine ⟨fun x hx he => ?_, by simp, ?_⟩
  · obtain ⟨s, hs⟩ := sciField_full hx he
    exact dispLine_glued hs
  · rw [sciParts_neg, sciParts_exact (m := 10 ^ 8) (e := -100) (by norm_num) (by norm_num)]
    rw [abs_of_pos (by positivity)]
    unfold partsValue
    dsimp only
    rw [← ten_nat, ten_mul]
    norm_num

end Hooke
