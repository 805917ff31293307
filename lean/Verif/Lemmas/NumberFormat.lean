import Verif.Model.NumberFormat
import Verif.Lemmas.LinksFile
import Verif.Lemmas.ModelState
import Mathlib.Algebra.Order.Field.Power
import Mathlib.Tactic.Linarith
import Mathlib.Tactic.Ring
import Mathlib.Tactic.FieldSimp
import Mathlib.Tactic.Positivity
import Mathlib.Tactic.NormNum

/-! # Texts of numbers: lemmas -/

namespace Hooke

theorem roundEven_error {y : ℝ} (hy : 0 ≤ y) : |(roundEven y : ℝ) - y| ≤ 1 / 2 := by
  have h1 := Nat.floor_le hy
  have h2 := Nat.lt_floor_add_one y
  unfold roundEven
  rw [abs_le]
  split_ifs with a b c
  · constructor <;> linarith
  · push_cast
    constructor <;> linarith
  · constructor <;> linarith
  · push_cast
    constructor <;> linarith

theorem roundEven_natCast (n : ℕ) : roundEven (n : ℝ) = n := by
  unfold roundEven
  rw [Nat.floor_natCast, if_pos (by norm_num)]

theorem roundEven_mono {y z : ℝ} (hy : 0 ≤ y) (h : y ≤ z) : roundEven y ≤ roundEven z := by
  have hf := Nat.floor_mono h
  rcases hf.lt_or_eq with hf | hf
  · have h1 : roundEven y ≤ ⌊y⌋₊ + 1 := by
      unfold roundEven
      split_ifs <;> omega
    have h2 : ⌊z⌋₊ ≤ roundEven z := by
      unfold roundEven
      split_ifs <;> omega
    omega
  · have h2 : (⌊y⌋₊ : ℝ) = (⌊z⌋₊ : ℝ) := by exact_mod_cast hf
    unfold roundEven
    rw [hf]
    rw [← h2]
    split_ifs <;> first | omega | (exfalso; linarith)

theorem roundEven_ge {n : ℕ} {y : ℝ} (h : (n : ℝ) ≤ y) : n ≤ roundEven y := by
  have := roundEven_mono (Nat.cast_nonneg n) h
  rwa [roundEven_natCast] at this

theorem roundEven_le {n : ℕ} {y : ℝ} (hy : 0 ≤ y) (h : y ≤ n) : roundEven y ≤ n := by
  have := roundEven_mono hy h
  rwa [roundEven_natCast] at this

/-- The exponent and the scaled number. -/
theorem log_bounds {x : ℝ} (hx : x ≠ 0) :
    (10 : ℝ) ^ (Int.log 10 |x|) ≤ |x| ∧ |x| < (10 : ℝ) ^ (Int.log 10 |x| + 1) := by
  have h1 := Int.zpow_log_le_self (b := 10) (r := |x|) (by norm_num) (abs_pos.mpr hx)
  have h2 := Int.lt_zpow_succ_log_self (b := 10) (by norm_num) |x|
  exact ⟨by exact_mod_cast h1, by exact_mod_cast h2⟩

theorem log_unique {x : ℝ} {e : ℤ} (h1 : (10 : ℝ) ^ e ≤ |x|) (h2 : |x| < (10 : ℝ) ^ (e + 1)) :
    Int.log 10 |x| = e := by
  have hx : x ≠ 0 := by
    rintro rfl
    rw [abs_zero] at h1
    exact absurd h1 (not_le.mpr (by positivity))
  obtain ⟨h3, h4⟩ := log_bounds hx
  have h5 : Int.log 10 |x| < e + 1 :=
    (zpow_lt_zpow_iff_right₀ (by norm_num : (1 : ℝ) < 10)).mp (h3.trans_lt h2)
  have h6 : e < Int.log 10 |x| + 1 :=
    (zpow_lt_zpow_iff_right₀ (by norm_num : (1 : ℝ) < 10)).mp (h1.trans_lt h4)
  omega

/-- Value of digits and exponent. -/
noncomputable def partsValue (p : ℕ) (me : ℕ × ℤ) : ℝ := (me.1 : ℝ) * (10 : ℝ) ^ (me.2 - (p : ℤ))

theorem ten_mul (a b : ℤ) : (10 : ℝ) ^ a * (10 : ℝ) ^ b = (10 : ℝ) ^ (a + b) :=
  (zpow_add₀ (by norm_num) a b).symm

theorem ten_nat (n : ℕ) : (10 : ℝ) ^ (n : ℤ) = ((10 ^ n : ℕ) : ℝ) := by
  rw [zpow_natCast]
  push_cast
  rfl

/-- The number before rounding. -/
noncomputable def scaled (p : ℕ) (x : ℝ) : ℝ := |x| * (10 : ℝ) ^ ((p : ℤ) - Int.log 10 |x|)

theorem scaled_bounds (p : ℕ) {x : ℝ} (hx : x ≠ 0) :
    ((10 ^ p : ℕ) : ℝ) ≤ scaled p x ∧ scaled p x < ((10 ^ (p + 1) : ℕ) : ℝ) := by
  obtain ⟨h1, h2⟩ := log_bounds hx
  have hp : (0 : ℝ) < (10 : ℝ) ^ ((p : ℤ) - Int.log 10 |x|) := by positivity
  unfold scaled
  constructor
  · rw [← ten_nat, show (p : ℤ) = Int.log 10 |x| + ((p : ℤ) - Int.log 10 |x|) by ring, ← ten_mul]
    rw [show Int.log 10 |x| + ((p : ℤ) - Int.log 10 |x|) - Int.log 10 |x|
      = (p : ℤ) - Int.log 10 |x| by ring]
    exact mul_le_mul_of_nonneg_right h1 hp.le
  · rw [← ten_nat, show (((p + 1 : ℕ)) : ℤ) = (Int.log 10 |x| + 1) + ((p : ℤ) - Int.log 10 |x|) by
      push_cast; ring, ← ten_mul]
    exact mul_lt_mul_of_pos_right h2 hp

theorem sciParts_of {p : ℕ} {x : ℝ} (hx : x ≠ 0) :
    sciParts p x = if roundEven (scaled p x) = 10 ^ (p + 1) then (10 ^ p, Int.log 10 |x| + 1)
      else (roundEven (scaled p x), Int.log 10 |x|) := by
  unfold sciParts scaled
  rw [if_neg hx]

theorem sciParts_value {p : ℕ} {x : ℝ} (hx : x ≠ 0) :
    partsValue p (sciParts p x)
      = (roundEven (scaled p x) : ℝ) * (10 : ℝ) ^ (Int.log 10 |x| - (p : ℤ)) := by
  rw [sciParts_of hx]
  unfold partsValue
  split_ifs with h
  · rw [h, ← ten_nat, ← ten_nat]
    dsimp only
    rw [ten_mul, ten_mul]
    congr 1
    push_cast
    ring
  · rfl

theorem sciParts_digits (p : ℕ) {x : ℝ} (hx : x ≠ 0) :
    10 ^ p ≤ (sciParts p x).1 ∧ (sciParts p x).1 < 10 ^ (p + 1) := by
  obtain ⟨h1, h2⟩ := scaled_bounds p hx
  have h0 : 0 ≤ scaled p x := le_trans (by positivity) h1
  have h3 := roundEven_ge h1
  have h4 := roundEven_le h0 h2.le
  rw [sciParts_of hx]
  split_ifs with h
  · exact ⟨le_refl _, Nat.pow_lt_pow_right (by norm_num) (by omega)⟩
  · exact ⟨h3, lt_of_le_of_ne h4 h⟩

theorem sciParts_zero (p : ℕ) : sciParts p 0 = (0, 0) := by
  unfold sciParts
  rw [if_pos rfl]

theorem sciParts_lt (p : ℕ) (x : ℝ) : (sciParts p x).1 < 10 ^ (p + 1) := by
  by_cases hx : x = 0
  · rw [hx, sciParts_zero]
    positivity
  · exact (sciParts_digits p hx).2

theorem sciParts_neg (p : ℕ) (x : ℝ) : sciParts p (-x) = sciParts p x := by
  by_cases hx : x = 0
  · rw [hx, neg_zero]
  · rw [sciParts_of hx, sciParts_of (neg_ne_zero.mpr hx)]
    unfold scaled
    rw [abs_neg]

theorem parts_error (p : ℕ) (x : ℝ) :
    |partsValue p (sciParts p x) - (|x|)| ≤ |x| * ((10 : ℝ) ^ p)⁻¹ / 2 := by
  by_cases hx : x = 0
  · rw [hx, sciParts_zero]
    unfold partsValue
    simp
  · rw [sciParts_value hx]
    have h0 : 0 ≤ scaled p x := le_trans (by positivity) (scaled_bounds p hx).1
    have h1 := roundEven_error h0
    have hq : (0 : ℝ) < (10 : ℝ) ^ (Int.log 10 |x| - (p : ℤ)) := by positivity
    have h2 : |x| = scaled p x * (10 : ℝ) ^ (Int.log 10 |x| - (p : ℤ)) := by
      unfold scaled
      rw [mul_assoc, ten_mul, show (p : ℤ) - Int.log 10 |x| + (Int.log 10 |x| - (p : ℤ)) = 0 by ring,
        zpow_zero, mul_one]
    have h3 : (roundEven (scaled p x) : ℝ) * (10 : ℝ) ^ (Int.log 10 |x| - (p : ℤ)) - |x|
        = ((roundEven (scaled p x) : ℝ) - scaled p x) * (10 : ℝ) ^ (Int.log 10 |x| - (p : ℤ)) := by
      rw [sub_mul, ← h2]
    rw [h3, abs_mul, abs_of_pos hq]
    have h4 : (10 : ℝ) ^ (Int.log 10 |x| - (p : ℤ)) ≤ |x| * ((10 : ℝ) ^ p)⁻¹ := by
      rw [sub_eq_add_neg, ← ten_mul, zpow_neg, zpow_natCast]
      exact mul_le_mul_of_nonneg_right (log_bounds hx).1 (by positivity)
    calc _ ≤ 1 / 2 * (10 : ℝ) ^ (Int.log 10 |x| - (p : ℤ)) := mul_le_mul_of_nonneg_right h1 hq.le
      _ ≤ _ := by linarith

theorem parts_mono (p : ℕ) {x y : ℝ} (h : |x| ≤ |y|) :
    partsValue p (sciParts p x) ≤ partsValue p (sciParts p y) := by
  by_cases hx : x = 0
  · rw [hx, sciParts_zero]
    unfold partsValue
    simp only [Nat.cast_zero, zero_mul]
    positivity
  · have hy : y ≠ 0 := by
      rintro rfl
      rw [abs_zero] at h
      exact hx (abs_eq_zero.mp (le_antisymm h (abs_nonneg x)))
    rw [sciParts_value hx, sciParts_value hy]
    have hl : Int.log 10 |x| ≤ Int.log 10 |y| := Int.log_mono_right (abs_pos.mpr hx) h
    rcases hl.lt_or_eq with hl | hl
    · have h1 := roundEven_le (le_trans (by positivity) (scaled_bounds p hx).1) (scaled_bounds p hx).2.le
      have h2 := roundEven_ge (scaled_bounds p hy).1
      have h1' : (roundEven (scaled p x) : ℝ) ≤ ((10 ^ (p + 1) : ℕ) : ℝ) := by exact_mod_cast h1
      have h2' : ((10 ^ p : ℕ) : ℝ) ≤ (roundEven (scaled p y) : ℝ) := by exact_mod_cast h2
      calc _ ≤ ((10 ^ (p + 1) : ℕ) : ℝ) * (10 : ℝ) ^ (Int.log 10 |x| - (p : ℤ)) :=
            mul_le_mul_of_nonneg_right h1' (by positivity)
        _ = (10 : ℝ) ^ (Int.log 10 |x| + 1) := by
            rw [← ten_nat, ten_mul]
            congr 1
            push_cast
            ring
        _ ≤ (10 : ℝ) ^ (Int.log 10 |y|) := zpow_le_zpow_right₀ (by norm_num) (by omega)
        _ = ((10 ^ p : ℕ) : ℝ) * (10 : ℝ) ^ (Int.log 10 |y| - (p : ℤ)) := by
            rw [← ten_nat, ten_mul]
            congr 1
            ring
        _ ≤ _ := mul_le_mul_of_nonneg_right h2' (by positivity)
    · rw [hl]
      refine mul_le_mul_of_nonneg_right ?_ (by positivity)
      have h0 : 0 ≤ scaled p x := le_trans (by positivity) (scaled_bounds p hx).1
      have hs : scaled p x ≤ scaled p y := by
        unfold scaled
        rw [hl]
        exact mul_le_mul_of_nonneg_right h (by positivity)
      exact_mod_cast roundEven_mono h0 hs

/-- Numbers with that many digits are written as they are. -/
theorem sciParts_exact {p m : ℕ} {e : ℤ} {x : ℝ} (h1 : 10 ^ p ≤ m) (h2 : m < 10 ^ (p + 1))
    (hx : |x| = partsValue p (m, e)) : sciParts p x = (m, e) := by
  unfold partsValue at hx
  dsimp only at hx
  have h1' : ((10 ^ p : ℕ) : ℝ) ≤ (m : ℝ) := by exact_mod_cast h1
  have h2' : (m : ℝ) < ((10 ^ (p + 1) : ℕ) : ℝ) := by exact_mod_cast h2
  have hq : (0 : ℝ) < (10 : ℝ) ^ (e - (p : ℤ)) := by positivity
  have hlog : Int.log 10 |x| = e := by
    refine log_unique ?_ ?_
    · rw [hx]
      calc (10 : ℝ) ^ e = ((10 ^ p : ℕ) : ℝ) * (10 : ℝ) ^ (e - (p : ℤ)) := by
            rw [← ten_nat, ten_mul]
            congr 1
            ring
        _ ≤ _ := mul_le_mul_of_nonneg_right h1' hq.le
    · rw [hx]
      calc _ < ((10 ^ (p + 1) : ℕ) : ℝ) * (10 : ℝ) ^ (e - (p : ℤ)) :=
            mul_lt_mul_of_pos_right h2' hq
        _ = (10 : ℝ) ^ (e + 1) := by
            rw [← ten_nat, ten_mul]
            congr 1
            push_cast
            ring
  have hx0 : x ≠ 0 := by
    rintro rfl
    rw [abs_zero] at hx
    have : (0 : ℝ) < (m : ℝ) * (10 : ℝ) ^ (e - (p : ℤ)) :=
      mul_pos (lt_of_lt_of_le (by positivity) h1') hq
    linarith
  have hs : scaled p x = (m : ℝ) := by
    unfold scaled
    rw [hlog, hx, mul_assoc, ten_mul, show e - (p : ℤ) + ((p : ℤ) - e) = 0 by ring, zpow_zero, mul_one]
  rw [sciParts_of hx0, hs, roundEven_natCast, if_neg (Nat.ne_of_lt h2), hlog]

/-! ## Reading the digits -/

theorem parseInt_zeroPad (w n : ℕ) : parseInt (zeroPad w (strNat n)) = some n := by
  have h := parseInt_strNat n
  unfold parseInt at h ⊢
  rw [if_pos ⟨strNat_ne_nil n, strNat_digits n⟩] at h
  unfold zeroPad
  rw [if_pos]
  · rw [List.reverse_append, List.map_append, Nat.ofDigits_append, List.reverse_replicate,
      List.map_replicate, show charVal '0' = 0 by decide, Nat.ofDigits_replicate_zero, mul_zero, add_zero]
    exact h
  · refine ⟨by simp [strNat_ne_nil], ?_⟩
    rw [List.all_append, strNat_digits, Bool.and_true, List.all_eq_true]
    intro c hc
    rw [List.eq_of_mem_replicate hc]
    decide

theorem zeroPad_digit {w n : ℕ} {c : Char} (h : c ∈ zeroPad w (strNat n)) : c.isDigit = true := by
  unfold zeroPad at h
  rcases List.mem_append.mp h with h | h
  · rw [List.eq_of_mem_replicate h]
    decide
  · exact isDigit_of_mem_strNat h

theorem strNat_length_lt {m p : ℕ} (h : m < 10 ^ (p + 1)) : (strNat m).length ≤ p + 1 := by
  unfold strNat
  split_ifs
  · simp
  · rw [List.length_reverse, List.length_map]
    exact (Nat.digits_length_le_iff (by norm_num) _).mpr h

theorem zeroPad_length {w n : ℕ} (h : (strNat n).length ≤ w) : (zeroPad w (strNat n)).length = w := by
  unfold zeroPad
  rw [List.length_append, List.length_replicate]
  omega

theorem digit_not_exp {c : Char} (h : c.isDigit = true) :
    (c == 'e' || c == 'E') = false ∧ (c == '.') = false ∧ c ≠ '-' ∧ c ≠ '+' := by
  refine ⟨?_, ?_, ?_, ?_⟩
  · by_contra hh
    rw [Bool.not_eq_false, Bool.or_eq_true, beq_iff_eq, beq_iff_eq] at hh
    rcases hh with rfl | rfl <;> exact absurd h (by decide)
  · by_contra hh
    rw [Bool.not_eq_false, beq_iff_eq] at hh
    subst hh
    exact absurd h (by decide)
  · rintro rfl
    exact absurd h (by decide)
  · rintro rfl
    exact absurd h (by decide)

theorem signedDigits_exp (e : ℤ) :
    signedDigits ((if e < 0 then '-' else '+') :: zeroPad 2 (strNat e.natAbs)) = some e := by
  split_ifs with h
  · change (parseInt _).map _ = _
    rw [parseInt_zeroPad]
    simp only [Option.map_some, Option.some.injEq]
    omega
  · change (parseInt _).map _ = _
    rw [parseInt_zeroPad]
    simp only [Option.map_some, Option.some.injEq]
    omega

theorem pointNumber_digits {p m : ℕ} (h : m < 10 ^ (p + 1)) :
    pointNumber ((zeroPad (p + 1) (strNat m)).take 1 ++ '.' :: (zeroPad (p + 1) (strNat m)).drop 1)
      = some ((m : ℝ) / 10 ^ p) := by
  have hd : ∀ c ∈ zeroPad (p + 1) (strNat m), (c == '.') = false :=
    fun c hc => (digit_not_exp (zeroPad_digit hc)).2.1
  unfold pointNumber
  rw [splitText_append (p := (· == '.')) (by decide),
    splitText_none fun c hc => hd c (List.mem_of_mem_take hc),
    splitText_none fun c hc => hd c (List.mem_of_mem_drop hc)]
  simp only [List.singleton_append]
  rw [List.take_append_drop, parseInt_zeroPad]
  have := zeroPad_length (strNat_length_lt h)
  rw [List.length_drop, this]
  rfl

theorem unsigned_sci {p m : ℕ} {e : ℤ} (h : m < 10 ^ (p + 1)) :
    unsignedNumber ((zeroPad (p + 1) (strNat m)).take 1 ++ '.' :: (zeroPad (p + 1) (strNat m)).drop 1
      ++ 'e' :: (if e < 0 then '-' else '+') :: zeroPad 2 (strNat e.natAbs))
      = some (partsValue p (m, e)) := by
  unfold unsignedNumber
  rw [splitText_append (p := fun c => c == 'e' || c == 'E') (by decide), splitText_none, splitText_none]
  · simp only [List.singleton_append]
    rw [pointNumber_digits h, signedDigits_exp]
    dsimp only
    unfold partsValue
    rw [sub_eq_add_neg, ← ten_mul, zpow_neg, zpow_natCast]
    congr 1
    field_simp
  · intro c hc
    rcases List.mem_cons.mp hc with rfl | hc
    · split_ifs <;> decide
    · exact (digit_not_exp (zeroPad_digit hc)).1
  · intro c hc
    rcases List.mem_append.mp hc with hc | hc
    · exact (digit_not_exp (zeroPad_digit (List.mem_of_mem_take hc))).1
    · rcases List.mem_cons.mp hc with rfl | hc
      · decide
      · exact (digit_not_exp (zeroPad_digit (List.mem_of_mem_drop hc))).1

end Hooke
