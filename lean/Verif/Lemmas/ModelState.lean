import Verif.Model.ModelState
import Verif.Lemmas.PyDict
import Verif.Lemmas.Py
import Mathlib.Data.Nat.Digits.Lemmas
import Mathlib.Tactic.IntervalCases

namespace Hooke

theorem afterPrefix_eq {p f r : List Char} : afterPrefix p f = some r ↔ f = p ++ r := by
  induction p generalizing f with
  | nil => simp [afterPrefix]
  | cons c cs ih =>
    cases f with
    | nil => simp [afterPrefix]
    | cons d ds =>
      simp only [afterPrefix, List.cons_append, List.cons.injEq]
      split_ifs with h
      · rw [ih]
        exact ⟨fun h' => ⟨h.symm, h'⟩, fun h' => h'.2⟩
      · simp only [reduceCtorEq, false_iff, not_and]
        exact fun h' => absurd h'.symm h

theorem afterPrefix_append (p r : List Char) : afterPrefix p (p ++ r) = some r :=
  afterPrefix_eq.mpr rfl

/-! ## Decimal numbers -/

theorem digitChar_props (d : ℕ) (h : d < 10) :
    (Nat.digitChar d).isDigit = true ∧ charVal (Nat.digitChar d) = d := by
  interval_cases d <;> decide

theorem strNat_digits (n : ℕ) : (strNat n).all Char.isDigit = true := by
  unfold strNat
  split_ifs
  · decide
  · rw [List.all_reverse, List.all_map, List.all_eq_true]
    intro d hd
    exact (digitChar_props d (Nat.digits_lt_base (by norm_num) hd)).1

theorem strNat_ne_nil (n : ℕ) : strNat n ≠ [] := by
  unfold strNat
  split_ifs with h
  · simp
  · simp [Nat.digits_ne_nil_iff_ne_zero, h]

theorem parseInt_strNat (n : ℕ) : parseInt (strNat n) = some n := by
  unfold parseInt
  rw [if_pos ⟨strNat_ne_nil n, strNat_digits n⟩]
  congr 1
  unfold strNat
  split_ifs with h
  · subst h; decide
  · rw [List.reverse_reverse, List.map_map]
    have : (Nat.digits 10 n).map (charVal ∘ Nat.digitChar) = Nat.digits 10 n := by
      conv_rhs => rw [← List.map_id (Nat.digits 10 n)]
      refine List.map_congr_left fun d hd => ?_
      exact (digitChar_props d (Nat.digits_lt_base (by norm_num) hd)).2
    rw [this, Nat.ofDigits_digits]

theorem isDigit_of_mem_strNat {n : ℕ} {c : Char} (h : c ∈ strNat n) : c.isDigit = true :=
  List.all_eq_true.mp (strNat_digits n) c h

theorem takeWhile_strNat (n : ℕ) (c : Char) (r : List Char) (hc : c.isDigit = false) :
    (strNat n ++ c :: r).takeWhile Char.isDigit = strNat n := by
  rw [List.takeWhile_append_of_pos fun x hx => isDigit_of_mem_strNat hx]
  simp [hc]

theorem dropWhile_strNat (n : ℕ) (c : Char) (r : List Char) (hc : c.isDigit = false) :
    (strNat n ++ c :: r).dropWhile Char.isDigit = c :: r := by
  rw [List.dropWhile_append_of_pos fun x hx => isDigit_of_mem_strNat hx]
  simp [hc]

/-! ## File names -/

/-- `<name>-<k>.pt`. -/
def epochFile (name : FName) (k : ℕ) : FName := name ++ '-' :: strNat k ++ ['.', 'p', 't']
/-- `<name>-<k>-best.pt`. -/
def bestFile (name : FName) (k : ℕ) : FName :=
  name ++ '-' :: strNat k ++ ['-', 'b', 'e', 's', 't', '.', 'p', 't']
/-- `<name>-init.pt`. -/
def initFile (name : FName) : FName := name ++ ['-', 'i', 'n', 'i', 't', '.', 'p', 't']
/-- `<name>.pt`. -/
def defaultFile (name : FName) : FName := name ++ ['.', 'p', 't']

theorem stateFile_epoch (name : FName) (k : ℕ) :
    stateFile name .epoch (some k) = epochFile name k ∧
    stateFile name .default (some k) = epochFile name k := ⟨rfl, rfl⟩

theorem stateFile_best (name : FName) (k : ℕ) :
    stateFile name .best (some k) = bestFile name k := by
  simp [stateFile, bestFile, epochPart]

theorem stateFile_init (name : FName) (e : Option ℕ) :
    stateFile name .init e = initFile name := by
  simp [stateFile, initFile]

theorem stateFile_default (name : FName) :
    stateFile name .default none = defaultFile name ∧
    stateFile name .epoch none = defaultFile name := by
  simp [stateFile, defaultFile, epochPart]

theorem splitextRoot_pt (f : FName) (h : f.any (· ≠ '.') = true) :
    splitextRoot (f ++ ['.', 'p', 't']) = f := by
  have h' : f.reverse.any (· ≠ '.') = true := by rw [List.any_reverse]; exact h
  unfold splitextRoot
  rw [List.reverse_append]
  simp only [List.reverse_cons, List.reverse_nil, List.nil_append, List.cons_append]
  simp only [List.dropWhile_cons]
  simp only [ne_eq, Char.reduceEq, not_false_eq_true, decide_true, if_true, not_true_eq_false,
    decide_false, if_false, Bool.false_eq_true]
  rw [if_pos (by simpa using h'), List.reverse_reverse]

theorem ne_dash_of_mem {n : ℕ} {c : Char} (h : c ∈ strNat n) : c ≠ '-' ∧ c ≠ '.' := by
  have := isDigit_of_mem_strNat h
  constructor <;> rintro rfl <;> exact absurd this (by decide)

theorem any_ne_dot (name : FName) (k : ℕ) (r : List Char) :
    (name ++ '-' :: strNat k ++ r).any (· ≠ '.') = true := by
  rw [List.any_eq_true]
  exact ⟨'-', by simp, by decide⟩

theorem lastSegment_strNat (name : FName) (k : ℕ) :
    lastSegment (name ++ '-' :: strNat k) = strNat k := by
  unfold lastSegment
  rw [List.reverse_append, List.reverse_cons, List.append_assoc]
  rw [List.takeWhile_append_of_pos]
  · simp
  · intro c hc
    rw [List.mem_reverse] at hc
    simpa using (ne_dash_of_mem hc).1

theorem previousSegment_best (name : FName) (k : ℕ) :
    previousSegment (name ++ '-' :: strNat k ++ ['-', 'b', 'e', 's', 't']) = some (strNat k) := by
  unfold previousSegment
  rw [List.reverse_append]
  simp only [List.reverse_cons, List.reverse_nil, List.nil_append, List.cons_append]
  simp only [List.dropWhile_cons]
  simp only [ne_eq, Char.reduceEq, not_false_eq_true, decide_true, if_true, not_true_eq_false,
    decide_false, if_false, Bool.false_eq_true]
  have := lastSegment_strNat name k
  unfold lastSegment at this
  simpa using this

theorem matchesEpoch_epochFile (name : FName) (k : ℕ) :
    matchesEpoch name (epochFile name k) = true := by
  unfold matchesEpoch
  have : epochFile name k = (name ++ ['-']) ++ (strNat k ++ ['.', 'p', 't']) := by simp [epochFile]
  rw [this, afterPrefix_append]
  simp only
  rw [takeWhile_strNat k '.' _ (by decide), dropWhile_strNat k '.' _ (by decide)]
  simp [strNat_ne_nil, afterPrefix]

theorem checkStateFile_epochFile (name : FName) (k : ℕ) :
    checkStateFile name (epochFile name k) = .ok (some k) := by
  unfold checkStateFile
  rw [if_pos (matchesEpoch_epochFile name k), epochFile,
    splitextRoot_pt _ (by simpa using any_ne_dot name k []), lastSegment_strNat, parseInt_strNat]
  rfl

theorem afterPrefix_ne {c d : Char} (h : c ≠ d) (p r : List Char) :
    afterPrefix (c :: p) (d :: r) = none := by simp [afterPrefix, h]

theorem checkStateFile_bestFile (name : FName) (k : ℕ) :
    checkStateFile name (bestFile name k) = .ok none := by
  unfold checkStateFile
  rw [if_neg]
  unfold matchesEpoch
  have : bestFile name k = (name ++ ['-']) ++ (strNat k ++ ['-', 'b', 'e', 's', 't', '.', 'p', 't']) := by
    simp [bestFile]
  rw [this, afterPrefix_append]
  simp only
  rw [takeWhile_strNat k '-' _ (by decide), dropWhile_strNat k '-' _ (by decide)]
  simp [afterPrefix]

theorem checkStateFile_initFile (name : FName) : checkStateFile name (initFile name) = .ok none := by
  unfold checkStateFile
  rw [if_neg]
  unfold matchesEpoch
  have : initFile name = (name ++ ['-']) ++ ['i', 'n', 'i', 't', '.', 'p', 't'] := by simp [initFile]
  rw [this, afterPrefix_append]
  decide

theorem checkStateFile_defaultFile (name : FName) :
    checkStateFile name (defaultFile name) = .ok none := by
  unfold checkStateFile
  rw [if_neg]
  unfold matchesEpoch
  have : afterPrefix (name ++ ['-']) (defaultFile name) = none := by
    cases h : afterPrefix (name ++ ['-']) (defaultFile name) with
    | none => rfl
    | some r =>
      rw [afterPrefix_eq, defaultFile, List.append_assoc, List.append_cancel_left_eq] at h
      simp at h
  rw [this]
  decide

theorem matchesBest_after (name r : FName) :
    matchesBest name (name ++ r) = ((match afterPrefix ['-'] r with
    | some r' => digitsBest r'
    | none => false) || digitsBest r) := by
  unfold matchesBest
  rw [afterPrefix_append]
  rfl

theorem checkBestFile_bestFile (name : FName) (k : ℕ) :
    checkBestFile name (bestFile name k) = .ok (some k) := by
  unfold checkBestFile
  have hm : matchesBest name (bestFile name k) = true := by
    rw [bestFile, List.append_assoc, matchesBest_after]
    have : afterPrefix ['-'] ('-' :: strNat k ++ ['-', 'b', 'e', 's', 't', '.', 'p', 't'])
        = some (strNat k ++ ['-', 'b', 'e', 's', 't', '.', 'p', 't']) := by simp [afterPrefix]
    rw [this]
    simp only [digitsBest]
    rw [dropWhile_strNat k '-' _ (by decide)]
    simp [afterPrefix]
  rw [if_pos hm]
  have : bestFile name k = (name ++ '-' :: strNat k ++ ['-', 'b', 'e', 's', 't']) ++ ['.', 'p', 't'] := by
    simp [bestFile]
  rw [this, splitextRoot_pt _ (any_ne_dot name k _), previousSegment_best]
  simp [orRaise, parseInt_strNat, bind, Except.bind, Except.map]

theorem checkBestFile_epochFile (name : FName) (k : ℕ) :
    checkBestFile name (epochFile name k) = .ok none := by
  unfold checkBestFile
  rw [if_neg]
  rw [epochFile, List.append_assoc, matchesBest_after]
  have : afterPrefix ['-'] ('-' :: strNat k ++ ['.', 'p', 't'])
      = some (strNat k ++ ['.', 'p', 't']) := by simp [afterPrefix]
  rw [this]
  simp only [digitsBest]
  rw [dropWhile_strNat k '.' _ (by decide)]
  have h2 : (List.dropWhile Char.isDigit ('-' :: strNat k ++ ['.', 'p', 't']))
      = '-' :: strNat k ++ ['.', 'p', 't'] := by simp
  rw [h2]
  obtain ⟨c, cs, hc⟩ := List.exists_cons_of_ne_nil (strNat_ne_nil k)
  have hd : c.isDigit = true := isDigit_of_mem_strNat (by rw [hc]; exact List.mem_cons_self)
  have hb : 'b' ≠ c := by rintro rfl; exact absurd hd (by decide)
  rw [hc]
  simp [afterPrefix, hb]

theorem checkBestFile_initFile (name : FName) : checkBestFile name (initFile name) = .ok none := by
  unfold checkBestFile
  rw [if_neg]
  rw [initFile, matchesBest_after]
  decide

theorem checkBestFile_defaultFile (name : FName) :
    checkBestFile name (defaultFile name) = .ok none := by
  unfold checkBestFile
  rw [if_neg]
  rw [defaultFile, matchesBest_after]
  decide

theorem epochFile_inj {name : FName} {j k : ℕ} : epochFile name j = epochFile name k ↔ j = k := by
  refine ⟨fun h => ?_, fun h => by rw [h]⟩
  have := checkStateFile_epochFile name j
  rw [h, checkStateFile_epochFile] at this
  injection this with this
  injection this with this
  exact this.symm

theorem bestFile_inj {name : FName} {j k : ℕ} : bestFile name j = bestFile name k ↔ j = k := by
  refine ⟨fun h => ?_, fun h => by rw [h]⟩
  have := checkBestFile_bestFile name j
  rw [h, checkBestFile_bestFile] at this
  injection this with this
  injection this with this
  exact this.symm

theorem epochFile_ne_bestFile (name : FName) (j k : ℕ) : epochFile name j ≠ bestFile name k := by
  intro h
  have := checkStateFile_epochFile name j
  rw [h, checkStateFile_bestFile] at this
  cases this

theorem epochFile_ne_initFile (name : FName) (j : ℕ) : epochFile name j ≠ initFile name := by
  intro h
  have := checkStateFile_epochFile name j
  rw [h, checkStateFile_initFile] at this
  cases this

theorem epochFile_ne_defaultFile (name : FName) (j : ℕ) : epochFile name j ≠ defaultFile name := by
  intro h
  have := checkStateFile_epochFile name j
  rw [h, checkStateFile_defaultFile] at this
  cases this

theorem bestFile_ne_initFile (name : FName) (j : ℕ) : bestFile name j ≠ initFile name := by
  intro h
  have := checkBestFile_bestFile name j
  rw [h, checkBestFile_initFile] at this
  cases this

theorem bestFile_ne_defaultFile (name : FName) (j : ℕ) : bestFile name j ≠ defaultFile name := by
  intro h
  have := checkBestFile_bestFile name j
  rw [h, checkBestFile_defaultFile] at this
  cases this

theorem initFile_ne_defaultFile (name : FName) : initFile name ≠ defaultFile name := by
  intro h
  rw [initFile, defaultFile, List.append_cancel_left_eq] at h
  exact absurd h (by decide)

end Hooke
