import Verif.Spec.SampleFiles
import Verif.Lemmas.TextFile

/-!
# Paths
-/

namespace Hooke

open Spec

theorem splitText_no_sep {p : Char → Bool} {s : Text} : ∀ w ∈ splitText p s, ∀ c ∈ w, p c = false := by
  induction s with
  | nil => simp [splitText]
  | cons c cs ih =>
    intro w hw
    unfold splitText at hw
    split_ifs at hw with hc
    · rcases List.mem_cons.mp hw with rfl | hw
      · simp
      · exact ih w hw
    · cases hs : splitText p cs with
      | nil => exact absurd hs (splitText_ne_nil p cs)
      | cons h t =>
        rw [hs] at hw ih
        rcases List.mem_cons.mp hw with rfl | hw
        · intro d hd
          rcases List.mem_cons.mp hd with rfl | hd
          · simpa using hc
          · exact ih h (by simp) d hd
        · exact ih w (List.mem_cons_of_mem _ hw)

theorem normStep_mem {abs : Bool} {acc : List Text} {c x : Text} (h : x ∈ normStep abs acc c) :
    x ∈ acc ∨ (x = c ∧ c ≠ []) := by
  unfold normStep at h
  split_ifs at h with h1 h2
  · exact Or.inl h
  · rcases List.mem_cons.mp h with rfl | h
    · exact Or.inr ⟨rfl, fun hc => h1 (Or.inl hc)⟩
    · exact Or.inl h
  · exact Or.inl (List.mem_of_mem_tail h)

theorem normFold_mem {abs : Bool} {cs : List Text} : ∀ {acc : List Text} {x : Text},
    x ∈ cs.foldl (normStep abs) acc → x ∈ acc ∨ (x ∈ cs ∧ x ≠ []) := by
  induction cs with
  | nil => intro acc x h; exact Or.inl h
  | cons c cs ih =>
    intro acc x h
    rcases ih h with h | ⟨h, h'⟩
    · rcases normStep_mem h with h | ⟨rfl, h⟩
      · exact Or.inl h
      · exact Or.inr ⟨by simp, h⟩
    · exact Or.inr ⟨by simp [h], h'⟩

theorem normStack_mem {p x : Text} (h : x ∈ normStack p) : x ≠ [] ∧ '/' ∉ x := by
  rcases normFold_mem h with h | ⟨h, h'⟩
  · cases h
  · refine ⟨h', fun hc => ?_⟩
    have := splitText_no_sep x h '/' hc
    simp at this

theorem normStep_name {abs : Bool} {acc : List Text} {s : Text} (hs : FileName s) :
    normStep abs acc s = s :: acc := by
  obtain ⟨h1, -, h3, h4⟩ := hs
  unfold normStep
  rw [if_neg (by simp [h1, h3]), if_pos (Or.inl h4)]

theorem split_name {s : Text} (hs : FileName s) : splitText (· == '/') s = [s] := by
  refine splitText_none fun c hc => ?_
  simp only [beq_eq_false_iff_ne, ne_eq]
  rintro rfl
  exact hs.2.1 hc

theorem join_form {d s : Text} (hd : d ≠ []) (hs : FileName s) :
    (joinPaths d s = d ++ '/' :: s ∧ d.getLast? ≠ some '/') ∨
      ∃ e, d = e ++ ['/'] ∧ joinPaths d s = e ++ '/' :: s := by
  unfold joinPaths
  have h1 : s.head? ≠ some '/' := fun h => hs.2.1 (List.mem_of_mem_head? h)
  rw [if_neg h1]
  by_cases h : d.getLast? = some '/'
  · right
    refine ⟨d.dropLast, (List.dropLast_append_getLast? _ h).symm, ?_⟩
    rw [if_pos (Or.inr h)]
    conv_lhs => rw [← List.dropLast_append_getLast? _ h]
    simp
  · left
    rw [if_neg (by simp [hd, h])]
    exact ⟨rfl, h⟩

theorem initialSlashes_join {d s : Text} (hd : d ≠ []) (hs : FileName s) :
    initialSlashes (joinPaths d s) = initialSlashes d := by
  have h1 : s.head? ≠ some '/' := fun h => hs.2.1 (List.mem_of_mem_head? h)
  have hne := hs.1
  obtain ⟨s0, s', rfl⟩ := List.exists_cons_of_ne_nil hne
  have h0 : s0 ≠ '/' := by simpa using h1
  rcases join_form hd hs with ⟨hj, hl⟩ | ⟨e, rfl, hj⟩
  · rw [hj]
    match d, hd, hl with
    | [a], _, hl =>
      have ha : a ≠ '/' := by simpa using hl
      simp [initialSlashes, ha.symm]
    | [a, b], _, hl =>
      have hb : b ≠ '/' := by simpa using hl
      simp [initialSlashes, hb.symm]
    | a :: b :: c :: r, _, _ => simp [initialSlashes]
  · rw [hj]
    match e with
    | [] => simp [initialSlashes, h0.symm]
    | [a] => simp [initialSlashes, h0.symm]
    | [a, b] => simp [initialSlashes]
    | a :: b :: c :: r => simp [initialSlashes]

theorem normStack_join {d s : Text} (hd : d ≠ []) (hs : FileName s) :
    normStack (joinPaths d s) = s :: normStack d := by
  unfold normStack
  rw [initialSlashes_join hd hs]
  rcases join_form hd hs with ⟨hj, hl⟩ | ⟨e, he, hj⟩
  · rw [hj, splitText_append (by simp), split_name hs, List.foldl_append, List.foldl_cons, List.foldl_nil,
      normStep_name hs]
  · rw [hj]
    generalize (decide (0 < initialSlashes d)) = abs
    rw [he, splitText_append (by simp), splitText_append (by simp), split_name hs, List.foldl_append,
      List.foldl_append]
    simp only [splitText, List.foldl_cons, List.foldl_nil]
    rw [normStep_name hs]
    simp [normStep]

theorem intercalate_concat {l : List Text} {s : Text} (h : l ≠ []) :
    (['/'] : Text).intercalate (l ++ [s]) = (['/'] : Text).intercalate l ++ '/' :: s := by
  induction l with
  | nil => exact absurd rfl h
  | cons a l ih =>
    cases l with
    | nil => simp [List.intercalate, List.intersperse]
    | cons b l =>
      have := ih (by simp)
      simp only [List.intercalate, List.cons_append, List.intersperse_cons_cons, List.flatten_cons] at this ⊢
      rw [this]
      simp

theorem baseName_append {q s : Text} (hs : '/' ∉ s) : baseName (q ++ '/' :: s) = s := by
  unfold baseName
  have e : (q ++ '/' :: s).reverse = s.reverse ++ '/' :: q.reverse := by simp
  rw [e, List.takeWhile_append_of_pos (by
    intro a ha
    simp only [decide_eq_true_eq]
    rintro rfl
    exact hs (List.mem_reverse.mp ha))]
  simp

theorem baseName_self {s : Text} (hs : '/' ∉ s) : baseName s = s := by
  unfold baseName
  rw [← List.append_nil s.reverse, List.takeWhile_append_of_pos, List.takeWhile_nil]
  · simp
  · intro a ha
    simp only [decide_eq_true_eq]
    rintro rfl
    exact hs (List.mem_reverse.mp ha)

theorem normpath_join {d s : Text} (hd : d ≠ []) (hs : FileName s) :
    normpath (joinPaths d s) = List.replicate (initialSlashes d) '/' ++
      (['/'] : Text).intercalate ((normStack d).reverse ++ [s]) := by
  unfold normpath
  rw [initialSlashes_join hd hs, normStack_join hd hs, List.reverse_cons, if_neg]
  intro h
  have h2 := (List.append_eq_nil_iff.mp h).2
  by_cases hn : (normStack d).reverse = []
  · rw [hn] at h2
    simp only [List.nil_append, List.intercalate, List.intersperse, List.flatten_cons, List.flatten_nil,
      List.append_nil] at h2
    exact hs.1 h2
  · rw [intercalate_concat hn] at h2
    simp at h2

theorem baseName_normpath {d s : Text} (hd : d ≠ []) (hs : FileName s) :
    baseName (normpath (joinPaths d s)) = s := by
  rw [normpath_join hd hs]
  by_cases hn : (normStack d).reverse = []
  · rw [hn]
    have e : (['/'] : Text).intercalate ([] ++ [s]) = s := by
      simp [List.intercalate, List.intersperse]
    rw [e]
    rcases hk : initialSlashes d with _ | k
    · simpa using baseName_self hs.2.1
    · rw [List.replicate_succ']
      rw [List.append_assoc]
      exact baseName_append hs.2.1
  · rw [intercalate_concat hn, ← List.append_assoc]
    exact baseName_append hs.2.1

/-- Files of one directory with different names are different. -/
theorem normpath_join_inj {d s t : Text} (hd : d ≠ []) (hs : FileName s) (ht : FileName t)
    (h : normpath (joinPaths d s) = normpath (joinPaths d t)) : s = t := by
  rw [← baseName_normpath hd hs, ← baseName_normpath hd ht, h]

theorem baseName_join {d s : Text} (hd : d ≠ []) (hs : FileName s) : baseName (joinPaths d s) = s := by
  rcases join_form hd hs with ⟨hj, -⟩ | ⟨e, -, hj⟩ <;> rw [hj] <;> exact baseName_append hs.2.1

theorem normpath_ne_nil (p : Text) : normpath p ≠ [] := by
  unfold normpath
  split_ifs with h
  · simp
  · exact h

theorem intercalate_last {l : List Text} (h : l ≠ []) (hl : ∀ x ∈ l, x ≠ [] ∧ '/' ∉ x) :
    ∃ c, ((['/'] : Text).intercalate l).getLast? = some c ∧ c ≠ '/' := by
  obtain ⟨init, s, rfl⟩ : ∃ init s, l = init ++ [s] := ⟨l.dropLast, l.getLast h, (List.dropLast_append_getLast h).symm⟩
  obtain ⟨h1, h2⟩ := hl s (by simp)
  refine ⟨s.getLast h1, ?_, fun hc => h2 (hc ▸ List.getLast_mem h1)⟩
  by_cases hi : init = []
  · subst hi
    simp only [List.nil_append, List.intercalate, List.intersperse, List.flatten_cons, List.flatten_nil,
      List.append_nil]
    exact List.getLast?_eq_some_getLast h1
  · rw [intercalate_concat hi, List.getLast?_append_of_ne_nil _ (by simp), List.getLast?_cons_of_ne_nil h1]
    exact List.getLast?_eq_some_getLast h1

theorem normpath_last (p : Text) : (∀ c ∈ normpath p, c = '/') ∨ (normpath p).getLast? ≠ some '/' := by
  unfold normpath
  split_ifs with h
  · right; simp
  · by_cases hn : (normStack p).reverse = []
    · left
      rw [hn]
      intro c hc
      simp [List.intercalate, List.intersperse] at hc
      exact hc.2
    · right
      obtain ⟨c, h1, h2⟩ := intercalate_last hn (fun x hx => normStack_mem (List.mem_reverse.mp hx))
      rw [List.getLast?_append_of_ne_nil]
      · rw [h1]
        simpa using h2
      · intro hcon
        rw [hcon] at h1
        cases h1

theorem dropWhile_name {s q : Text} (hs : '/' ∉ s) :
    ((q ++ '/' :: s).reverse.dropWhile (· ≠ '/')).reverse = q ++ ['/'] := by
  have e : (q ++ '/' :: s).reverse = s.reverse ++ '/' :: q.reverse := by simp
  rw [e, List.dropWhile_append_of_pos (by
    intro a ha
    simp only [decide_eq_true_eq]
    rintro rfl
    exact hs (List.mem_reverse.mp ha)), List.dropWhile_cons_of_neg (by simp)]
  simp

/-- The directory of a file in `d` is `d` without slashes at its end. -/
theorem dirName_join {d s : Text} (hd : d ≠ []) (hs : FileName s) :
    dirName (joinPaths d s) = if ∀ c ∈ d, c = '/' then d else (d.reverse.dropWhile (· = '/')).reverse := by
  rcases join_form hd hs with ⟨hj, hl⟩ | ⟨e, he, hj⟩
  · unfold dirName
    rw [hj, dropWhile_name hs.2.1]
    dsimp only
    have hn : ¬∀ c ∈ d, c = '/' := by
      intro h
      apply hl
      rw [List.getLast?_eq_some_getLast hd, h _ (List.getLast_mem hd)]
    rw [if_neg hn, if_neg (fun h => hn fun c hc => h c (by simp [hc]))]
    simp
  · unfold dirName
    rw [hj, dropWhile_name hs.2.1, ← he]

theorem dirName_join_of_last {d s : Text} (hd : d ≠ []) (hs : FileName s)
    (h : (∀ c ∈ d, c = '/') ∨ d.getLast? ≠ some '/') : dirName (joinPaths d s) = d := by
  rw [dirName_join hd hs]
  split_ifs with hall
  · rfl
  · rcases h with h | h
    · exact absurd h hall
    · cases hr : d.reverse with
      | nil => exact absurd (List.reverse_eq_nil_iff.mp hr) hd
      | cons c r =>
        have hc : c ≠ '/' := by
          intro hc
          apply h
          rw [← List.head?_reverse, hr, hc]
          rfl
        rw [List.dropWhile_cons_of_neg (by simpa using hc), ← hr, List.reverse_reverse]

theorem dirName_join_normal {d s : Text} (hd : normpath d = d) (hs : FileName s) :
    dirName (joinPaths d s) = d := by
  refine dirName_join_of_last (by rw [← hd]; exact normpath_ne_nil d) hs ?_
  have := normpath_last d
  rwa [hd] at this

/-! ### Normalised paths -/

theorem normStep_length (abs : Bool) (acc : List Text) (c : Text) :
    (normStep abs acc c).length ≤ acc.length + 1 := by
  unfold normStep
  split_ifs
  · omega
  · simp
  · rw [List.length_tail]
    omega

theorem normFold_length {abs : Bool} {cs : List Text} : ∀ {acc : List Text},
    (cs.foldl (normStep abs) acc).length ≤ acc.length + cs.length := by
  induction cs with
  | nil => intro acc; simp
  | cons c cs ih =>
    intro acc
    have h1 := ih (acc := normStep abs acc c)
    have h2 := normStep_length abs acc c
    simp only [List.foldl_cons, List.length_cons]
    omega

theorem normFold_tail {abs : Bool} {acc : List Text} {c : Text}
    (h : (c :: acc).reverse.foldl (normStep abs) [] = c :: acc) : acc.reverse.foldl (normStep abs) [] = acc := by
  rw [List.reverse_cons, List.foldl_append, List.foldl_cons, List.foldl_nil] at h
  have hlen := normFold_length (abs := abs) (cs := acc.reverse) (acc := [])
  simp only [List.length_nil, List.length_reverse, zero_add] at hlen
  generalize acc.reverse.foldl (normStep abs) [] = A at h hlen
  unfold normStep at h
  split_ifs at h
  · rw [h] at hlen
    simp at hlen
  · exact (List.cons.inj h).2
  · have := congrArg List.length h
    simp only [List.length_tail, List.length_cons] at this
    omega

theorem normFold_again {abs : Bool} {cs : List Text} : ∀ {acc : List Text},
    acc.reverse.foldl (normStep abs) [] = acc →
    (cs.foldl (normStep abs) acc).reverse.foldl (normStep abs) [] = cs.foldl (normStep abs) acc := by
  induction cs with
  | nil => intro acc h; exact h
  | cons c cs ih =>
    intro acc h
    rw [List.foldl_cons]
    refine ih ?_
    by_cases h1 : c = [] ∨ c = ['.']
    · have e : normStep abs acc c = acc := by unfold normStep; rw [if_pos h1]
      rw [e]
      exact h
    · by_cases h2 : c ≠ ['.', '.'] ∨ (abs = false ∧ acc = []) ∨ acc.head? = some ['.', '.']
      · have e : normStep abs acc c = c :: acc := by unfold normStep; rw [if_neg h1, if_pos h2]
        rw [e, List.reverse_cons, List.foldl_append, h, List.foldl_cons, List.foldl_nil, e]
      · have e : normStep abs acc c = acc.tail := by unfold normStep; rw [if_neg h1, if_neg h2]
        rw [e]
        cases acc with
        | nil => rfl
        | cons a acc => exact normFold_tail h

theorem splitText_intercalate {l : List Text} (h : l ≠ []) (hl : ∀ x ∈ l, x ≠ [] ∧ '/' ∉ x) :
    splitText (· == '/') ((['/'] : Text).intercalate l) = l := by
  have hs : ∀ x : Text, '/' ∉ x → splitText (· == '/') x = [x] := by
    intro x hx
    refine splitText_none fun c hc => ?_
    simp only [beq_eq_false_iff_ne, ne_eq]
    rintro rfl
    exact hx hc
  induction l with
  | nil => exact absurd rfl h
  | cons a l ih =>
    cases l with
    | nil =>
      have e : (['/'] : Text).intercalate [a] = a := by simp [List.intercalate, List.intersperse]
      rw [e, hs a (hl a (by simp)).2]
    | cons b l =>
      have e : (['/'] : Text).intercalate (a :: b :: l) = a ++ '/' :: (['/'] : Text).intercalate (b :: l) := by
        simp [List.intercalate]
      rw [e, splitText_append (by simp), ih (by simp) (fun x hx => hl x (List.mem_cons_of_mem _ hx)),
        hs a (hl a (by simp)).2]
      rfl

theorem initialSlashes_le (p : Text) : initialSlashes p ≤ 2 := by
  unfold initialSlashes
  split_ifs <;> omega

theorem initialSlashes_replicate {k : ℕ} (hk : k ≤ 2) {x : Text} (hx : x.head? ≠ some '/') :
    initialSlashes (List.replicate k '/' ++ x) = k := by
  cases x with
  | nil => interval_cases k <;> decide
  | cons c x =>
    have hc : c ≠ '/' := by simpa using hx
    interval_cases k <;> simp [initialSlashes, hc.symm, List.replicate]

theorem intercalate_head {l : List Text} (hl : ∀ x ∈ l, x ≠ [] ∧ '/' ∉ x) :
    ((['/'] : Text).intercalate l).head? ≠ some '/' := by
  cases l with
  | nil => simp [List.intercalate]
  | cons a l =>
    obtain ⟨h1, h2⟩ := hl a (by simp)
    obtain ⟨c, r, rfl⟩ := List.exists_cons_of_ne_nil h1
    have hc : c ≠ '/' := by
      rintro rfl
      simp at h2
    cases l with
    | nil => simpa [List.intercalate, List.intersperse] using hc
    | cons b l => simpa [List.intercalate, List.intersperse] using hc

theorem splitText_slashes (k : ℕ) (x : Text) :
    splitText (· == '/') (List.replicate k '/' ++ x) = List.replicate k [] ++ splitText (· == '/') x := by
  induction k with
  | zero => rfl
  | succ k ih =>
    rw [List.replicate_succ, List.replicate_succ, List.cons_append, splitText, if_pos (by simp), ih]
    rfl

theorem normFold_empty {abs : Bool} (k : ℕ) : (List.replicate k ([] : Text)).foldl (normStep abs) [] = [] := by
  induction k with
  | zero => rfl
  | succ k ih => rw [List.replicate_succ, List.foldl_cons]; exact ih

theorem normpath_parts (p : Text) :
    initialSlashes (normpath p) = initialSlashes p ∧ normStack (normpath p) = normStack p := by
  have hmem : ∀ x ∈ (normStack p).reverse, x ≠ [] ∧ '/' ∉ x := fun x hx =>
    normStack_mem (List.mem_reverse.mp hx)
  unfold normpath
  split_ifs with h
  · obtain ⟨h1, h2⟩ := List.append_eq_nil_iff.mp h
    have h0 : initialSlashes p = 0 := by simpa using h1
    have hs : normStack p = [] := by
      by_contra hn
      obtain ⟨c, hc, -⟩ := intercalate_last (l := (normStack p).reverse) (by simpa using hn) hmem
      rw [h2] at hc
      cases hc
    rw [h0, hs]
    decide
  · have h1 := initialSlashes_replicate (initialSlashes_le p) (intercalate_head hmem)
    refine ⟨h1, ?_⟩
    have hfold : ∀ q : Text, normStack q =
        (splitText (· == '/') q).foldl (normStep (decide (0 < initialSlashes q))) [] := fun _ => rfl
    rw [hfold (_ ++ _), h1, splitText_slashes, List.foldl_append, normFold_empty]
    by_cases hn : (normStack p).reverse = []
    · rw [hn]
      have : normStack p = [] := by simpa using hn
      rw [this]
      simp [List.intercalate, splitText, normStep]
    · rw [splitText_intercalate hn hmem]
      exact normFold_again (cs := splitText (· == '/') p) (acc := []) rfl

/-- `normpath` of a normalised path is the path. -/
theorem normpath_idem (p : Text) : normpath (normpath p) = normpath p := by
  obtain ⟨h1, h2⟩ := normpath_parts p
  have h := normpath_ne_nil p
  generalize hq : normpath p = q at h1 h2
  unfold normpath
  rw [h1, h2]
  rw [← hq]
  rfl

/-- A file in a directory is the file in the normalised directory. -/
theorem normpath_join_norm {d s : Text} (hd : d ≠ []) (hs : FileName s) :
    normpath (joinPaths (normpath d) s) = normpath (joinPaths d s) := by
  rw [normpath_join hd hs, normpath_join (normpath_ne_nil d) hs, (normpath_parts d).1, (normpath_parts d).2]

end Hooke
