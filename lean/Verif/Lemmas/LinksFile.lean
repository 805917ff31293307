import Verif.Model.LinksFile
import Verif.Lemmas.TextFile

namespace Hooke

/-! ## Fields separated by blanks -/

theorem splitBlank_append {c : Char} (hc : isBlankChar c = true) (a b : Text) :
    splitBlank (a ++ c :: b) = splitBlank a ++ splitBlank b := by
  unfold splitBlank
  rw [splitText_append hc, List.filter_append]

theorem splitBlank_nil : splitBlank [] = [] := by
  simp [splitBlank, splitText]

theorem splitBlank_word {w : Text} (hne : w ≠ []) (h : ∀ c ∈ w, isBlankChar c = false) :
    splitBlank w = [w] := by
  unfold splitBlank
  rw [splitText_none h]
  simp [hne]

theorem splitBlank_space (b : Text) : splitBlank (' ' :: b) = splitBlank b := by
  have := splitBlank_append (c := ' ') (by decide) [] b
  rw [splitBlank_nil] at this
  simpa using this

theorem splitBlank_blanks (k : ℕ) (s : Text) :
    splitBlank (List.replicate k ' ' ++ s) = splitBlank s := by
  induction k with
  | zero => rfl
  | succ k ih => rw [List.replicate_succ, List.cons_append, splitBlank_space, ih]

theorem splitBlank_join (xs : List Text) :
    splitBlank (joinText " ".toList xs) = xs.flatMap splitBlank := by
  induction xs with
  | nil => exact splitBlank_nil
  | cons x xs ih =>
    cases xs with
    | nil => simp [joinText]
    | cons y ys =>
      have h1 : joinText " ".toList (x :: y :: ys) = x ++ ' ' :: joinText " ".toList (y :: ys) := by
        unfold joinText
        simp [List.intercalate, List.intersperse]
      rw [h1, splitBlank_append (by decide), ih]
      rfl

/-! ## Lines -/

theorem fileLines_append (a b : Text) :
    fileLines (a ++ '\n' :: b) = splitText (· == '\n') a ++ fileLines b := by
  unfold fileLines
  rw [splitText_append (p := (· == '\n')) (by decide)]
  have hne := splitText_ne_nil (· == '\n') b
  rw [List.getLast?_append_of_ne_nil _ hne, List.dropLast_append_of_ne_nil hne]
  split_ifs <;> rfl

theorem fileLines_lines (ls : List Text) (h : ∀ l ∈ ls, '\n' ∉ l) (b : Text) :
    fileLines ((ls.map (· ++ ['\n'])).flatten ++ b) = ls ++ fileLines b := by
  induction ls with
  | nil => rfl
  | cons l ls ih =>
    simp only [List.map_cons, List.flatten_cons, List.append_assoc, List.cons_append,
      List.nil_append]
    rw [fileLines_append, ih fun m hm => h m (by simp [hm]), splitText_none]
    · rfl
    · intro c hc
      have : c ≠ '\n' := fun e => h l (by simp) (e ▸ hc)
      simpa using this

theorem splitText_infix {p : Char → Bool} {s l : Text} (h : l ∈ splitText p s) : l <:+: s := by
  have key : ∀ s : Text, (∀ x ∈ splitText p s, x <:+: s) ∧
      (∀ x t, splitText p s = x :: t → x <+: s) := by
    intro s
    induction s with
    | nil => simp [splitText]
    | cons c cs ih =>
      obtain ⟨ih1, ih2⟩ := ih
      rw [splitText]
      by_cases hc : p c = true
      · rw [if_pos hc]
        refine ⟨?_, ?_⟩
        · intro x hx
          rcases List.mem_cons.mp hx with rfl | hx
          · exact List.nil_infix
          · exact List.infix_cons (ih1 x hx)
        · intro x t hx
          cases hx
          exact List.nil_prefix
      · rw [if_neg hc]
        cases hs : splitText p cs with
        | nil => exact absurd hs (splitText_ne_nil p cs)
        | cons y ys =>
          have hy := ih2 y ys hs
          refine ⟨?_, ?_⟩
          · intro x hx
            rcases List.mem_cons.mp hx with rfl | hx
            · exact (List.cons_prefix_cons.mpr ⟨rfl, hy⟩).isInfix
            · exact List.infix_cons (ih1 x (by rw [hs]; simp [hx]))
          · intro x t hx
            cases hx
            exact List.cons_prefix_cons.mpr ⟨rfl, hy⟩
  exact (key s).1 l h

/-! ## Keywords -/

theorem afterPrefixCI_append (p r : Text) : afterPrefixCI p (p ++ r) = some r := by
  induction p with
  | nil => rfl
  | cons c cs ih => simp [afterPrefixCI, ih]

theorem afterPrefixCI_some {p s r : Text} (h : afterPrefixCI p s = some r) :
    ∃ w, s = w ++ r ∧ w.map Char.toLower = p.map Char.toLower := by
  induction p generalizing s with
  | nil => cases h; exact ⟨[], rfl, rfl⟩
  | cons c cs ih =>
    cases s with
    | nil => cases h
    | cons d ds =>
      unfold afterPrefixCI at h
      split_ifs at h with hc
      obtain ⟨w, rfl, hw⟩ := ih h
      exact ⟨d :: w, rfl, by simp [hw, hc]⟩

theorem searchWord_some {pat s : Text} (h : searchWord pat s = true) :
    ∃ a w b, s = a ++ w ++ b ∧ w.map Char.toLower = pat.map Char.toLower := by
  have here : ∀ s, matchWord pat s = true →
      ∃ w b, s = w ++ b ∧ w.map Char.toLower = pat.map Char.toLower := by
    intro s hm
    unfold matchWord at hm
    split at hm
    · rename_i r hr
      obtain ⟨w, rfl, hw⟩ := afterPrefixCI_some hr
      exact ⟨w, r, rfl, hw⟩
    · cases hm
  induction s with
  | nil =>
    obtain ⟨w, b, hs, hw⟩ := here [] h
    exact ⟨[], w, b, by simpa using hs, hw⟩
  | cons c cs ih =>
    unfold searchWord at h
    rw [Bool.or_eq_true] at h
    rcases h with h | h
    · obtain ⟨w, b, hs, hw⟩ := here _ h
      exact ⟨[], w, b, by simpa using hs, hw⟩
    · obtain ⟨a, w, b, hs, hw⟩ := ih h
      exact ⟨c :: a, w, b, by simp [hs], hw⟩

theorem searchWord_prefix (pat r : Text) (hr : noWordNext r = true) (hne : pat ≠ []) :
    searchWord pat (pat ++ r) = true := by
  cases pat with
  | nil => exact absurd rfl hne
  | cons c cs =>
    have : matchWord (c :: cs) (c :: cs ++ r) = true := by
      unfold matchWord
      rw [afterPrefixCI_append]
      exact hr
    rw [List.cons_append] at this ⊢
    unfold searchWord
    rw [this]
    rfl

end Hooke
