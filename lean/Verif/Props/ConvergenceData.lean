import Verif.Spec.ConvergenceData
import Verif.Props.MeanMetricsFile
import Verif.Props.NumberFormatCases
import Verif.Props.TimeSeriesBatch
import Verif.Lemmas.LinksFile

/-!
# Convergence analyses and uncertainty quantifications: files
-/

noncomputable section

namespace Hooke

open Spec

/-! ### Summary files -/

theorem splitText_of_fileLines {P s : Text} (hP : P ≠ []) (h : ∀ l ∈ fileLines s, ¬P <:+: l) :
    ∀ l ∈ splitText (· == '\n') s, ¬P <:+: l := by
  intro l hl
  unfold fileLines at h
  split_ifs at h with hs
  · obtain ⟨ls, hls⟩ := List.getLast?_eq_some_iff.mp hs
    rw [hls] at hl h
    rw [List.dropLast_concat] at h
    rcases List.mem_append.mp hl with h1 | h1
    · exact h l h1
    · rw [List.mem_singleton.mp h1, List.infix_nil]
      exact hP
  · exact h l hl

theorem none_not_number : numberOfText "None".toList = none := by
  have h1 : splitText (fun c => c == 'e' || c == 'E') "None".toList = ["Non".toList, []] := by decide
  have h2 : splitText (· == '.') "Non".toList = ["Non".toList] := by decide
  have h3 : parseInt "Non".toList = none := by decide
  have h4 : pointNumber "Non".toList = none := by
    unfold pointNumber
    rw [h2]
    simp only [h3, Option.map_none]
  have h5 : unsignedNumber "None".toList = none := by
    unfold unsignedNumber
    rw [h1]
    simp only [h4]
  exact h5

/-- Reading of a file with the given line of the loss. -/
theorem readLoss_line {head w tail : Text} (h : ∀ l ∈ fileLines head, ¬lossPhrase <:+: l)
    (hw : w ≠ []) (hb : ∀ c ∈ w, isBlankChar c = false) :
    readSummaryLoss (head ++ ("\n".toList ++ quoted lossPhrase ++ ":  ".toList ++ w ++ "\n".toList) ++ tail) =
      orRaise (numberOfText w) .valueError := by
  have e : head ++ ("\n".toList ++ quoted lossPhrase ++ ":  ".toList ++ w ++ "\n".toList) ++ tail =
      head ++ '\n' :: ((quoted lossPhrase ++ ":  ".toList ++ w) ++ '\n' :: tail) := by
    simp
  have hq : ∀ c ∈ quoted lossPhrase ++ ":  ".toList, (c == '\n') = false := by decide
  have hnl : splitText (· == '\n') (quoted lossPhrase ++ ":  ".toList ++ w) =
      [quoted lossPhrase ++ ":  ".toList ++ w] := by
    refine splitText_none fun c hc => ?_
    rcases List.mem_append.mp hc with h1 | h1
    · exact hq c h1
    · have := hb c h1
      by_contra hcon
      rw [Bool.not_eq_false, beq_iff_eq] at hcon
      rw [hcon] at this
      revert this
      decide
  have h1 : (splitText (· == '\n') head).find? (fun l => decide (lossPhrase <:+: l)) = none := by
    rw [List.find?_eq_none]
    intro l hl
    simp only [decide_eq_true_eq]
    exact splitText_of_fileLines (by decide) h l hl
  have h2 : lossPhrase <:+: quoted lossPhrase ++ ":  ".toList ++ w :=
    ⟨['"'], ['"'] ++ ":  ".toList ++ w, by simp [quoted]⟩
  have h3 : (splitBlank (quoted lossPhrase ++ ":  ".toList ++ w)).getLast? = some w := by
    have : quoted lossPhrase ++ ":  ".toList ++ w = (quoted lossPhrase ++ ": ".toList) ++ ' ' :: w := by simp
    rw [this, splitBlank_append (by decide), splitBlank_word hw hb]
    simp
  unfold readSummaryLoss
  rw [e, fileLines_append, fileLines_append, hnl]
  have hf : (splitText (· == '\n') head ++ ([quoted lossPhrase ++ ":  ".toList ++ w] ++ fileLines tail)).find?
      (fun l => decide ("Avg. prediction loss per sample".toList <:+: l)) =
      some (quoted lossPhrase ++ ":  ".toList ++ w) := by
    change List.find? (fun l => decide (lossPhrase <:+: l)) _ = _
    rw [List.find?_append, h1, Option.none_or, List.cons_append, List.find?_cons_of_pos (by simpa using h2)]
  rw [hf]
  simp only
  rw [h3]
  rfl

theorem predictionSummary_split (before after : List (Text × SummaryVal)) (x : Option ℝ) :
    predictionSummary before after x =
      summaryText (some "Summary: Model prediction".toList) before ++ entryText (lossEntry x) ++
        (after.map entryText).flatten := by
  unfold predictionSummary summaryText
  rw [List.map_append, List.flatten_append, List.map_cons, List.flatten_cons]
  simp only [List.append_assoc]

/-- C134a: the loss of a prediction is read from its summary to nine significant digits. -/
theorem C134_summary {x : ℝ} (hx : x ≠ 0) {file : Text} (h : SummaryOf (some x) file) :
    ∃ y, readSummaryLoss file = .ok y ∧ NineDigits x y := by
  obtain ⟨b, a, rfl, hb⟩ := h
  have hc := sciText_char 8 x
  have e : entryText (lossEntry (some x)) =
      "\n".toList ++ quoted lossPhrase ++ ":  ".toList ++ sciText 8 x ++ "\n".toList := by
    have hn : '\n' ∉ sciText 8 x := fun hm => by
      have := (hc _ hm)
      revert this
      unfold NumeralChar
      decide
    have h1 : lossEntry (some x) = (lossPhrase, .str (sciText 8 x)) := by
      unfold lossEntry lossPhrase
      simp only [if_neg hx]
    rw [h1, entryText, if_neg hn]
  refine ⟨roundSig 8 x, ?_, eight_error x⟩
  rw [predictionSummary_split, e, readLoss_line hb (sciText_ne_nil 8 x), C113_read]
  · rfl
  · intro c hm
    have := hc c hm
    exact numeral_not_blank this

/-- **C134 is violated for exact predictions.**  A loss of zero (and a loss that was not computed) is
written as `None`: reading it raises. -/
theorem C134_zero_violated {x : Option ℝ} (hx : x = none ∨ x = some 0) {file : Text} (h : SummaryOf x file) :
    readSummaryLoss file = .error .valueError := by
  obtain ⟨b, a, rfl, hb⟩ := h
  have e : entryText (lossEntry x) =
      "\n".toList ++ quoted lossPhrase ++ ":  ".toList ++ "None".toList ++ "\n".toList := by
    have h1 : lossEntry x = (lossPhrase, .other "None".toList) := by
      unfold lossEntry lossPhrase
      rcases hx with rfl | rfl
      · simp only
      · simp only [if_true]
    rw [h1, entryText]
  rw [predictionSummary_split, e, readLoss_line hb (by decide) (by decide), none_not_number]
  rfl

/-! ### Search of a file -/

/-- C134b: the file found is the first one in the listing that matches the first pattern that is matched
at all. -/
theorem C134_find {pats : List (Text → Bool)} {names : List Text} {f : Text} :
    findFile pats names = some f ↔ ∃ (i : ℕ) (p : Text → Bool), pats[i]? = some p ∧
      (∃ l r, names = l ++ f :: r ∧ p f = true ∧ ∀ g ∈ l, p g = false) ∧
      ∀ (j : ℕ) q, j < i → pats[j]? = some q → ∀ g ∈ names, q g = false := by
  induction pats with
  | nil => simp [findFile]
  | cons q qs ih =>
    unfold findFile
    cases hq : names.find? q with
    | some g =>
      simp only [Option.some.injEq]
      obtain ⟨hg, l, r, hl, hpre⟩ := List.find?_eq_some_iff_append.mp hq
      constructor
      · rintro rfl
        exact ⟨0, q, rfl, ⟨l, r, hl, hg, fun x hx => by simpa using hpre x hx⟩, fun j _ hj => by omega⟩
      · rintro ⟨i, p, hi, ⟨l', r', hl', hpf, hpre'⟩, hlt⟩
        rcases i with _ | i
        · cases hi
          have : names.find? q = some f := List.find?_eq_some_iff_append.mpr
            ⟨hpf, l', r', hl', fun x hx => by simpa using hpre' x hx⟩
          rw [hq] at this
          exact Option.some.inj this
        · have := hlt 0 q (by omega) rfl g (by rw [hl]; simp)
          rw [hg] at this
          cases this
    | none =>
      simp only
      rw [ih]
      rw [List.find?_eq_none] at hq
      constructor
      · rintro ⟨i, p, hi, hm, hlt⟩
        refine ⟨i + 1, p, hi, hm, fun j q' hj hq' => ?_⟩
        rcases j with _ | j
        · cases hq'
          exact fun g hg => by simpa using hq g hg
        · exact hlt j q' (by omega) hq'
      · rintro ⟨i, p, hi, hm, hlt⟩
        rcases i with _ | i
        · cases hi
          obtain ⟨l, r, rfl, hpf, -⟩ := hm
          exact absurd hpf (hq f (by simp))
        · exact ⟨i, p, hi, hm, fun j q' hj hq' => hlt (j + 1) q' (by omega) hq'⟩

theorem isDatasetFile_iff {name : Text} : isDatasetFile name = true ↔ DatasetName name := by
  unfold isDatasetFile DatasetName
  constructor
  · intro h
    cases hp : afterPrefix "ss_paths_dataset_n".toList name with
    | none => rw [hp] at h; cases h
    | some r =>
      rw [hp] at h
      simp only [decide_eq_true_eq] at h
      obtain ⟨h1, h2, h3, h4⟩ := h
      have hn := afterPrefix_eq.mp hp
      obtain ⟨k, hk⟩ := Option.isSome_iff_exists.mp h4
      obtain ⟨hw, hd⟩ := parseInt_some hk
      set s := beforeEnd r with hs
      have hlt : s.length - 4 < s.length := by omega
      have hsplit : s = s.take (s.length - 4) ++ s[s.length - 4] :: "pkl".toList := by
        conv_lhs => rw [← List.take_append_drop (s.length - 4) s, List.drop_eq_getElem_cons hlt]
        rw [show s.length - 4 + 1 = s.length - 3 by omega, h2]
      refine ⟨s.take (s.length - 4), s[s.length - 4], hw, hd, ?_, ?_⟩
      · intro hc
        rw [List.getElem?_eq_getElem hlt, hc] at h3
        exact h3 rfl
      · rw [hn]
        by_cases hl : r.getLast? = some '\n'
        · right
          have : r = s ++ ['\n'] := by
            rw [hs, beforeEnd, if_pos hl]
            exact (List.dropLast_append_getLast? _ hl).symm
          conv_lhs => rw [this, hsplit]
          simp
        · left
          have : r = s := by rw [hs, beforeEnd, if_neg hl]
          conv_lhs => rw [this, hsplit]
          simp
  · rintro ⟨w, c, hw, hd, hc, h⟩
    have key : ∀ r : Text, beforeEnd r = w ++ c :: "pkl".toList →
        (match afterPrefix "ss_paths_dataset_n".toList ("ss_paths_dataset_n".toList ++ r) with
          | none => false
          | some r =>
            let s := beforeEnd r
            decide (5 ≤ s.length ∧ s.drop (s.length - 3) = "pkl".toList ∧ s[s.length - 4]? ≠ some '\n' ∧
              (parseInt (s.take (s.length - 4))).isSome)) = true := by
      intro r hr
      rw [afterPrefix_append]
      simp only [hr, decide_eq_true_eq]
      have hwl : 0 < w.length := List.length_pos_iff.mpr hw
      have hl : (w ++ c :: "pkl".toList).length = w.length + 4 := by simp
      rw [hl]
      have e1 : w.length + 4 - 3 = w.length + 1 := by omega
      have e2 : w.length + 4 - 4 = w.length := by omega
      rw [e1, e2]
      refine ⟨by omega, by simp, by simpa using hc, ?_⟩
      have : (w ++ c :: "pkl".toList).take w.length = w := by simp
      rw [this, parseInt, if_pos ⟨hw, List.all_eq_true.mpr hd⟩]
      rfl
    rcases h with rfl | rfl
    · rw [List.append_assoc]
      refine key _ ?_
      unfold beforeEnd
      rw [if_neg (by simp)]
    · rw [List.append_assoc, List.append_assoc]
      refine key _ ?_
      have : w ++ (c :: "pkl".toList ++ ['\n']) = (w ++ c :: "pkl".toList) ++ ['\n'] := by simp
      rw [this, beforeEnd, if_pos (by simp), List.dropLast_concat]

theorem isSummaryFile_iff {name : Text} :
    matchesDot "summary".toList "dat".toList name = true ↔ SummaryName name := by
  unfold matchesDot SummaryName
  constructor
  · intro h
    cases hp : afterPrefix "summary".toList name with
    | none => rw [hp] at h; cases h
    | some r =>
      rw [hp] at h
      cases r with
      | nil => cases h
      | cons c r =>
        simp only [decide_eq_true_eq] at h
        refine ⟨c, h.1, ?_⟩
        rw [afterPrefix_eq.mp hp]
        rcases h.2 with rfl | rfl
        · exact Or.inl rfl
        · exact Or.inr (by simp)
  · rintro ⟨c, hc, rfl | rfl⟩
    · rw [afterPrefix_append]
      simp [hc]
    · rw [List.append_assoc, afterPrefix_append]
      simp [hc]

theorem searchDir_one {α : Type} {pat : Text → Bool} {p : Text → Prop} (hp : ∀ f, pat f = true ↔ p f)
    {dir : KDict Text α} {x : α} (h : HoldsOne p dir x) : searchDir pat (some dir) = .ok x := by
  obtain ⟨f, hf, hx, hu⟩ := h
  have hm : f ∈ dir.keys := KDict.mem_keys_iff.mpr ⟨x, hx⟩
  have hfind : dir.keys.find? pat = some f := by
    cases hg : dir.keys.find? pat with
    | none => exact absurd ((hp f).mpr hf) (List.find?_eq_none.mp hg f hm)
    | some g => rw [hu g (List.mem_of_find?_eq_some hg) ((hp g).mp (List.find?_some hg))]
  have hff : findFile [pat] dir.keys = some f := by
    unfold findFile
    rw [hfind]
  simp only [searchDir, orRaise, bind, Except.bind, hff, hx]

theorem trainingSizes_eq {train : List (Option (KDict Text ℕ))} {sizes : List ℕ}
    (h : List.Forall₂ (fun d n => ∃ k, d = some k ∧ HoldsOne DatasetName k n) train sizes) :
    trainingSizes train = .ok sizes := by
  unfold trainingSizes
  refine mapM_ok_of_forall₂ (h.imp fun d n hd => ?_)
  obtain ⟨k, rfl, hk⟩ := hd
  exact searchDir_one (fun f => isDatasetFile_iff) hk

theorem summaryLoss_eq {x : ℝ} (hx : x ≠ 0) {dir : KDict Text Text} (h : PredictedWith (some x) dir) :
    ∃ y, summaryLoss (some dir) = .ok y ∧ NineDigits x y := by
  obtain ⟨file, hs, ho⟩ := h
  obtain ⟨y, hy, hn⟩ := C134_summary hx hs
  refine ⟨y, ?_, hn⟩
  unfold summaryLoss
  rw [searchDir_one (fun f => isSummaryFile_iff) ho]
  exact hy

theorem summaryLoss_zero {x : Option ℝ} (hx : x = none ∨ x = some 0) {dir : KDict Text Text}
    (h : PredictedWith x dir) : summaryLoss (some dir) = .error .valueError := by
  obtain ⟨file, hs, ho⟩ := h
  unfold summaryLoss
  rw [searchDir_one (fun f => isSummaryFile_iff) ho]
  exact C134_zero_violated hx hs

/-- **C134 is violated for several data set files.**  A directory with data set files of two sizes (one
left behind by an earlier generation) gives the size of whichever is listed first. -/
theorem C134_stale_violated (m n : ℕ) :
    let a := "ss_paths_dataset_n".toList ++ strNat m ++ ".pkl".toList
    let b := "ss_paths_dataset_n".toList ++ strNat n ++ ".pkl".toList
    trainingSizes [some [(a, m), (b, n)]] = .ok [m] ∧ trainingSizes [some [(b, n), (a, m)]] = .ok [n] := by
  intro a b
  have hname : ∀ k : ℕ, isDatasetFile ("ss_paths_dataset_n".toList ++ strNat k ++ ".pkl".toList) = true := by
    intro k
    rw [isDatasetFile_iff]
    exact ⟨strNat k, '.', strNat_ne_nil k, fun x hx => isDigit_of_mem_strNat hx, by decide, Or.inl rfl⟩
  have key : ∀ (f g : Text) (i j : ℕ), isDatasetFile f = true →
      trainingSizes [some [(f, i), (g, j)]] = .ok [i] := by
    intro f g i j hf
    simp [trainingSizes, searchDir, findFile, KDict.keys, hf, orRaise, KDict.get?, bind, Except.bind, pure,
      Except.pure]
  exact ⟨key a b m n (hname m), key b a n m (hname n)⟩

end Hooke
