import Verif.Spec.Iostandard
import Mathlib.Data.Nat.Digits.Lemmas
import Mathlib.Data.Finset.Card

/-!
# C64: new directories and files never overwrite existing ones
-/

namespace Hooke

open Spec

theorem digitChar_inj {a b : ℕ} (ha : a < 10) (hb : b < 10) (h : Nat.digitChar a = Nat.digitChar b) :
    a = b := by
  interval_cases a <;> interval_cases b <;> first | rfl | (exact absurd h (by decide))

theorem map_digitChar_inj {l m : List ℕ} (hl : ∀ a ∈ l, a < 10) (hm : ∀ a ∈ m, a < 10)
    (h : l.map Nat.digitChar = m.map Nat.digitChar) : l = m := by
  induction l generalizing m with
  | nil => cases m with
    | nil => rfl
    | cons b m => simp at h
  | cons a l ih =>
    cases m with
    | nil => simp at h
    | cons b m =>
      simp only [List.map_cons, List.cons.injEq] at h
      rw [digitChar_inj (hl a (by simp)) (hm b (by simp)) h.1,
        ih (fun x hx => hl x (by simp [hx])) (fun x hx => hm x (by simp [hx])) h.2]

theorem decimalNat_inj {i j : ℕ} (hi : 1 ≤ i) (hj : 1 ≤ j) (h : decimalNat i = decimalNat j) : i = j := by
  simp only [decimalNat, show i ≠ 0 by omega, show j ≠ 0 by omega, if_false] at h
  have := map_digitChar_inj
    (fun a ha => Nat.digits_lt_base (by norm_num) (List.mem_reverse.1 ha))
    (fun a ha => Nat.digits_lt_base (by norm_num) (List.mem_reverse.1 ha)) h
  exact Nat.digits_inj_iff.1 (List.reverse_injective this)

theorem dirCandidate_inj (p : APath) {i j : ℕ} (hi : 1 ≤ i) (hj : 1 ≤ j)
    (h : dirCandidate p i = dirCandidate p j) : i = j := by
  simp only [dirCandidate, appendPath, List.append_cancel_left_eq, List.cons.injEq, true_and,
    and_true] at h
  exact decimalNat_inj hi hj h

theorem fileCandidate_inj (p : APath) {i j : ℕ} (hi : 1 ≤ i) (hj : 1 ≤ j)
    (h : fileCandidate p i = fileCandidate p j) : i = j := by
  simp only [fileCandidate, List.append_cancel_left_eq, List.append_cancel_right_eq,
    List.cons.injEq, true_and, and_true] at h
  exact decimalNat_inj hi hj h

theorem splitExt_append (name : PName) : (splitExt name).1 ++ (splitExt name).2 = name := by
  unfold splitExt
  have h := List.takeWhile_append_dropWhile (p := fun c => decide (c ≠ '.')) (l := name.reverse)
  split
  · simp
  · next c root hd =>
    split
    · simp
    · have hc : c = '.' := by
        have := List.head_dropWhile_not (fun c => decide (c ≠ '.')) (l := name.reverse)
          (by rw [hd]; simp)
        simp only [hd, List.head_cons] at this
        simpa using this
      rw [hd, hc] at h
      have := congrArg List.reverse h
      simpa using this

theorem dropLast_getLast (p : APath) (hp : p ≠ []) : p.dropLast ++ [p.getLast?.getD []] = p := by
  rw [List.getLast?_eq_some_getLast hp]
  exact List.dropLast_append_getLast hp

theorem dirCandidate_ne (p : APath) (i : ℕ) : dirCandidate p i ≠ p := by
  intro h
  by_cases hp : p = []
  · subst hp; simp [dirCandidate, appendPath] at h
  · have h2 := (h.trans (dropLast_getLast p hp).symm)
    simp [dirCandidate, appendPath] at h2

theorem fileCandidate_ne (p : APath) (i : ℕ) : fileCandidate p i ≠ p := by
  intro h
  by_cases hp : p = []
  · subst hp; simp [fileCandidate] at h
  · have h2 := (h.trans (dropLast_getLast p hp).symm)
    have h3 := splitExt_append (p.getLast?.getD [])
    simp only [fileCandidate, List.append_cancel_left_eq, List.cons.injEq, and_true] at h2
    have h4 := congrArg List.length h2
    have h5 := congrArg List.length h3
    simp only [List.length_append, List.length_cons] at h4 h5
    omega

/-! ### The search loop -/

theorem searchFree_some (occ : APath → Bool) (cand : ℕ → APath) :
    ∀ fuel i cur q, searchFree occ cand fuel i cur = some q → occ q = false ∧
      (q = cur ∨ (occ cur = true ∧ ∃ k, i ≤ k ∧ q = cand k ∧ ∀ j, i ≤ j → j < k → occ (cand j))) := by
  intro fuel
  induction fuel with
  | zero => intro i cur q h; simp [searchFree] at h
  | succ fuel ih =>
    intro i cur q h
    simp only [searchFree] at h
    split at h
    · next hocc =>
      obtain ⟨hq, hc⟩ := ih _ _ _ h
      refine ⟨hq, Or.inr ⟨hocc, ?_⟩⟩
      rcases hc with rfl | ⟨ho, k, hk, rfl, hall⟩
      · exact ⟨i, le_refl _, rfl, fun j h1 h2 => by omega⟩
      · refine ⟨k, by omega, rfl, fun j h1 h2 => ?_⟩
        rcases Nat.lt_or_ge i j with h | h
        · exact hall j h h2
        · have : j = i := by omega
          subst this; exact ho
    · next hocc =>
      simp only [Option.some.injEq] at h
      subst h
      exact ⟨by simpa using hocc, Or.inl rfl⟩

theorem searchFree_none (occ : APath → Bool) (cand : ℕ → APath) :
    ∀ fuel i cur, searchFree occ cand (fuel + 1) i cur = none →
      occ cur = true ∧ ∀ j, i ≤ j → j < i + fuel → occ (cand j) = true := by
  intro fuel
  induction fuel with
  | zero =>
    intro i cur h
    simp only [searchFree] at h
    split at h
    · next ho => exact ⟨ho, fun j h1 h2 => by omega⟩
    · cases h
  | succ fuel ih =>
    intro i cur h
    rw [searchFree] at h
    split at h
    · next ho =>
      obtain ⟨h1, h2⟩ := ih _ _ h
      refine ⟨ho, fun j hj hj2 => ?_⟩
      rcases Nat.lt_or_ge i j with h | h
      · exact h2 j h (by omega)
      · have : j = i := by omega
        subst this; exact h1
    · cases h

theorem searchFree_mono (occ : APath → Bool) (cand : ℕ → APath) :
    ∀ fuel i cur q, searchFree occ cand fuel i cur = some q →
      ∀ fuel', fuel ≤ fuel' → searchFree occ cand fuel' i cur = some q := by
  intro fuel
  induction fuel with
  | zero => intro i cur q h; simp [searchFree] at h
  | succ fuel ih =>
    intro i cur q h fuel' hle
    obtain ⟨m, rfl⟩ : ∃ m, fuel' = m + 1 := ⟨fuel' - 1, by omega⟩
    simp only [searchFree] at h ⊢
    split at h
    · next ho => rw [if_pos ho]; exact ih _ _ _ h m (by omega)
    · next ho => rw [if_neg ho]; exact h

/-- The loop ends after at most one test more than there are occupied paths. -/
theorem searchFree_ends (s : Finset APath) (cand : ℕ → APath) (p : APath)
    (hinj : ∀ i j, 1 ≤ i → 1 ≤ j → cand i = cand j → i = j) (hne : ∀ i, cand i ≠ p) :
    ∃ q, searchFree (fun q => decide (q ∈ s)) cand (s.card + 1) 1 p = some q := by
  cases h : searchFree (fun q => decide (q ∈ s)) cand (s.card + 1) 1 p with
  | some q => exact ⟨q, rfl⟩
  | none =>
    exfalso
    obtain ⟨h1, h2⟩ := searchFree_none _ _ _ _ _ h
    have hsub : insert p ((Finset.range s.card).image fun j => cand (j + 1)) ⊆ s := by
      intro q hq
      rw [Finset.mem_insert, Finset.mem_image] at hq
      rcases hq with rfl | ⟨j, hj, rfl⟩
      · simpa using h1
      · simpa using h2 (j + 1) (by omega) (by have := Finset.mem_range.1 hj; omega)
    have hcard := Finset.card_le_card hsub
    rw [Finset.card_insert_of_notMem, Finset.card_image_of_injective, Finset.card_range] at hcard
    · omega
    · intro a b hab
      have := hinj _ _ (by omega) (by omega) hab
      omega
    · rw [Finset.mem_image]
      rintro ⟨j, -, hj⟩
      exact hne _ hj

/-! ### Creating directories -/

theorem makedirs_ok {fs fs' : FileSys} {p : APath} (h : makedirs fs p = .ok fs') :
    p ∉ fs.dirs ∧ (∀ q, q <+: p → q ∉ fs.files) ∧ fs'.files = fs.files ∧
      ∀ q, q ∈ fs'.dirs ↔ q ∈ fs.dirs ∨ q <+: p := by
  unfold makedirs at h
  split at h
  · cases h
  · next hn =>
    simp only [Except.ok.injEq] at h
    subst h
    push Not at hn
    refine ⟨hn.1, fun q hq => hn.2 q (by simpa using hq), rfl, fun q => ?_⟩
    simp

theorem map_ok {α β : Type} {x : Py α} {f : α → β} {b : β} (h : x.map f = .ok b) :
    ∃ a, x = .ok a ∧ b = f a := by
  cases x with
  | error e => simp [Except.map] at h
  | ok a =>
    simp only [Except.map, Except.ok.injEq] at h
    exact ⟨a, rfl, h.symm⟩

/-- **C64.** `make_directory` ends for every finite file system: the search needs at most one test
more than there are directories, and running longer does not change its result. -/
theorem C64_directory_ends (fs : FileSys) (p : APath) (ow : Bool) :
    ∃ r, ∀ fuel, fs.dirs.card + 1 ≤ fuel → makeDirectory fuel fs p ow = some r := by
  unfold makeDirectory
  split
  · split
    · exact ⟨_, fun _ _ => rfl⟩
    · obtain ⟨q, hq⟩ := searchFree_ends fs.dirs (dirCandidate p) p
        (fun i j hi hj => dirCandidate_inj p hi hj) (dirCandidate_ne p)
      exact ⟨_, fun fuel hf => by rw [searchFree_mono _ _ _ _ _ _ hq fuel hf]; rfl⟩
  · exact ⟨_, fun _ _ => rfl⟩

/-- **C64.** `make_directory` without overwriting creates a path that did not exist, neither as a
directory nor as a file, removes nothing, and picks the requested path if it is not a directory and
otherwise the requested path followed by `_i` for the smallest `i ≥ 1` that is not a directory. -/
theorem C64_directory_new (fuel : ℕ) (fs fs' : FileSys) (p q : APath)
    (h : makeDirectory fuel fs p false = some (.ok (q, fs'))) :
    ¬ FsExists fs q ∧ q ∈ fs'.dirs ∧
    (∀ r, r ∈ fs.dirs → r ∈ fs'.dirs) ∧ (∀ r, r ∈ fs'.files ↔ r ∈ fs.files) ∧
    (∀ r, r ∈ fs'.dirs → r ∉ fs.dirs → r <+: q) ∧
    ((p ∉ fs.dirs ∧ q = p) ∨
      (p ∈ fs.dirs ∧ ∃ i, 1 ≤ i ∧ q = appendPath p ('_' :: decimalNat i) ∧
        ∀ j, 1 ≤ j → j < i → appendPath p ('_' :: decimalNat j) ∈ fs.dirs)) := by
  have main : ∀ q', makedirs fs q' = .ok fs' → q = q' → ¬ FsExists fs q ∧ q ∈ fs'.dirs ∧
      (∀ r, r ∈ fs.dirs → r ∈ fs'.dirs) ∧ (∀ r, r ∈ fs'.files ↔ r ∈ fs.files) ∧
      (∀ r, r ∈ fs'.dirs → r ∉ fs.dirs → r <+: q) := by
    rintro q' hm rfl
    obtain ⟨h1, h2, h3, h4⟩ := makedirs_ok hm
    refine ⟨?_, (h4 q).2 (Or.inr (List.prefix_refl _)), fun r hr => (h4 r).2 (Or.inl hr),
      fun r => by rw [h3], fun r hr hn => ((h4 r).1 hr).resolve_left hn⟩
    rintro (h | h)
    · exact h1 h
    · exact h2 q (List.prefix_refl _) h
  unfold makeDirectory at h
  split at h
  · next hp =>
    simp only [Bool.false_eq_true, if_false, Option.map_eq_some_iff] at h
    obtain ⟨q', hs, hm⟩ := h
    obtain ⟨f, hf, he⟩ := map_ok hm
    simp only [Prod.mk.injEq] at he
    obtain ⟨rfl, rfl⟩ := he
    obtain ⟨a, b, c, d, e⟩ := main _ hf rfl
    refine ⟨a, b, c, d, e, Or.inr ⟨hp, ?_⟩⟩
    obtain ⟨ho, hc⟩ := searchFree_some _ _ _ _ _ _ hs
    rcases hc with rfl | ⟨-, k, hk, rfl, hall⟩
    · simp [hp] at ho
    · exact ⟨k, hk, rfl, fun j h1 h2 => of_decide_eq_true (hall j h1 h2)⟩
  · next hp =>
    simp only [Option.some.injEq] at h
    obtain ⟨f, hf, he⟩ := map_ok h
    simp only [Prod.mk.injEq] at he
    obtain ⟨rfl, rfl⟩ := he
    obtain ⟨a, b, c, d, e⟩ := main _ hf rfl
    exact ⟨a, b, c, d, e, Or.inl ⟨hp, rfl⟩⟩

/-- A possible file system: `/run`, the directories `/run/out` and `/run/out_1`, the files
`/run/a.dat` and `/run/out/x`. -/
def sampleFs : FileSys where
  dirs := {[], ["run".toList], ["run".toList, "out".toList], ["run".toList, "out_1".toList]}
  files := {["run".toList, "a.dat".toList], ["run".toList, "out".toList, "x".toList]}

/-- `/run/out` and `/run/out_1` exist, so `/run/out_2` is created. -/
example : ∃ fs', makeDirectory 5 sampleFs ["run".toList, "out".toList] false
    = some (.ok (["run".toList, "out_2".toList], fs')) := by
  have h1 : dirCandidate ["run".toList, "out".toList] 1 = ["run".toList, "out_1".toList] := by
    simp [dirCandidate, appendPath, decimalNat]
  have h2 : dirCandidate ["run".toList, "out".toList] 2 = ["run".toList, "out_2".toList] := by
    simp [dirCandidate, appendPath, decimalNat]
  have hs : searchFree (fun q => decide (q ∈ sampleFs.dirs))
      (dirCandidate ["run".toList, "out".toList]) 5 1 ["run".toList, "out".toList]
      = some ["run".toList, "out_2".toList] := by
    simp only [searchFree, h1, h2]
    decide
  have hm : makedirs sampleFs ["run".toList, "out_2".toList]
      = .ok { sampleFs with
        dirs := sampleFs.dirs ∪ (["run".toList, "out_2".toList] : APath).inits.toFinset } :=
    if_neg (by decide)
  exact ⟨_, by rw [makeDirectory, if_pos (by decide), hs]; simp only [Bool.false_eq_true, if_false, Option.map_some, hm, Except.map]; rfl⟩

example : FsWellFormed sampleFs := by
  constructor
  · decide
  · intro p hp q hq hne
    have hp' : p ∈ sampleFs.dirs ∪ sampleFs.files := by simpa using hp
    have key : ∀ p ∈ sampleFs.dirs ∪ sampleFs.files, ∀ q ∈ p.inits, q ≠ p → q ∈ sampleFs.dirs := by
      decide
    exact key p hp' q (by simpa using hq) hne

/-- **C64.** If no file stands where a directory is needed, at the requested path or a numbered one
or above, the call succeeds. -/
theorem C64_directory_succeeds (fs : FileSys) (p : APath) (fuel : ℕ)
    (hfuel : fs.dirs.card + 1 ≤ fuel)
    (hp : ∀ q, q <+: p → q ∉ fs.files)
    (hc : ∀ i, 1 ≤ i → ∀ q, q <+: appendPath p ('_' :: decimalNat i) → q ∉ fs.files) :
    ∃ q fs', makeDirectory fuel fs p false = some (.ok (q, fs')) := by
  have mk : ∀ q, q ∉ fs.dirs → (∀ r, r <+: q → r ∉ fs.files) → ∃ fs', makedirs fs q = .ok fs' := by
    intro q hq hf
    refine ⟨_, if_neg ?_⟩
    rintro (h | ⟨r, hr, hr2⟩)
    · exact hq h
    · exact hf r (by simpa using hr) hr2
  unfold makeDirectory
  split
  · next hd =>
    obtain ⟨q, hq⟩ := searchFree_ends fs.dirs (dirCandidate p) p
      (fun i j hi hj => dirCandidate_inj p hi hj) (dirCandidate_ne p)
    have hq2 := searchFree_mono _ _ _ _ _ _ hq fuel hfuel
    obtain ⟨ho, hcase⟩ := searchFree_some _ _ _ _ _ _ hq2
    have hqd : q ∉ fs.dirs := by simpa using ho
    have hqf : ∀ r, r <+: q → r ∉ fs.files := by
      rcases hcase with rfl | ⟨-, k, hk, rfl, -⟩
      · exact absurd hd hqd
      · exact hc k hk
    obtain ⟨fs', hm⟩ := mk q hqd hqf
    exact ⟨q, fs', by simp [hq2, hm, Except.map]⟩
  · next hd =>
    obtain ⟨fs', hm⟩ := mk p hd hp
    exact ⟨p, fs', by simp [hm, Except.map]⟩

/-- **C64, violated.** A regular file with the next numbered name is not skipped: the call raises,
although a larger index is free. -/
theorem C64_directory_file_violated (fs : FileSys) (p : APath) (hp : p ∈ fs.dirs)
    (h1 : appendPath p ('_' :: decimalNat 1) ∉ fs.dirs) (h1f : appendPath p ('_' :: decimalNat 1) ∈ fs.files)
    (fuel : ℕ) :
    makeDirectory (fuel + 2) fs p false = some (.error .osError) := by
  have hm : makedirs fs (dirCandidate p 1) = .error .osError :=
    if_pos (Or.inr ⟨dirCandidate p 1, by simp, h1f⟩)
  have h1' : dirCandidate p 1 ∉ fs.dirs := h1
  simp [makeDirectory, hp, searchFree, h1', hm, Except.map]

/-- **C64.** Any number of calls without overwriting, each on the file system the previous one left,
return pairwise distinct directories, and all of them still exist at the end. -/
theorem C64_directory_distinct (fuel : ℕ) (req : List APath) (fs : ℕ → FileSys) (out : List APath)
    (hlen : out.length = req.length)
    (hrun : ∀ k p q, req[k]? = some p → out[k]? = some q →
      makeDirectory fuel (fs k) p false = some (.ok (q, fs (k + 1)))) :
    out.Nodup ∧ ∀ q ∈ out, ¬ FsExists (fs 0) q ∧ q ∈ (fs req.length).dirs := by
  have step : ∀ k, k < req.length → ∃ q, out[k]? = some q ∧ ¬ FsExists (fs k) q ∧
      q ∈ (fs (k + 1)).dirs ∧ (∀ r, r ∈ (fs k).dirs → r ∈ (fs (k + 1)).dirs) ∧
      (∀ r, r ∈ (fs (k + 1)).files ↔ r ∈ (fs k).files) := by
    intro k hk
    have hk' : k < out.length := by omega
    have := C64_directory_new fuel (fs k) (fs (k + 1)) req[k] out[k]
      (hrun k _ _ (by simp [hk]) (by simp [hk']))
    exact ⟨out[k], by simp [hk'], this.1, this.2.1, this.2.2.1, this.2.2.2.1⟩
  have mono : ∀ k m, k ≤ m → m ≤ req.length → ∀ r, r ∈ (fs k).dirs → r ∈ (fs m).dirs := by
    intro k m hkm
    induction m, hkm using Nat.le_induction with
    | base => intro _ r hr; exact hr
    | succ m _ ih =>
      intro hm r hr
      obtain ⟨_, _, _, _, h, _⟩ := step m (by omega)
      exact h r (ih (by omega) r hr)
  have files : ∀ m, m ≤ req.length → ∀ r, r ∈ (fs m).files ↔ r ∈ (fs 0).files := by
    intro m
    induction m with
    | zero => intro _ r; rfl
    | succ m ih =>
      intro hm r
      obtain ⟨_, _, _, _, _, h⟩ := step m (by omega)
      rw [h r, ih (by omega) r]
  constructor
  · rw [List.nodup_iff_getElem?_ne_getElem?]
    intro i j hij hj heq
    obtain ⟨qi, hqi, -, hi2, -⟩ := step i (by omega)
    obtain ⟨qj, hqj, hj1, -⟩ := step j (by omega)
    rw [hqi, hqj, Option.some.injEq] at heq
    subst heq
    exact hj1 (Or.inl (mono (i + 1) j (by omega) (by omega) _ hi2))
  · intro q hq
    obtain ⟨k, hk, rfl⟩ := List.mem_iff_getElem.1 hq
    obtain ⟨q', hq', h1, h2, -⟩ := step k (by omega)
    rw [List.getElem?_eq_getElem hk, Option.some.injEq] at hq'
    subst hq'
    refine ⟨?_, mono (k + 1) _ (by omega) (le_refl _) _ h2⟩
    rintro (h | h)
    · exact h1 (Or.inl (mono 0 k (by omega) (by omega) _ h))
    · exact h1 (Or.inr ((files k (by omega) _).2 h))

/-- **C64.** With overwriting, the requested path is itself created: on a possible file system the
call raises only if a file stands at the path or above it; otherwise the path is an empty directory
afterwards and everything that is not below it is as before. -/
theorem C64_overwrite (fuel : ℕ) (fs : FileSys) (p : APath) (hw : FsWellFormed fs)
    (hf : ∀ q, q <+: p → q ∉ fs.files) :
    ∃ fs', makeDirectory fuel fs p true = some (.ok (p, fs')) ∧ p ∈ fs'.dirs ∧
      (∀ q, p <+: q → FsExists fs' q → q = p) ∧
      (∀ q, ¬ p <+: q → (q ∈ fs.dirs → q ∈ fs'.dirs) ∧ (q ∈ fs'.files ↔ q ∈ fs.files)) ∧
      (∀ q, q ∈ fs'.dirs → q ∉ fs.dirs → q <+: p) := by
  unfold makeDirectory
  split
  · next hp =>
    have hm : makedirs (rmtree fs p) p
        = .ok { (rmtree fs p) with dirs := (rmtree fs p).dirs ∪ p.inits.toFinset } := by
      refine if_neg ?_
      rintro (h | ⟨r, hr, hr2⟩)
      · simp [rmtree] at h
      · simp only [rmtree, Finset.mem_filter] at hr2
        exact hf r (by simpa using hr) hr2.1
    refine ⟨⟨(rmtree fs p).dirs ∪ p.inits.toFinset, (rmtree fs p).files⟩,
      by simp only [if_true, hm, Except.map], ?_, ?_, ?_, ?_⟩
    · simp
    · rintro q hq (h | h)
      · simp only [rmtree, Finset.mem_union, Finset.mem_filter, List.mem_toFinset,
          List.mem_inits] at h
        rcases h with h | h
        · exact absurd hq h.2
        · exact (h.eq_of_length_le hq.length_le)
      · simp only [rmtree, Finset.mem_filter] at h
        exact absurd hq h.2
    · intro q hq
      simp [rmtree, hq]
      tauto
    · intro q h hn
      simp only [rmtree, Finset.mem_union, Finset.mem_filter, List.mem_toFinset,
        List.mem_inits] at h
      exact h.resolve_left fun h => hn h.1
  · next hp =>
    have hm : makedirs fs p = .ok { fs with dirs := fs.dirs ∪ p.inits.toFinset } := by
      refine if_neg ?_
      rintro (h | ⟨r, hr, hr2⟩)
      · exact hp h
      · exact hf r (by simpa using hr) hr2
    have hno : ∀ q, p <+: q → ¬ FsExists fs q ∨ q = p := by
      intro q hq
      by_cases hqp : q = p
      · exact Or.inr hqp
      · left
        intro he
        exact hp (hw.2 q he p hq fun h => hqp h.symm)
    refine ⟨⟨fs.dirs ∪ p.inits.toFinset, fs.files⟩, by simp only [hm, Except.map], ?_, ?_, ?_, ?_⟩
    · simp
    · rintro q hq (h | h)
      · simp only [Finset.mem_union, List.mem_toFinset, List.mem_inits] at h
        rcases h with h | h
        · exact (hno q hq).resolve_left fun hn => hn (Or.inl h)
        · exact h.eq_of_length_le hq.length_le
      · exact (hno q hq).resolve_left fun hn => hn (Or.inr h)
    · intro q hq
      simp
      tauto
    · intro q h hn
      simp only [Finset.mem_union, List.mem_toFinset, List.mem_inits] at h
      exact h.resolve_left hn

/-! ### File names -/

/-- **C64.** `new_file_path_with_int` ends for every finite file system. -/
theorem C64_file_ends (fs : FileSys) (p : APath) :
    ∃ q, ∀ fuel, fs.files.card + 1 ≤ fuel → newFilePath fuel fs p = some q := by
  obtain ⟨q, hq⟩ := searchFree_ends fs.files (fileCandidate p) p
    (fun i j hi hj => fileCandidate_inj p hi hj) (fileCandidate_ne p)
  exact ⟨q, fun fuel hf => searchFree_mono _ _ _ _ _ _ hq fuel hf⟩

/-- **C64.** The path returned for `directory/rootext`, where `ext` is the extension, is not an
existing file: it is the given path if that is not a file, and otherwise `directory/root_iext` for
the smallest `i ≥ 1` that is not a file. -/
theorem C64_file_new (fuel : ℕ) (fs : FileSys) (directory : APath) (name : PName) (q : APath)
    (h : newFilePath fuel fs (directory ++ [name]) = some q) :
    q ∉ fs.files ∧ ∃ root ext, name = root ++ ext ∧ (root, ext) = splitExt name ∧
    ((directory ++ [name] ∉ fs.files ∧ q = directory ++ [name]) ∨
      (directory ++ [name] ∈ fs.files ∧ ∃ i, 1 ≤ i ∧ q = directory ++ [root ++ '_' :: decimalNat i ++ ext] ∧
        ∀ j, 1 ≤ j → j < i → directory ++ [root ++ '_' :: decimalNat j ++ ext] ∈ fs.files)) := by
  obtain ⟨ho, hc⟩ := searchFree_some _ _ _ _ _ _ h
  have hcand : ∀ i, fileCandidate (directory ++ [name]) i
      = directory ++ [(splitExt name).1 ++ '_' :: decimalNat i ++ (splitExt name).2] := by
    intro i; simp [fileCandidate]
  refine ⟨by simpa using ho, (splitExt name).1, (splitExt name).2, (splitExt_append name).symm, rfl,
    ?_⟩
  rcases hc with rfl | ⟨h1, k, hk, rfl, hall⟩
  · exact Or.inl ⟨by simpa using ho, rfl⟩
  · refine Or.inr ⟨by simpa using h1, k, hk, hcand k, fun j hj hj2 => ?_⟩
    rw [← hcand j]
    simpa using hall j hj hj2

/-- **C64.** Extensions: the root keeps everything before the last dot. -/
theorem C64_extension (root ext : PName) (hroot : ∃ c ∈ root, c ≠ '.') (hext : '.' ∉ ext) :
    splitExt (root ++ '.' :: ext) = (root, '.' :: ext) := by
  have h1 : (root ++ '.' :: ext).reverse = ext.reverse ++ '.' :: root.reverse := by simp
  have hall : ∀ c ∈ ext.reverse, decide (c ≠ '.') = true := by
    intro c hc
    simp only [decide_eq_true_eq]
    rintro rfl
    exact hext (by simpa using hc)
  have hd : (root ++ '.' :: ext).reverse.dropWhile (fun c => decide (c ≠ '.'))
      = '.' :: root.reverse := by
    rw [h1, List.dropWhile_append_of_pos hall, List.dropWhile_cons_of_neg (by simp)]
  have ht : (root ++ '.' :: ext).reverse.takeWhile (fun c => decide (c ≠ '.')) = ext.reverse := by
    rw [h1, List.takeWhile_append_of_pos hall, List.takeWhile_cons_of_neg (by simp)]
    simp
  unfold splitExt
  rw [hd, ht]
  obtain ⟨c, hc, hne⟩ := hroot
  simp
  exact ⟨c, hc, hne⟩

/-- **C64, violated.** The path returned for a file may exist: a directory with the numbered name is
returned although the path is occupied. -/
theorem C64_file_directory_violated (fs : FileSys) (p : APath) (hp : p ∈ fs.files)
    (h1 : fileCandidate p 1 ∈ fs.dirs) (hw : FsWellFormed fs) (fuel : ℕ) :
    ∃ q, newFilePath (fuel + 2) fs p = some q ∧ FsExists fs q :=
  ⟨fileCandidate p 1, by simp [newFilePath, searchFree, hp, hw.1 _ h1], Or.inl h1⟩

end Hooke
