import Verif.Props.SampleFiles
import Verif.Props.MeanMetricsFile

/-!
# Data sets with sample files: conversion, concrete cases
-/

namespace Hooke

open Spec

variable {σ : Type}

/-- Name of the file of sample `i`. -/
theorem sampleName_ok {base : Text} (hb : '/' ∉ base) (i : ℕ) :
    FileName (base ++ '_' :: (strNat i ++ ".pt".toList)) := by
  have hp : 'p' ∈ base ++ '_' :: (strNat i ++ ".pt".toList) := by simp
  refine ⟨by simp, ?_, ?_, ?_⟩
  · intro h
    rcases List.mem_append.mp h with h | h
    · exact hb h
    · rcases List.mem_cons.mp h with h | h
      · cases h
      · rcases List.mem_append.mp h with h | h
        · have := isDigit_of_mem_strNat h
          revert this
          decide
        · revert h
          decide
  · intro h
    rw [h] at hp
    revert hp
    decide
  · intro h
    rw [h] at hp
    revert hp
    decide

theorem sampleName_inj {base : Text} {i j : ℕ} (h : base ++ '_' :: (strNat i ++ ".pt".toList) =
    base ++ '_' :: (strNat j ++ ".pt".toList)) : i = j := by
  have h1 := List.append_cancel_left h
  have h2 := List.append_cancel_right (List.cons.inj h1).2
  have := congrArg parseInt h2
  rw [parseInt_strNat, parseInt_strNat] at this
  exact Option.some.inj this

theorem samplePath_inj {dir base : Text} (h0 : dir ≠ []) (hb : '/' ∉ base) {i j : ℕ}
    (h : normpath (samplePath dir base i) = normpath (samplePath dir base j)) : i = j :=
  sampleName_inj (normpath_join_inj h0 (sampleName_ok hb i) (sampleName_ok hb j) h)

theorem convertLoop_eq {dir base : Text} (hn : normpath dir = dir) (hb : '/' ∉ base) {xs : List σ} :
    ∀ {i : ℕ} {w : SampleWorld σ}, w.isDir dir = true →
      ∃ w', convertLoop dir base i xs w = (.ok (), w') ∧ w'.isDir = w.isDir ∧ w'.stored = w.stored ∧
        (∀ (k : ℕ) x, xs[k]? = some x → w'.sample (normpath (samplePath dir base (i + k))) = some x) ∧
        ∀ p, (∀ k, k < xs.length → p ≠ normpath (samplePath dir base (i + k))) → w'.sample p = w.sample p := by
  have h0 : dir ≠ [] := by rw [← hn]; exact normpath_ne_nil dir
  induction xs with
  | nil => exact fun {i w} _ => ⟨w, rfl, rfl, rfl, by simp, fun _ _ => rfl⟩
  | cons x xs ih =>
    intro i w hd
    have hw : writeSample w (samplePath dir base i) x = .ok { w with
        sample := fun p => if p = normpath (samplePath dir base i) then some x else w.sample p } := by
      unfold writeSample
      rw [(raiseIf_ok (u := ())).mpr (by
        rintro ⟨-, h⟩
        have : dirName (samplePath dir base i) = dir := dirName_join_normal hn (sampleName_ok hb i)
        rw [this, hd] at h
        cases h)]
      rfl
    obtain ⟨w', h1, h2, h3, h4, h5⟩ := ih (i := i + 1) (w := { w with
        sample := fun p => if p = normpath (samplePath dir base i) then some x else w.sample p }) hd
    refine ⟨w', ?_, h2, h3, ?_, ?_⟩
    · unfold convertLoop
      rw [hw]
      exact h1
    · intro k y hy
      cases k with
      | zero =>
        have hxy : x = y := by simpa using hy
        subst hxy
        rw [Nat.add_zero, h5]
        · simp
        · intro k _ hcon
          have := samplePath_inj h0 hb hcon
          omega
      | succ k =>
        have := h4 k y (by simpa using hy)
        rw [show i + (k + 1) = i + 1 + k by omega]
        exact this
    · intro p hp
      rw [h5 p]
      · have := hp 0 (by simp)
        rw [Nat.add_zero] at this
        simp [this]
      · intro k hk
        have := hp (k + 1) (by simpa using hk)
        rwa [show i + (k + 1) = i + 1 + k by omega] at this

/-- C135h: the conversion of a data set in memory gives a data set with sample files in the same directory
that has the same samples in the same order, and changes no other data set file and no file but those of the
samples. -/
theorem C135_convert {w : SampleWorld σ} {path base name : Text} {l : List σ}
    (hn : normpath (dirName path) = dirName path) (hd : w.isDir (dirName path) = true) (hb : '/' ∉ base)
    (hs : w.stored (normpath path) = some (.inMemory l)) :
    ∃ w' d, convertSet w path base name = (.ok (), w') ∧
      w'.stored (normpath (joinPaths (dirName path)
        (name ++ "_n".toList ++ strNat l.length ++ ".pkl".toList))) = some (.onFiles d) ∧
      HasSamples w' (.onFiles d) l ∧
      (∀ p, p ≠ normpath (joinPaths (dirName path)
        (name ++ "_n".toList ++ strNat l.length ++ ".pkl".toList)) → w'.stored p = w.stored p) ∧
      ∀ p, (∀ i, i < l.length → p ≠ normpath (samplePath (dirName path) base i)) →
        w'.sample p = w.sample p := by
  generalize hdir : dirName path = dir at hn hd
  obtain ⟨w1, h1, h2, h3, h4, h5⟩ := convertLoop_eq hn hb (xs := l) (i := 0) hd
  simp only [Nat.zero_add] at h4 h5
  have hopen : openSamples w1 dir ((List.range l.length).map (samplePath dir base)) name =
      .ok ⟨dir, (List.range l.length).map (samplePath dir base), name⟩ := by
    have := C135_directory (w := w1) hn (by rw [h2]; exact hd)
      (names := (List.range l.length).map fun i => base ++ '_' :: (strNat i ++ ".pt".toList)) (by
        intro s hs
        obtain ⟨i, -, rfl⟩ := List.mem_map.mp hs
        exact sampleName_ok hb i) (by
        intro s hs
        obtain ⟨i, hi, rfl⟩ := List.mem_map.mp hs
        have hi := List.mem_range.mp hi
        have := h4 i l[i] (List.getElem?_eq_getElem hi)
        unfold samplePath at this
        rw [this]
        simp) name
    rw [List.map_map] at this
    exact this
  have hhas : ∀ w2 : SampleWorld σ, w2.sample = w1.sample →
      HasSamples w2 (.onFiles ⟨dir, (List.range l.length).map (samplePath dir base), name⟩) l := by
    intro w2 hw2
    refine ⟨by simp [StoredSet.len], fun i x hi => ?_⟩
    have := h4 i x hi
    obtain ⟨hlt, -⟩ := List.getElem?_eq_some_iff.mp hi
    simp [StoredSet.item, orRaise, bind, Except.bind, hlt, hw2, this]
  have hname : name ++ ("_n".toList ++ strNat l.length) ++ ".pkl".toList =
      name ++ "_n".toList ++ strNat l.length ++ ".pkl".toList := by rw [← List.append_assoc]
  generalize hpth : joinPaths dir (name ++ "_n".toList ++ strNat l.length ++ ".pkl".toList) = pth
  refine ⟨⟨w1.isDir, w1.sample, fun p => if p = normpath pth then
      some (.onFiles ⟨dir, (List.range l.length).map (samplePath dir base), name⟩) else w1.stored p⟩,
    ⟨dir, (List.range l.length).map (samplePath dir base), name⟩, ?_, ?_, hhas _ rfl, ?_, ?_⟩
  · unfold convertSet loadSet
    rw [hs]
    simp only [orRaise, hdir, h1]
    rw [hopen]
    simp only [saveSet, StoredSet.len, List.length_map, List.length_range, if_true]
    rw [(raiseIf_ok (u := ())).mpr (by rw [h2, hd]; simp), hname, hpth]
    rfl
  · simp
  · intro p hp
    simp [hp, h3]
  · intro p hp
    exact h5 p hp

/-- **C135 is violated for the working directory.**  The conversion of a data set given by the name of its
file alone raises after it has written the sample files. -/
theorem C135_bare_violated {w : SampleWorld σ} {path base name : Text} {x : σ} (hp : '/' ∉ path)
    (hd : w.isDir [] = false) (hb : '/' ∉ base) (hs : w.stored (normpath path) = some (.inMemory [x])) :
    ∃ w', convertSet w path base name = (.error .runtimeError, w') ∧ w'.stored = w.stored ∧
      w'.sample (normpath (base ++ "_0.pt".toList)) = some x := by
  have h0 : strNat 0 = ['0'] := by decide
  have hdir : ∀ q : Text, '/' ∉ q → dirName q = [] := by
    intro q hq
    unfold dirName
    have : q.reverse.dropWhile (· ≠ '/') = [] := by
      rw [← List.append_nil q.reverse, List.dropWhile_append_of_pos, List.dropWhile_nil]
      intro a ha
      simp only [decide_eq_true_eq]
      rintro rfl
      exact hq (List.mem_reverse.mp ha)
    rw [this]
    simp
  have hsp : samplePath [] base 0 = base ++ "_0.pt".toList := by
    unfold samplePath joinPaths
    rw [h0, if_neg, if_pos (Or.inl rfl)]
    · rfl
    · intro hc
      exact (sampleName_ok hb 0).2.1 (by rw [h0]; exact List.mem_of_mem_head? hc)
  have hns : '/' ∉ base ++ "_0.pt".toList := by
    intro h
    rcases List.mem_append.mp h with h | h
    · exact hb h
    · revert h
      decide
  refine ⟨{ w with sample := fun p => if p = normpath (base ++ "_0.pt".toList) then some x else w.sample p },
    ?_, rfl, by simp⟩
  unfold convertSet loadSet
  rw [hs]
  simp only [orRaise, hdir path hp, convertLoop, hsp, writeSample, hdir _ hns]
  rw [(raiseIf_ok (u := ())).mpr (by simp)]
  have ho : ∀ (w' : SampleWorld σ) (fs : List Text), w'.isDir = w.isDir →
      openSamples w' [] fs name = .error .runtimeError := by
    intro w' fs hw
    unfold openSamples
    rw [hw, hd]
    rfl
  simp only [bind, Except.bind, pure, Except.pure]
  rw [ho ⟨w.isDir, fun p => if p = normpath (base ++ "_0.pt".toList) then some x else w.sample p, w.stored⟩ _ rfl]

/-- **C135g.** A subset has the samples of the parent with its indices. -/
theorem C135_subset {w : SampleWorld σ} {s : StoredSet σ} {xs : List σ} (h : HasSamples w s xs)
    {idx : List ℕ} {ys : List σ} (hi : List.Forall₂ (fun i y => xs[i]? = some y) idx ys) :
    HasSamples w (.subset s idx) ys := by
  refine ⟨hi.length_eq, fun i y hy => ?_⟩
  obtain ⟨hlt, rfl⟩ := List.getElem?_eq_some_iff.mp hy
  have hlt' : i < idx.length := by rw [hi.length_eq]; exact hlt
  have := List.forall₂_iff_get.mp hi |>.2 i hlt' hlt
  rw [StoredSet.item, List.getElem?_eq_getElem hlt']
  exact h.2 _ _ this

/-- **C135h.** Only data sets in memory are converted: a RuntimeError for any other file, and nothing is
written. -/
theorem C135_convert_refuses {w : SampleWorld σ} {path base name : Text}
    (hs : ∀ l, w.stored (normpath path) ≠ some (.inMemory l)) :
    convertSet w path base name = (.error .runtimeError, w) := by
  unfold convertSet loadSet
  rcases h : w.stored (normpath path) with _ | s
  · rfl
  · cases s with
    | inMemory l => exact absurd h (hs l)
    | onFiles d => rfl
    | subset p idx => rfl

/-! ### Concrete cases -/

/-- A directory with two samples. -/
def twoSamples : SampleWorld ℕ where
  isDir := fun p => decide (p = "data".toList)
  sample := fun p => if p = "data/a.pt".toList then some 1 else if p = "data/b.pt".toList then some 2 else none
  stored := fun p => if p = "data/ss_paths_dataset_n2.pkl".toList then some (.inMemory [5, 7]) else none

/-- C135: the two samples are a data set. -/
example : ∃ d, openSamples twoSamples "data".toList ["data/a.pt".toList, "data/b.pt".toList] "set".toList = .ok d ∧
    HasSamples twoSamples (.onFiles d) [1, 2] := by
  have h1 : ∀ s ∈ ["a.pt".toList, "b.pt".toList], FileName s := by
    unfold FileName
    decide
  have h2 : ∀ s ∈ ["a.pt".toList, "b.pt".toList],
      twoSamples.sample (normpath (joinPaths "data".toList s)) ≠ none := by decide
  have h := C135_directory (w := twoSamples) (dir := "data".toList) (by decide) (by decide) h1 h2 "set".toList
  have e : ["a.pt".toList, "b.pt".toList].map (joinPaths "data".toList) =
      ["data/a.pt".toList, "data/b.pt".toList] := by decide
  rw [e] at h
  refine ⟨_, h, C135_samples h ?_⟩
  refine .cons ?_ (.cons ?_ .nil)
  · decide
  · decide

/-- C135: the data set in memory is converted, and its file replaced. -/
example : ∃ w' d, convertSet twoSamples "data/ss_paths_dataset_n2.pkl".toList "s".toList
    "ss_paths_dataset".toList = (.ok (), w') ∧
    w'.stored "data/ss_paths_dataset_n2.pkl".toList = some (.onFiles d) ∧ HasSamples w' (.onFiles d) [5, 7] := by
  have hdn : dirName "data/ss_paths_dataset_n2.pkl".toList = "data".toList := by decide
  obtain ⟨w', d, h1, h2, h3, -⟩ := C135_convert (w := twoSamples)
    (path := "data/ss_paths_dataset_n2.pkl".toList) (base := "s".toList) (name := "ss_paths_dataset".toList)
    (l := [5, 7]) (by rw [hdn]; decide) (by rw [hdn]; decide) (by decide) (by
      have : normpath "data/ss_paths_dataset_n2.pkl".toList = "data/ss_paths_dataset_n2.pkl".toList := by decide
      rw [this]
      unfold twoSamples
      dsimp only
      generalize "data/ss_paths_dataset_n2.pkl".toList = q
      rw [if_pos rfl])
  refine ⟨w', d, h1, ?_, h3⟩
  have e : normpath (joinPaths (dirName "data/ss_paths_dataset_n2.pkl".toList)
      ("ss_paths_dataset".toList ++ "_n".toList ++ strNat [5, 7].length ++ ".pkl".toList)) =
      "data/ss_paths_dataset_n2.pkl".toList := by
    rw [hdn]
    decide
  rw [e] at h2
  exact h2

/-- C135: the directory `./data` is not normalised. -/
example : normpath "./data".toList = "data".toList ∧ normpath "runs/../data//x/".toList = "data/x".toList ∧
    normpath "//a/./b".toList = "//a/b".toList := by decide

end Hooke
