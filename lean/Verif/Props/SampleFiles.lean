import Verif.Lemmas.Paths
import Verif.Lemmas.Py
import Verif.Lemmas.StrainPath
import Verif.Props.LmuDataCases

/-!
# Data sets with sample files
-/

namespace Hooke

open Spec

variable {σ : Type}

/-! ### Construction -/

/-- C135a: a data set with sample files is built exactly if its directory exists, all files exist, and the
directory part of every path is the normalised directory; it has as many samples as files, and each sample is
the content of its file. -/
theorem C135_open {w : SampleWorld σ} {dir : Text} {files : List Text} {basename : Text} :
    (∃ d, openSamples w dir files basename = .ok d) ↔
      w.isDir dir = true ∧ ∀ f ∈ files, w.sample (normpath f) ≠ none ∧ dirName f = normpath dir := by
  constructor
  · rintro ⟨d, h⟩
    unfold openSamples at h
    obtain ⟨_, h1, h⟩ := bind_ok h
    obtain ⟨_, h2, -⟩ := bind_ok h
    refine ⟨Bool.eq_true_of_not_eq_false (raiseIf_ok.mp h1), fun f hf => ?_⟩
    obtain ⟨_, -, h3⟩ := forall₂_mem_left (mapM_forall₂ h2) hf
    obtain ⟨_, h4, h5⟩ := bind_ok h3
    exact ⟨raiseIf_ok.mp h4, not_not.mp (raiseIf_ok.mp h5)⟩
  · rintro ⟨h1, h2⟩
    refine ⟨⟨normpath dir, files, basename⟩, ?_⟩
    unfold openSamples
    have hm := mapM_of_forall (g := fun _ : Text => ()) (l := files) (f := fun f => (do
      raiseIf (w.sample (normpath f) = none) .runtimeError
      raiseIf (dirName f ≠ normpath dir) .runtimeError : Py Unit)) (by
        intro f hf
        obtain ⟨h3, h4⟩ := h2 f hf
        rw [(raiseIf_ok (u := ())).mpr h3]
        exact (raiseIf_ok (u := ())).mpr (by simpa using h4))
    rw [(raiseIf_ok (u := ())).mpr (by rw [h1]; simp)]
    simp only [bind, Except.bind] at hm ⊢
    rw [hm]
    rfl

theorem open_eq {w : SampleWorld σ} {dir : Text} {files : List Text} {basename : Text} {d : SampleFiles}
    (h : openSamples w dir files basename = .ok d) : d = ⟨normpath dir, files, basename⟩ := by
  unfold openSamples at h
  obtain ⟨_, -, h⟩ := bind_ok h
  obtain ⟨_, -, h⟩ := bind_ok h
  exact (Except.ok.inj h).symm

/-- C135b: the samples of a data set that has been built are the contents of its files, in order. -/
theorem C135_samples {w : SampleWorld σ} {dir : Text} {files : List Text} {basename : Text} {d : SampleFiles}
    (h : openSamples w dir files basename = .ok d) {xs : List σ}
    (hx : List.Forall₂ (fun f x => w.sample (normpath f) = some x) files xs) :
    HasSamples w (.onFiles d) xs := by
  rw [open_eq h]
  refine ⟨hx.length_eq, fun i x hi => ?_⟩
  obtain ⟨hlt, rfl⟩ := List.getElem?_eq_some_iff.mp hi
  have hlf : i < files.length := by rw [hx.length_eq]; exact hlt
  have := hx.get hlf hlt
  simp only [List.get_eq_getElem] at this
  simp [StoredSet.item, List.getElem?_eq_getElem hlf, orRaise, this, bind, Except.bind]

/-- C135c: files of the given names in a normalised directory are accepted. -/
theorem C135_directory {w : SampleWorld σ} {dir : Text} (hn : normpath dir = dir) (hd : w.isDir dir = true)
    {names : List Text} (hf : ∀ s ∈ names, FileName s)
    (he : ∀ s ∈ names, w.sample (normpath (joinPaths dir s)) ≠ none) (basename : Text) :
    openSamples w dir (names.map (joinPaths dir)) basename =
      .ok ⟨dir, names.map (joinPaths dir), basename⟩ := by
  obtain ⟨d, h⟩ := (C135_open (basename := basename)).mpr ⟨hd, fun f (hm : f ∈ names.map (joinPaths dir)) => by
    obtain ⟨s, hs, rfl⟩ := List.mem_map.mp hm
    exact ⟨he s hs, by rw [dirName_join_normal hn (hf s hs), hn]⟩⟩
  rw [h, open_eq h, hn]

/-- **C135 is violated for directories that are not normalised.**  The files of a directory such as `./data`
are said not to be in the directory. -/
theorem C135_normalised_violated {w : SampleWorld σ} {dir : Text} (h0 : dir ≠ []) (hl : dir.getLast? ≠ some '/')
    (hn : normpath dir ≠ dir) (hd : w.isDir dir = true) {names : List Text} (hne : names ≠ [])
    (hf : ∀ s ∈ names, FileName s) (basename : Text) :
    openSamples w dir (names.map (joinPaths dir)) basename = .error .runtimeError := by
  obtain ⟨s, rest, rfl⟩ := List.exists_cons_of_ne_nil hne
  unfold openSamples
  rw [(raiseIf_ok (u := ())).mpr (by rw [hd]; simp), List.map_cons, List.mapM_cons]
  have hdn : dirName (joinPaths dir s) ≠ normpath dir := by
    rw [dirName_join_of_last h0 (hf s (by simp)) (Or.inr hl)]
    exact fun h => hn h.symm
  by_cases he : w.sample (normpath (joinPaths dir s)) = none
  · simp [raiseIf, he, bind, Except.bind]
  · simp [raiseIf, he, hdn, bind, Except.bind]

/-! ### Updates -/

/-- C135d: after an update of a sample, the samples of its file are the new one and all others are as
before. -/
theorem C135_update {w w' : SampleWorld σ} {d : SampleFiles} {i : ℕ} {x : σ} (h : d.update w i x = .ok w') :
    ∃ f, d.files[i]? = some f ∧ ∀ (j : ℕ) g, d.files[j]? = some g →
      (StoredSet.onFiles (σ := σ) d).item w' j =
        if normpath g = normpath f then .ok x else (StoredSet.onFiles (σ := σ) d).item w j := by
  unfold SampleFiles.update at h
  obtain ⟨f, h1, h⟩ := bind_ok h
  unfold writeSample at h
  obtain ⟨_, -, h⟩ := bind_ok h
  have h := (Except.ok.inj h).symm
  refine ⟨f, orRaise_ok.mp h1, fun j g hg => ?_⟩
  rw [h]
  simp only [StoredSet.item, hg, orRaise, bind, Except.bind]
  split_ifs with he
  · simp
  · rfl

/-- C135e: in a data set built from files with different names in a directory, an update changes only the
sample updated. -/
theorem C135_update_one {w w' : SampleWorld σ} {dir basename : Text} (h0 : dir ≠ []) {names : List Text}
    (hf : ∀ s ∈ names, FileName s) (hnd : names.Nodup) {i : ℕ} {x : σ}
    (h : (SampleFiles.mk dir (names.map (joinPaths dir)) basename).update w i x = .ok w') (j : ℕ) :
    (StoredSet.onFiles (σ := σ) ⟨dir, names.map (joinPaths dir), basename⟩).item w' j =
      if j = i then .ok x else
        (StoredSet.onFiles (σ := σ) ⟨dir, names.map (joinPaths dir), basename⟩).item w j := by
  obtain ⟨f, hi, hall⟩ := C135_update h
  have hi' : (names.map (joinPaths dir))[i]? = some f := hi
  rw [List.getElem?_map] at hi'
  obtain ⟨s, hs, rfl⟩ := Option.map_eq_some_iff.mp hi'
  cases hj : names[j]? with
  | none =>
    have hji : j ≠ i := by
      rintro rfl
      rw [hs] at hj
      cases hj
    rw [if_neg hji]
    simp [StoredSet.item, hj, orRaise, bind, Except.bind]
  | some t =>
    have := hall j (joinPaths dir t) (by
      show (names.map (joinPaths dir))[j]? = _
      rw [List.getElem?_map, hj]; rfl)
    rw [this]
    congr 1
    have hsm := List.mem_of_getElem? hs
    have htm := List.mem_of_getElem? hj
    apply propext
    constructor
    · intro he
      have hst := normpath_join_inj h0 (hf t htm) (hf s hsm) he
      obtain ⟨hil, hie⟩ := List.getElem?_eq_some_iff.mp hs
      obtain ⟨hjl, hje⟩ := List.getElem?_eq_some_iff.mp hj
      exact (List.Nodup.getElem_inj_iff hnd).mp (by rw [hje, hie, hst])
    · rintro rfl
      rw [hs] at hj
      cases hj
      rfl

/-- **C135 is violated for a file listed twice.**  An update of the first sample also changes the second. -/
theorem C135_twice_violated {w w' : SampleWorld σ} {dir f basename : Text} {x : σ}
    (h : (SampleFiles.mk dir [f, f] basename).update w 0 x = .ok w') :
    (StoredSet.onFiles (σ := σ) ⟨dir, [f, f], basename⟩).item w' 1 = .ok x := by
  obtain ⟨g, hg, hall⟩ := C135_update h
  have hg : f = g := by simpa using hg
  subst hg
  rw [hall 1 f rfl, if_pos rfl]

/-! ### Moving a data set -/

theorem moveLoop_ok {w : SampleWorld σ} {dir : Text} {files : List Text}
    (h : ∀ f ∈ files, w.sample (normpath (joinPaths (normpath dir) (baseName f))) ≠ none) :
    moveLoop w dir files = (.ok (), files.map fun f => joinPaths (normpath dir) (baseName f)) := by
  induction files with
  | nil => rfl
  | cons f fs ih =>
    unfold moveLoop
    dsimp only
    rw [if_neg (h f (by simp)), ih fun g hg => h g (by simp [hg])]
    rfl

/-- C135f: if the directory of a data set is renamed, the data set with the directory replaced has the same
samples as before. -/
theorem C135_move {w w' : SampleWorld σ} {old new basename : Text} (ho : old ≠ []) (hn : new ≠ [])
    (hd : w'.isDir new = true) {names : List Text} (hf : ∀ s ∈ names, FileName s) {xs : List σ}
    (hx : List.Forall₂ (fun s x => w.sample (normpath (joinPaths old s)) = some x) names xs)
    (hr : ∀ s ∈ names, w'.sample (normpath (joinPaths new s)) = w.sample (normpath (joinPaths old s))) :
    ∃ d', (SampleFiles.mk old (names.map (joinPaths old)) basename).move w' new = (.ok (), d') ∧
      d'.files = names.map (joinPaths (normpath new)) ∧ HasSamples w' (.onFiles d') xs ∧
      ∃ d'', openSamples w' new d'.files basename = .ok d'' := by
  have hs : ∀ s ∈ names, ∃ x, w'.sample (normpath (joinPaths (normpath new) s)) = some x := by
    intro s hs
    rw [normpath_join_norm hn (hf s hs), hr s hs]
    obtain ⟨x, -, h⟩ := forall₂_mem_left hx hs
    exact ⟨x, h⟩
  have hb : ∀ s ∈ names, baseName (joinPaths old s) = s := fun s h => baseName_join ho (hf s h)
  have hm : moveLoop w' new (names.map (joinPaths old)) = (.ok (), names.map (joinPaths (normpath new))) := by
    rw [moveLoop_ok]
    · rw [List.map_map]
      congr 1
      refine List.map_congr_left fun s h => ?_
      simp only [Function.comp_apply]
      rw [hb s h]
    · intro f hf'
      obtain ⟨s, h, rfl⟩ := List.mem_map.mp hf'
      rw [hb s h]
      obtain ⟨x, hx⟩ := hs s h
      rw [hx]
      simp
  refine ⟨⟨new, names.map (joinPaths (normpath new)), basename⟩, ?_, rfl, ?_, ?_⟩
  · unfold SampleFiles.move
    rw [if_neg (by rw [hd]; simp)]
    dsimp only
    rw [hm]
  · refine ⟨by simp [StoredSet.len, hx.length_eq], fun i x hi => ?_⟩
    obtain ⟨hlt, rfl⟩ := List.getElem?_eq_some_iff.mp hi
    have hlf : i < names.length := by rw [hx.length_eq]; exact hlt
    have := hx.get hlf hlt
    simp only [List.get_eq_getElem] at this
    have hmem := List.getElem_mem hlf
    have e : w'.sample (normpath (joinPaths (normpath new) names[i])) = some xs[i] := by
      rw [normpath_join_norm hn (hf _ hmem), hr _ hmem, this]
    simp [StoredSet.item, List.getElem?_eq_getElem hlf, orRaise, bind, Except.bind, e]
  · refine C135_open.mpr ⟨hd, fun f hf' => ?_⟩
    obtain ⟨s, h, rfl⟩ := List.mem_map.mp hf'
    obtain ⟨x, hx⟩ := hs s h
    refine ⟨by rw [hx]; simp, dirName_join_normal (normpath_idem new) (hf s h)⟩

/-- **C135 is violated for incomplete directories.**  If a sample file is missing in the new directory, the
data set is left with the new directory, the new paths of the files before the missing one, and the old paths
of the others. -/
theorem C135_incomplete_violated {w : SampleWorld σ} {old new basename : Text} (hd : w.isDir new = true)
    {before after : List Text} {f : Text}
    (hb : ∀ g ∈ before, w.sample (normpath (joinPaths (normpath new) (baseName g))) ≠ none)
    (hm : w.sample (normpath (joinPaths (normpath new) (baseName f))) = none) :
    (SampleFiles.mk old (before ++ f :: after) basename).move w new =
      (.error .runtimeError, ⟨new, (before.map fun g => joinPaths (normpath new) (baseName g)) ++ f :: after,
        basename⟩) := by
  have : moveLoop w new (before ++ f :: after) =
      (.error .runtimeError, (before.map fun g => joinPaths (normpath new) (baseName g)) ++ f :: after) := by
    induction before with
    | nil =>
      rw [List.nil_append, moveLoop]
      dsimp only
      rw [if_pos hm]
      rfl
    | cons g gs ih =>
      rw [List.cons_append, moveLoop]
      dsimp only
      rw [if_neg (hb g (by simp)), ih fun q hq => hb q (by simp [hq])]
      rfl
  unfold SampleFiles.move
  rw [if_neg (by rw [hd]; simp)]
  dsimp only
  rw [this]

/-- **C135 is violated for files of data sets.**  The file of a data set with sample files, or of a subset of
one, cannot be updated to another directory: the update raises whatever the directory has, and the file still
has the old paths.  The same directory with a slash at its end counts as another one. -/
theorem C135_relocate_violated {w : SampleWorld σ} {path new : Text} {s : StoredSet σ} {d : SampleFiles}
    (hd : w.isDir new = true) (hs : w.stored (normpath path) = some s)
    (hk : s = .onFiles d ∨ ∃ idx, s = .subset (.onFiles d) idx) (hne : d.dir ≠ new) :
    updateFileDirectory w path new = (.error .typeError, w) := by
  have hl : loadSet w path = .ok s := by unfold loadSet; rw [hs]; rfl
  have hw : s.withFiles = .ok d := by
    rcases hk with rfl | ⟨idx, rfl⟩ <;> rfl
  unfold updateFileDirectory
  rw [if_neg (by rw [hd]; simp), hl]
  dsimp only
  rw [hw]
  dsimp only
  rw [if_pos hne]

/-- C135g: updating the file of a data set never changes a file. -/
theorem C135_relocate_keeps (w : SampleWorld σ) (path new : Text) : (updateFileDirectory w path new).2 = w := by
  unfold updateFileDirectory
  split_ifs
  · rfl
  · split
    · rfl
    · split
      · rfl
      · split_ifs <;> rfl

/-! ### Files of data sets -/

theorem item_congr {w w' : SampleWorld σ} (h : w'.sample = w.sample) (s : StoredSet σ) :
    ∀ i, s.item w' i = s.item w i := by
  induction s with
  | inMemory l => intro i; rfl
  | onFiles d => intro i; simp only [StoredSet.item, h]
  | subset p idx ih =>
    intro i
    simp only [StoredSet.item]
    congr 1
    funext k
    exact ih k

/-- C135i: a saved data set is loaded again from the path returned, and no other file is changed; a data set
with sample files has the samples that its files have when they are read. -/
theorem C135_saved {w w' : SampleWorld σ} {s : StoredSet σ} {basename dir path : Text} {a : Bool}
    (h : saveSet w s basename dir a = .ok (path, w')) :
    loadSet w' path = .ok s ∧ w'.sample = w.sample ∧ (∀ p, p ≠ normpath path → w'.stored p = w.stored p) ∧
      ∀ i, s.item w' i = s.item w i := by
  unfold saveSet at h
  obtain ⟨_, -, h⟩ := bind_ok h
  have h := Except.ok.inj h
  obtain ⟨h1, h2⟩ := Prod.mk.inj h
  rw [h1] at h2
  subst h2
  refine ⟨by simp [loadSet, orRaise], rfl, fun p hp => if_neg hp, ?_⟩
  apply item_congr
  rfl

end Hooke
