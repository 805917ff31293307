import Verif.Spec.SpecimenHistory
import Verif.Lemmas.ModelState
import Verif.Lemmas.TextFile
import Verif.Lemmas.PyDict
import Verif.Lemmas.StrainPath
import Verif.Props.LearnableParameters

/-!
# C107: the history of a simulation becomes the history of the specimen
-/

namespace Hooke

open Spec

/-! ## File names -/

theorem lastNumber_of {p w s : Text} {c : Char} (hc : c.isDigit = false) (hne : w ≠ [])
    (hw : ∀ x ∈ w, x.isDigit = true) (hs : ∀ x ∈ s, x.isDigit = false) :
    lastNumber (p ++ c :: (w ++ s)) = parseInt w := by
  unfold lastNumber
  have e : (p ++ c :: (w ++ s)).reverse = s.reverse ++ (w.reverse ++ c :: p.reverse) := by simp
  rw [e, List.dropWhile_append_of_pos fun x hx => by
    rw [hs x (List.mem_reverse.mp hx)]; rfl]
  obtain ⟨d, ds, hd⟩ := List.exists_cons_of_ne_nil (l := w.reverse) (by simpa using hne)
  have hdd : d.isDigit = true := hw d (List.mem_reverse.mp (by rw [hd]; simp))
  have h1 : (w.reverse ++ c :: p.reverse).dropWhile (fun c => !c.isDigit)
      = w.reverse ++ c :: p.reverse := by
    rw [hd, List.cons_append, List.dropWhile_cons, if_neg (by simp [hdd])]
  rw [h1, List.takeWhile_append_of_pos fun x hx => hw x (List.mem_reverse.mp hx),
    List.takeWhile_cons, if_neg (by simp [hc]), List.append_nil, List.reverse_reverse]

theorem parseInt_some {w : Text} {n : ℕ} (h : parseInt w = some n) :
    w ≠ [] ∧ ∀ c ∈ w, c.isDigit = true := by
  unfold parseInt at h
  split_ifs at h with h1
  exact ⟨h1.1, List.all_eq_true.mp h1.2⟩

theorem insertionSort_perm {κ α : Type} [LinearOrder κ] {k l : List (κ × α)}
    (hl : (l.map Prod.fst).Pairwise (· < ·)) (h : k.Perm l) :
    (k.insertionSort fun a b => a.1 ≤ b.1) = l := by
  have hn : (l.map Prod.fst).Nodup := hl.imp fun h => ne_of_lt h
  have hl' : l.Pairwise fun a b => a.1 ≤ b.1 := by
    rw [List.pairwise_map] at hl
    exact hl.imp fun h => le_of_lt h
  have hs : (k.insertionSort fun a b => a.1 ≤ b.1).Pairwise fun a b => a.1 ≤ b.1 :=
    haveI : Std.Total (fun a b : κ × α => a.1 ≤ b.1) := ⟨fun a b => le_total a.1 b.1⟩
    haveI : IsTrans (κ × α) (fun a b : κ × α => a.1 ≤ b.1) := ⟨fun a b c h1 h2 => le_trans h1 h2⟩
    List.pairwise_insertionSort _ _
  have hp : (k.insertionSort fun a b => a.1 ≤ b.1).Perm l :=
    (List.perm_insertionSort _ _).trans h
  refine List.Perm.eq_of_pairwise ?_ hs hl' hp
  intro a b ha hb h1 h2
  exact List.inj_on_of_nodup_map hn (hp.mem_iff.mp ha) hb (le_antisymm h1 h2)

theorem sortByKey_perm {α : Type} {k l : List (ℕ × α)} (hl : (l.map Prod.fst).Pairwise (· < ·))
    (h : k.Perm l) : sortByKey k = l.map Prod.snd := by
  unfold sortByKey
  rw [insertionSort_perm hl h]

theorem sortFiles_perm {root : Text} {l : List (ℕ × Text)}
    (hl : (l.map Prod.fst).Pairwise (· < ·))
    (hk : ∀ p ∈ l, lastNumber (root ++ '/' :: p.2) = some p.1) {files : List Text}
    (h : files.Perm (l.map Prod.snd)) : sortFiles root files = .ok (l.map Prod.snd) := by
  unfold sortFiles
  have h1 : files.mapM (fun f =>
      (orRaise (lastNumber (root ++ '/' :: f)) .attributeError).map fun n : ℕ => (n, f))
      = Except.ok (ε := PyErr)
        (files.map fun f => ((lastNumber (root ++ '/' :: f)).getD 0, f)) := by
    refine mapM_of_forall fun f hf => ?_
    obtain ⟨p, hp, rfl⟩ := List.mem_map.mp (h.mem_iff.mp hf)
    rw [hk p hp]
    rfl
  rw [h1]
  have h2 : (files.map fun f => ((lastNumber (root ++ '/' :: f)).getD 0, f)).Perm l := by
    refine (h.map _).trans ?_
    rw [List.map_map]
    have : l.map ((fun f => ((lastNumber (root ++ '/' :: f)).getD 0, f)) ∘ Prod.snd) = l := by
      conv_rhs => rw [← List.map_id l]
      refine List.map_congr_left fun p hp => ?_
      simp only [Function.comp_apply, hk p hp, Option.getD_some, id_eq]
    rw [this]
  simp only [bind, Except.bind, pure, Except.pure]
  rw [sortByKey_perm hl h2]

theorem isNodeDataFile_suffix {name f : Text} (h : isNodeDataFile name f = true) :
    ".nodedata".toList <:+ f := by
  unfold isNodeDataFile at h
  cases hp : afterPrefix name f with
  | none => rw [hp] at h; cases h
  | some r =>
    rw [hp] at h
    rw [afterPrefix_eq.mp hp]
    exact (of_decide_eq_true h).trans (List.suffix_append _ _)

theorem isNodeDataFile_nodeFile (name w : Text) : isNodeDataFile name (nodeFile name w) = true := by
  unfold isNodeDataFile nodeFile
  rw [afterPrefix_append]
  exact decide_eq_true ⟨'_' :: w, rfl⟩

theorem nodeFile_inj {name v w : Text} (h : nodeFile name v = nodeFile name w) : v = w := by
  unfold nodeFile at h
  rw [List.append_cancel_left_eq, List.cons.injEq, List.append_cancel_right_eq] at h
  exact h.2

theorem nodeFile_key {root name w : Text} {n : ℕ} (h : parseInt w = some n) :
    lastNumber (root ++ '/' :: nodeFile name w) = some n := by
  have e : root ++ '/' :: nodeFile name w
      = (root ++ '/' :: name) ++ '_' :: (w ++ ".nodedata".toList) := by
    simp [nodeFile]
  rw [e, lastNumber_of (by decide) (parseInt_some h).1 (parseInt_some h).2 (by decide), h]

/-! ## Collecting the node data -/

theorem nodeFiles_nodup {name : Text} {dir : KDict Text Frame} {steps : List (ℕ × Text × Frame)}
    (h : NodeDataDir name dir steps) : (steps.map fun s => nodeFile name s.2.1).Nodup := by
  have h1 : steps.Pairwise fun a b => nodeFile name a.2.1 ≠ nodeFile name b.2.1 := by
    have h2 := h.increasing
    rw [List.pairwise_map] at h2
    have h3 : steps.Pairwise fun a b => a ∈ steps ∧ b ∈ steps ∧ a.1 < b.1 :=
      h2.imp_of_mem fun ha hb h => ⟨ha, hb, h⟩
    refine h3.imp ?_
    rintro a b ⟨ha, hb, hab⟩ he
    have := h.numbers a ha
    rw [nodeFile_inj he, h.numbers b hb] at this
    exact absurd hab (by rw [Option.some.inj this]; exact lt_irrefl _)
  rw [List.Nodup, List.pairwise_map]
  exact h1

theorem filter_nodeFiles {name : Text} {dir : KDict Text Frame} {steps : List (ℕ × Text × Frame)}
    (h : NodeDataDir name dir steps) :
    (dir.keys.filter (isNodeDataFile name)).Perm (steps.map fun s => nodeFile name s.2.1) := by
  refine (List.perm_ext_iff_of_nodup (List.Nodup.filter _ h.nodup) (nodeFiles_nodup h)).mpr ?_
  intro f
  refine List.mem_filter.trans (Iff.trans ?_ List.mem_map.symm)
  constructor
  · rintro ⟨hf, hm⟩
    obtain ⟨p, hp, rfl⟩ := List.mem_map.mp hf
    rcases h.others p hp with ⟨s, hs, rfl⟩ | hn
    · exact ⟨s, hs, rfl⟩
    · exact absurd (isNodeDataFile_suffix hm) hn
  · rintro ⟨s, hs, rfl⟩
    exact ⟨List.mem_map.mpr ⟨_, h.files s hs, rfl⟩, isNodeDataFile_nodeFile _ _⟩

theorem collectNodeData_eq {root name : Text} {dir : KDict Text Frame}
    {steps : List (ℕ × Text × Frame)} (h : NodeDataDir name dir steps) :
    collectNodeData root name dir.keys = .ok (steps.map fun s => nodeFile name s.2.1) := by
  unfold collectNodeData
  have := sortFiles_perm (root := root) (l := steps.map fun s => (s.1, nodeFile name s.2.1))
    (by rw [List.map_map]; exact h.increasing) (by
      intro p hp
      obtain ⟨s, hs, rfl⟩ := List.mem_map.mp hp
      exact nodeFile_key (h.numbers s hs)) (files := dir.keys.filter (isNodeDataFile name)) (by
      rw [List.map_map]; exact filter_nodeFiles h)
  rw [this, List.map_map]
  rfl

theorem nodeFrames_eq {name : Text} {dir : KDict Text Frame} {steps : List (ℕ × Text × Frame)}
    (h : NodeDataDir name dir steps) :
    (steps.map fun s => nodeFile name s.2.1).mapM (fun f => orRaise (dir.get? f) .osError)
      = Except.ok (ε := PyErr) (steps.map fun s => s.2.2) := by
  rw [List.mapM_map]
  refine mapM_of_forall fun s hs => ?_
  simp only [Function.comp_apply]
  rw [get?_of_mem dir h.nodup _ _ (h.files s hs)]
  rfl

/-! ## Marks -/

theorem wrapIndex_label {n : ℕ} {z : ℤ} (h1 : 1 ≤ z) (h2 : z ≤ n) :
    wrapIndex n (z - 1) = some (z - 1).toNat := by
  unfold wrapIndex
  rw [if_pos ⟨by omega, by omega⟩]

theorem flags_fold {n : ℕ} (l : List (ℤ × ℕ))
    (h : ∀ p ∈ l, 1 ≤ p.1 ∧ p.1 ≤ (n : ℤ) ∧ 1 ≤ p.2 ∧ p.2 ≤ 3) (fl0 : ℕ → ℕ → ℕ) :
    ∃ fl, l.foldlM (fun fl (p : ℤ × ℕ) => do
      let i ← orRaise (wrapIndex n (p.1 - 1)) .indexError
      let d ← orRaise (wrapIndex 3 ((p.2 : ℤ) - 1)) .indexError
      pure (setFlag fl i d)) fl0 = Except.ok (ε := PyErr) fl ∧
      ∀ i d : ℕ, (((i : ℤ) + 1, d + 1) ∈ l → fl i d = 1) ∧
        (((i : ℤ) + 1, d + 1) ∉ l → fl i d = fl0 i d) := by
  induction l generalizing fl0 with
  | nil => exact ⟨fl0, rfl, fun i d => ⟨fun h => (by cases h), fun _ => rfl⟩⟩
  | cons p l ih =>
    obtain ⟨a1, a2, a3, a4⟩ := h p (by simp)
    obtain ⟨fl, hf, hfl⟩ := ih (fun q hq => h q (by simp [hq]))
      (setFlag fl0 (p.1 - 1).toNat ((p.2 : ℤ) - 1).toNat)
    refine ⟨fl, ?_, ?_⟩
    · rw [List.foldlM_cons, wrapIndex_label a1 a2, wrapIndex_label (by omega) (by omega)]
      exact hf
    · intro i d
      have hset : setFlag fl0 (p.1 - 1).toNat ((p.2 : ℤ) - 1).toNat i d
          = if ((i : ℤ) + 1, d + 1) = p then 1 else fl0 i d := by
        unfold setFlag
        refine if_congr ?_ rfl rfl
        rw [Prod.ext_iff]
        constructor
        · rintro ⟨h1, h2⟩
          exact ⟨by dsimp only; omega, by dsimp only; omega⟩
        · rintro ⟨h1, h2⟩
          dsimp only at h1 h2
          exact ⟨by omega, by omega⟩
      by_cases hl : ((i : ℤ) + 1, d + 1) ∈ l
      · exact ⟨fun _ => (hfl i d).1 hl, fun hn => absurd (List.mem_cons_of_mem _ hl) hn⟩
      · have h0 := (hfl i d).2 hl
        rw [hset] at h0
        refine ⟨fun hm => ?_, fun hm => ?_⟩
        · rcases List.mem_cons.mp hm with he | he
          · rw [h0, if_pos he]
          · exact absurd he hl
        · rw [h0, if_neg fun he => hm (by rw [he]; simp)]

theorem historyMarks_eq {nNode : ℕ} {bcs : Option DirichletBcs} (h : BcsWithin nNode bcs) :
    ∃ fl, historyMarks nNode bcs = .ok fl ∧ ∀ i d : ℕ,
      (Prescribed bcs ((i : ℤ) + 1) (d + 1) → fl i d = 1) ∧
      (¬ Prescribed bcs ((i : ℤ) + 1) (d + 1) → fl i d = 0) := by
  cases bcs with
  | none =>
    refine ⟨fun _ _ => 0, rfl, fun i d => ⟨?_, fun _ => rfl⟩⟩
    rintro ⟨b, ds, u, hb, -⟩
    cases hb
  | some b =>
    obtain ⟨fl, hf, hfl⟩ := flags_fold (n := nNode)
      (b.flatMap fun n => n.2.map fun d => (n.1, d.1)) (by
        rintro p hp
        obtain ⟨⟨n, ds⟩, hn, hp⟩ := List.mem_flatMap.mp hp
        obtain ⟨⟨d, u⟩, hd, rfl⟩ := List.mem_map.mp hp
        obtain ⟨h1, h2, h3⟩ := h b n ds rfl hn
        obtain ⟨h4, h5⟩ := h3 d u hd
        exact ⟨h1, h2, h4, h5⟩) fun _ _ => 0
    refine ⟨fl, hf, fun i d => ?_⟩
    have key : Prescribed (some b) ((i : ℤ) + 1) (d + 1) ↔
        ((i : ℤ) + 1, d + 1) ∈ (b.flatMap fun n => n.2.map fun d => (n.1, d.1)) := by
      rw [List.mem_flatMap]
      constructor
      · rintro ⟨b', ds, u, hb, hn, hd⟩
        cases hb
        exact ⟨_, hn, List.mem_map.mpr ⟨_, hd, rfl⟩⟩
      · rintro ⟨⟨n, ds⟩, hn, hp⟩
        obtain ⟨⟨d', u⟩, hd, he⟩ := List.mem_map.mp hp
        cases he
        exact ⟨b, ds, u, rfl, hn, hd⟩
    rw [key]
    exact hfl i d

/-! ## Writing and reading -/

theorem history_key (root name : Text) (t : ℕ) :
    lastNumber (root ++ '/' :: historyFile name t) = some t := by
  have e : root ++ '/' :: historyFile name t
      = (root ++ '/' :: (name ++ "_tstep".toList)) ++ '_' :: (strNat t ++ ".csv".toList) := by
    have : "_tstep_".toList = "_tstep".toList ++ ['_'] := by decide
    simp only [historyFile, this, List.append_assoc, List.cons_append, List.nil_append]
  rw [e, lastNumber_of (by decide) (strNat_ne_nil t) (fun c hc => isDigit_of_mem_strNat hc)
    (by decide), parseInt_strNat]

theorem isHistoryFile_historyFile (name : Text) (t : ℕ) :
    isHistoryFile name (historyFile name t) = true := by
  unfold isHistoryFile historyFile
  rw [List.append_assoc, afterPrefix_append]
  have h1 : (strNat t ++ ".csv".toList).takeWhile Char.isDigit = strNat t := takeWhile_strNat t '.' _ rfl
  have h2 : (strNat t ++ ".csv".toList).dropWhile Char.isDigit = ".csv".toList :=
    dropWhile_strNat t '.' _ rfl
  dsimp only
  rw [h1, h2]
  simp only [strNat_ne_nil, ne_eq, not_false_eq_true, decide_true, Bool.true_and]
  decide

theorem historyFile_inj {name : Text} {s t : ℕ} (h : historyFile name s = historyFile name t) :
    s = t := by
  have h1 := history_key [] name s
  rw [h, history_key] at h1
  exact (Option.some.inj h1).symm

theorem mapM_zipIdx {α β : Type} {f : α × ℕ → Py β} {g : α × ℕ → β} {l : List α}
    (h : ∀ a ∈ l, ∀ t, f (a, t) = .ok (g (a, t))) :
    l.zipIdx.mapM f = .ok (l.zipIdx.map g) := by
  refine mapM_of_forall fun p hp => ?_
  exact h p.1 (List.fst_mem_of_mem_zipIdx hp) p.2

/-- The rows of a history file. -/
noncomputable def historyRows (nNode : ℕ) (marks : ℕ → ℕ → ℕ) (f : Frame) : Frame :=
  ⟨13, (List.range nNode).map fun i => historyColumns.map (fun j => f.at i j)
    ++ (List.range 3).map fun d => ((marks i d : ℕ) : ℝ)⟩

theorem writeHistory_eq {name : Text} {frames : List Frame} {nNode : ℕ} {bcs : Option DirichletBcs}
    {marks : ℕ → ℕ → ℕ} (hne : frames ≠ [])
    (hf : ∀ f ∈ frames, f.cols = 18 ∧ f.rows.length = nNode)
    (hm : historyMarks nNode bcs = .ok marks) :
    writeHistory name frames bcs = .ok (frames.zipIdx.map fun p : Frame × ℕ =>
      (historyFile name p.2, historyRows nNode marks p.1)) := by
  unfold writeHistory
  obtain ⟨f, fs, rfl⟩ := List.exists_cons_of_ne_nil hne
  have h0 : orRaise ((f :: fs)[0]?) PyErr.indexError = .ok f := rfl
  simp only [h0, bind, Except.bind, (hf f (by simp)).2, hm]
  refine mapM_zipIdx fun a ha t => ?_
  obtain ⟨h1, h2⟩ := hf a ha
  unfold historyFrame
  rw [(raiseIf_ok (u := ())).mpr (by simp [h1]), (raiseIf_ok (u := ())).mpr (by simp [h2])]
  rfl

theorem historyPaths_eq {root name : Text} {files : List Text} {n : ℕ} (hn : n ≠ 0)
    (h : files.Perm ((List.range n).map (historyFile name))) :
    historyPaths root name files = .ok ((List.range n).map (historyFile name)) := by
  have hf : files.filter (isHistoryFile name) = files := by
    refine List.filter_eq_self.mpr fun f hf => ?_
    obtain ⟨t, -, rfl⟩ := List.mem_map.mp (h.mem_iff.mp hf)
    exact isHistoryFile_historyFile name t
  unfold historyPaths
  rw [hf, (raiseIf_ok (u := ())).mpr (by
    rintro rfl
    have := h.length_eq
    simp at this
    exact hn this.symm)]
  have := sortFiles_perm (root := root) (l := (List.range n).map fun t => (t, historyFile name t))
    (by rw [List.map_map]; simpa [Function.comp_def] using List.pairwise_lt_range) (by
      intro p hp
      obtain ⟨t, -, rfl⟩ := List.mem_map.mp hp
      exact history_key root name t) (files := files) (by
      rw [List.map_map]; exact h)
  rw [List.map_map] at this
  exact this

theorem historyRows_at {nNode : ℕ} {marks : ℕ → ℕ → ℕ} {f : Frame} {i d : ℕ} (hi : i < nNode)
    (hd : d < 3) : (historyRows nNode marks f).at i (4 + d) = f.at i (6 + d) ∧
      (historyRows nNode marks f).at i (7 + d) = f.at i (15 + d) ∧
      (historyRows nNode marks f).at i (10 + d) = (marks i d : ℝ) := by
  have hrow : (historyRows nNode marks f).rows.getD i [] = historyColumns.map (fun j => f.at i j)
      ++ (List.range 3).map fun d => ((marks i d : ℕ) : ℝ) := by
    simp [historyRows, hi]
  have hr3 : List.range 3 = [0, 1, 2] := rfl
  unfold Frame.at at *
  rw [hrow, hr3]
  interval_cases d <;> exact ⟨rfl, rfl, rfl⟩

/-- **C107 (history).** The displacements, reactions and marks of every node at every time step
arrive in the specimen, whatever the order in which either directory is listed. -/
theorem C107_history {root root' name out : Text} {dir : KDict Text Frame}
    {steps : List (ℕ × Text × Frame)} {nNode : ℕ} {bcs : Option DirichletBcs}
    (h : NodeDataDir name dir steps) (hne : steps ≠ []) (hT : NodeTables nNode steps)
    (hB : BcsWithin nNode bcs) (rd : ℝ → ℝ) (h0 : rd 0 = 0) (h1 : rd 1 = 1) :
    ∃ files, linksToHistory root name out dir bcs = .ok files ∧
      ∀ dir', dir'.Perm files → ∃ hist, readHistory rd root' out nNode dir' = .ok hist ∧
        HistoryOf rd nNode (steps.map fun s => s.2.2) bcs hist := by
  obtain ⟨marks, hm, hmarks⟩ := historyMarks_eq hB
  have hw := writeHistory_eq (name := out) (frames := steps.map fun s => s.2.2) (nNode := nNode)
    (by simpa using hne) (by
      intro f hf
      obtain ⟨s, hs, rfl⟩ := List.mem_map.mp hf
      exact ⟨(hT s hs).1, (hT s hs).2.1⟩) hm
  refine ⟨(steps.map fun s => s.2.2).zipIdx.map fun p : Frame × ℕ =>
    (historyFile out p.2, historyRows nNode marks p.1), ?_, ?_⟩
  · unfold linksToHistory
    rw [collectNodeData_eq h]
    simp only [bind, Except.bind]
    rw [nodeFrames_eq h]
    exact hw
  generalize hfr : (steps.map fun s => s.2.2) = frames at *
  have hlen : frames.length ≠ 0 := by
    rw [← hfr, List.length_map]
    exact fun h => hne (List.length_eq_zero_iff.mp h)
  intro dir' hp
  have hkeys : dir'.keys.Perm ((List.range frames.length).map (historyFile out)) := by
    have h2 : (frames.zipIdx.map fun p : Frame × ℕ =>
        (historyFile out p.2, historyRows nNode marks p.1)).map Prod.fst
        = (List.range frames.length).map (historyFile out) := by
      rw [List.map_map, List.range_eq_range', ← List.zipIdx_map_snd 0 frames, List.map_map]
      rfl
    rw [← h2]
    exact hp.map _
  have hnd : (dir'.map Prod.fst).Nodup :=
    (hkeys.nodup_iff).mpr (List.Nodup.map (fun a b h => historyFile_inj h) List.nodup_range)
  have hread : ((List.range frames.length).map (historyFile out)).mapM (historyTable nNode dir')
      = .ok (frames.map (historyRows nNode marks)) := by
    have e : ((List.range frames.length).map (historyFile out))
        = frames.zipIdx.map fun p => historyFile out p.2 := by
      rw [List.range_eq_range', ← List.zipIdx_map_snd 0 frames, List.map_map]
      rfl
    have e' : frames.map (historyRows nNode marks)
        = frames.zipIdx.map fun p => historyRows nNode marks p.1 := by
      conv_lhs => rw [← List.zipIdx_map_fst 0 frames, List.map_map]
      rfl
    rw [e, e', List.mapM_map]
    refine mapM_of_forall fun p hpm => ?_
    simp only [Function.comp_apply]
    unfold historyTable
    rw [get?_of_mem dir' hnd _ _ (hp.mem_iff.mpr (List.mem_map.mpr ⟨p, hpm, rfl⟩))]
    simp [orRaise, raiseIf, historyRows, bind, Except.bind, pure, Except.pure]
  unfold readHistory
  rw [historyPaths_eq hlen hkeys]
  simp only [bind, Except.bind, specimenNumericalData, hread, pure, Except.pure]
  refine ⟨_, rfl, ?_, ?_⟩
  · simp
  · intro i d t f hi hd ht
    have hg : (frames.map (historyRows nNode marks)).getD t ⟨0, []⟩ = historyRows nNode marks f := by
      simp [List.getD, ht]
    obtain ⟨a1, a2, a3⟩ := historyRows_at (marks := marks) (f := f) hi hd
    simp only [hg, a1, a2, a3]
    refine ⟨trivial, trivial, fun hpr => ?_, fun hpr => ?_⟩
    · rw [(hmarks i d).1 hpr, Nat.cast_one, h1]
      simp [truncInt]
    · rw [(hmarks i d).2 hpr, Nat.cast_zero, h0]
      simp [truncInt]

theorem splitextRoot_nodeFile {name w : Text} :
    splitextRoot (nodeFile name w) = name ++ '_' :: w := by
  unfold splitextRoot nodeFile
  have e : (name ++ '_' :: (w ++ ".nodedata".toList)).reverse
      = "atadedon".toList ++ '.' :: (name ++ '_' :: w).reverse := by
    have : ".nodedata".toList = '.' :: "nodedata".toList := by decide
    rw [this]
    have h2 : "atadedon".toList = "nodedata".toList.reverse := by decide
    rw [h2]
    simp
  rw [e, List.dropWhile_append_of_pos (by decide), List.dropWhile_cons, if_neg (by decide)]
  dsimp only
  rw [if_pos (by simp), List.reverse_reverse]

theorem nodeFile_step {name w : Text} {n : ℕ} (h : parseInt w = some n) :
    intOfText ((splitText (· == '_') (splitextRoot (nodeFile name w))).getLastD []) = .ok (n : ℤ) := by
  obtain ⟨-, hw⟩ := parseInt_some h
  rw [splitextRoot_nodeFile, splitText_append (by decide), splitText_none (s := w) (by
    intro c hc
    by_contra hb
    have := hw c hc
    simp only [Bool.not_eq_false, beq_iff_eq] at hb
    subst hb
    exact absurd this (by decide))]
  rw [List.getLastD_concat, intOfText_digits (w := w) (s := w) (stripText_word 0 fun c hc =>
    isBlankChar_digit (hw c hc)) hw, h]
  rfl

/-- **C107 (simulation results).** The node data read back from a simulation are the tables of its
time steps in the order of their numbers. -/
theorem C107_results {name : Text} {dir : KDict Text Frame} {steps : List (ℕ × Text × Frame)}
    {nNode : ℕ} (h : NodeDataDir name dir steps) (hT : NodeTables nNode steps) (hN : nNode ≠ 1) :
    readNodeResults name dir
      = .ok (if steps = [] then none else some (steps.map fun s => s.2.2)) := by
  have hperm : (dir.filter fun p => isNodeDataFile name p.1).Perm
      (steps.map fun s => (nodeFile name s.2.1, s.2.2)) := by
    refine (List.perm_ext_iff_of_nodup (List.Nodup.filter _ (List.Nodup.of_map _ h.nodup))
      (List.Nodup.of_map Prod.fst (by rw [List.map_map]; exact nodeFiles_nodup h))).mpr ?_
    intro p
    refine List.mem_filter.trans (Iff.trans ?_ List.mem_map.symm)
    constructor
    · rintro ⟨hf, hm⟩
      rcases h.others p hf with ⟨s, hs, rfl⟩ | hn
      · exact ⟨s, hs, rfl⟩
      · exact absurd (isNodeDataFile_suffix hm) hn
    · rintro ⟨s, hs, rfl⟩
      exact ⟨h.files s hs, isNodeDataFile_nodeFile _ _⟩
  let key : Text × Frame → ℤ × Frame := fun p =>
    ((match intOfText ((splitText (· == '_') (splitextRoot p.1)).getLastD []) with
      | .ok n => n
      | .error _ => 0), p.2)
  have hkey : ∀ s ∈ steps, key (nodeFile name s.2.1, s.2.2) = ((s.1 : ℤ), s.2.2) := by
    intro s hs
    simp only [key, nodeFile_step (h.numbers s hs)]
  have hmap : (dir.filter fun p => isNodeDataFile name p.1).mapM (fun p =>
      (intOfText ((splitText (· == '_') (splitextRoot p.1)).getLastD [])).map
        fun n : ℤ => (n, p.2))
      = Except.ok (ε := PyErr) ((dir.filter fun p => isNodeDataFile name p.1).map key) := by
    refine mapM_of_forall fun p hp => ?_
    obtain ⟨s, hs, rfl⟩ := List.mem_map.mp (hperm.mem_iff.mp hp)
    rw [hkey s hs, nodeFile_step (h.numbers s hs)]
    rfl
  have hs : ((dir.filter fun p => isNodeDataFile name p.1).map key).insertionSort
      (fun a b => a.1 ≤ b.1) = steps.map fun s => ((s.1 : ℤ), s.2.2) := by
    refine insertionSort_perm ?_ ?_
    · rw [List.map_map, List.pairwise_map]
      have := h.increasing
      rw [List.pairwise_map] at this
      exact this.imp fun h => Int.ofNat_lt.mpr h
    · refine (hperm.map key).trans (List.Perm.of_eq ?_)
      rw [List.map_map]
      exact List.map_congr_left fun s hs => hkey s hs
  unfold readNodeResults
  simp only [hmap, bind, Except.bind]
  rw [hs, List.map_map]
  cases hst : steps with
  | nil => rfl
  | cons s ss =>
    rw [hst] at hT
    simp only [List.map_cons, Function.comp_apply]
    have e1 : raiseIf (s.2.2.rows.length = 1 ∨ s.2.2.cols = 1) PyErr.indexError = .ok () := by
      refine raiseIf_ok.mpr ?_
      rw [(hT s (by simp)).1, (hT s (by simp)).2.1]
      simp [hN]
    have e2 : raiseIf (((s.2.2 :: ss.map (Prod.snd ∘ fun s => ((s.1 : ℤ), s.2.2))).all fun g =>
        decide (g.cols = s.2.2.cols ∧ g.rows.length = s.2.2.rows.length)) = false)
        PyErr.valueError = .ok () := by
      refine raiseIf_ok.mpr ?_
      rw [Bool.not_eq_false, List.all_eq_true]
      intro g hg
      have : ∃ s' ∈ s :: ss, g = s'.2.2 := by
        rcases List.mem_cons.mp hg with rfl | hg
        · exact ⟨s, by simp, rfl⟩
        · obtain ⟨s', hs', rfl⟩ := List.mem_map.mp hg
          exact ⟨s', by simp [hs'], rfl⟩
      obtain ⟨s', hs', rfl⟩ := this
      rw [(hT s' hs').1, (hT s' hs').2.1, (hT s (by simp)).1, (hT s (by simp)).2.1]
      simp
    rw [e1]
    dsimp only
    rw [e2]
    simp only [pure, Except.pure, reduceCtorEq, if_false]
    rfl

end Hooke
