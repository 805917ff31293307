import Verif.Spec.LinksOutput
import Verif.Props.SpecimenHistory
import Verif.Props.LearnableParameters
import Mathlib.Tactic.FinCases

/-!
# C126: conversions of the outputs of Links
-/

namespace Hooke

open Spec

/-! ## Export -/

/-- The table of a time step. -/
noncomputable def exported (f : Frame) : CsvTable :=
  ⟨f.rows.length, exportColumns.map fun p =>
    (p.1, (List.range f.rows.length).map fun i => f.at i p.2)⟩

theorem exportTable_eq {f : Frame} (h : f.cols = 18) : exportTable f = .ok (exported f) := by
  unfold exportTable
  rw [(raiseIf_ok (u := ())).mpr (by simp [h])]
  rfl

theorem exportLoop_eq {name : Text} (fs : List Frame) (h : ∀ f ∈ fs, f.cols = 18) (t : ℕ)
    (d : KDict Text CsvTable) (hd : ∀ s, t ≤ s → historyFile name s ∉ d.keys) :
    exportLoop name t fs d = (.ok (), d ++ (fs.zipIdx t).map fun p : Frame × ℕ =>
      (historyFile name p.2, exported p.1)) := by
  induction fs generalizing t d with
  | nil => simp [exportLoop]
  | cons f fs ih =>
    unfold exportLoop
    rw [exportTable_eq (h f (by simp))]
    dsimp only
    rw [put_of_notMem _ _ _ (hd t le_rfl), ih (fun g hg => h g (by simp [hg])) (t + 1)]
    · simp
    · intro s hs
      have : KDict.keys (d ++ [(historyFile name t, exported f)]) = d.keys ++ [historyFile name t] := by
        simp [KDict.keys]
      rw [this, List.mem_append, not_or]
      refine ⟨hd s (by omega), ?_⟩
      simp only [List.mem_singleton]
      intro e
      have := historyFile_inj e
      omega

theorem exported_spec (f : Frame) : ExportOf f (exported f) where
  rows := rfl
  names := rfl
  node := rfl
  coord d hd := by interval_cases d <;> rfl
  disp d hd := by interval_cases d <;> rfl
  reac d hd := by interval_cases d <;> rfl

theorem zipIdx_getD {name : Text} (fs : List Frame) (t : ℕ) {f : Frame} (h : fs[t]? = some f) :
    KDict.get? (fs.zipIdx.map fun p : Frame × ℕ => (historyFile name p.2, exported p.1))
      (historyFile name t) = some (exported f) := by
  refine get?_of_mem _ ?_ _ _ (List.mem_map.mpr ⟨(f, t), ?_, rfl⟩)
  · unfold KDict.keys
    rw [List.map_map]
    have e : (fs.zipIdx.map (Prod.fst ∘ fun p : Frame × ℕ => (historyFile name p.2, exported p.1)))
        = (List.range fs.length).map (historyFile name) := by
      rw [List.range_eq_range', ← List.zipIdx_map_snd 0 fs, List.map_map]
      rfl
    rw [e]
    exact List.Nodup.map (fun a b h => historyFile_inj h) List.nodup_range
  · rw [List.mem_zipIdx_iff_getElem?]
    simpa using h

theorem exportNodeData_eq {path : Text} {dir : KDict Text Frame} {steps : List (ℕ × Text × Frame)}
    (h : NodeDataDir (simulationName path) dir steps) (hT : ∀ s ∈ steps, s.2.2.cols = 18)
    (old : KDict Text CsvTable) :
    exportNodeData path (some dir) old
      = (.ok (), (steps.map fun s => s.2.2).zipIdx.map fun p : Frame × ℕ =>
        (historyFile (simulationName path) p.2, exported p.1)) := by
  unfold exportNodeData
  dsimp only
  rw [collectNodeData_eq h]
  dsimp only
  have e : ((steps.map fun s => nodeFile (simulationName path) s.2.1).map fun f =>
      (dir.get? f).getD ⟨0, []⟩) = steps.map fun s => s.2.2 := by
    rw [List.map_map]
    refine List.map_congr_left fun s hs => ?_
    simp only [Function.comp_apply]
    rw [get?_of_mem dir h.nodup _ _ (h.files s hs)]
    rfl
  rw [e, exportLoop_eq _ (by
    intro f hf
    obtain ⟨s, hs, rfl⟩ := List.mem_map.mp hf
    exact hT s hs) 0 [] (by simp [KDict.keys])]
  rfl

/-- **C126 (export).** The node data of a simulation become one file per time step, numbered from zero
in the order of the step numbers whatever the order in which the directory is listed, with the labels,
coordinates, displacements and reactions of all nodes; nothing of an earlier export is left. -/
theorem C126_export {path : Text} {dir : KDict Text Frame} {steps : List (ℕ × Text × Frame)}
    (h : NodeDataDir (simulationName path) dir steps) (hT : ∀ s ∈ steps, s.2.2.cols = 18)
    (old : KDict Text CsvTable) :
    ∃ files, exportNodeData path (some dir) old = (.ok (), files) ∧
      files.keys = (List.range steps.length).map (historyFile (simulationName path)) ∧
      ∀ t (s : ℕ × Text × Frame), steps[t]? = some s →
        ∃ c, files.get? (historyFile (simulationName path) t) = some c ∧ ExportOf s.2.2 c := by
  refine ⟨_, exportNodeData_eq h hT old, ?_, ?_⟩
  · have e : ∀ fs : List Frame, KDict.keys (fs.zipIdx.map fun p : Frame × ℕ =>
        (historyFile (simulationName path) p.2, exported p.1))
        = (List.range fs.length).map (historyFile (simulationName path)) := by
      intro fs
      unfold KDict.keys
      rw [List.map_map, List.range_eq_range', ← List.zipIdx_map_snd 0 fs, List.map_map]
      rfl
    rw [e, List.length_map]
  · intro t s hs
    exact ⟨_, zipIdx_getD _ t (by simp [hs]), exported_spec _⟩

/-! ## Marks -/

/-- A table with marks. -/
noncomputable def marked (marks : ℕ → ℕ → ℕ) (c : CsvTable) : CsvTable :=
  ⟨c.nRows, ((c.cols.put "DBC1".toList ((List.range c.nRows).map fun i : ℕ => ((marks i 0 : ℕ) : ℝ))).put
    "DBC2".toList ((List.range c.nRows).map fun i : ℕ => ((marks i 1 : ℕ) : ℝ))).put
    "DBC3".toList ((List.range c.nRows).map fun i : ℕ => ((marks i 2 : ℕ) : ℝ))⟩

theorem markTable_eq {n : ℕ} {marks : ℕ → ℕ → ℕ} {c : CsvTable} (h : c.nRows = n)
    (hl : (marked marks c).cols.length = 13) : markTable n n marks c = .ok (marked marks c) := by
  unfold markTable
  rw [(raiseIf_ok (u := ())).mpr (by simp [h]), (raiseIf_ok (u := ())).mpr (by simp [h])]
  simp only [bind, Except.bind]
  rw [(raiseIf_ok (u := ())).mpr (by
    simp only [ne_eq, not_not]
    exact hl)]
  rfl

theorem updateLoop_eq {n : ℕ} {marks : ℕ → ℕ → ℕ} (fs : List Text) (hn : fs.Nodup)
    (d : KDict Text CsvTable) (h : ∀ f ∈ fs, ∃ c, d.get? f = some c ∧ c.nRows = n ∧
      (marked marks c).cols.length = 13) :
    ∃ d', updateLoop n n marks fs d = (.ok (), d') ∧ d'.keys = d.keys ∧ ∀ k,
      d'.get? k = if k ∈ fs then (d.get? k).map (marked marks) else d.get? k := by
  induction fs generalizing d with
  | nil => exact ⟨d, rfl, rfl, by simp⟩
  | cons f fs ih =>
    obtain ⟨c, hc, hr, hl⟩ := h f (by simp)
    obtain ⟨hf, hn'⟩ := List.nodup_cons.mp hn
    obtain ⟨d', h1, h2, h3⟩ := ih hn' (d.put f (marked marks c)) (by
      intro g hg
      obtain ⟨c', hc', hr', hl'⟩ := h g (by simp [hg])
      refine ⟨c', ?_, hr', hl'⟩
      rw [KDict.get?_put_ne d _ (l := g) (k := f) (fun e => hf (e ▸ hg)), hc'])
    refine ⟨d', ?_, ?_, ?_⟩
    · unfold updateLoop
      rw [hc]
      dsimp only
      rw [markTable_eq hr hl]
      exact h1
    · rw [h2, KDict.keys_put, if_pos (KDict.mem_keys_iff.mpr ⟨c, hc⟩)]
    · intro k
      rw [h3 k, KDict.get?_put]
      by_cases hk : k = f
      · subst hk
        simp [hf, hc]
      · simp [hk]

theorem updateMarks_eq {n : ℕ} {marks : ℕ → ℕ → ℕ} {fs : List Text} (hne : fs ≠ []) (hn : fs.Nodup)
    (d : KDict Text CsvTable) (h : ∀ f ∈ fs, ∃ c, d.get? f = some c ∧ c.nRows = n ∧
      (marked marks c).cols.length = 13) :
    ∃ d', updateMarks fs n marks d = (.ok (), d') ∧ d'.keys = d.keys ∧ ∀ k,
      d'.get? k = if k ∈ fs then (d.get? k).map (marked marks) else d.get? k := by
  obtain ⟨f, fs, rfl⟩ := List.exists_cons_of_ne_nil hne
  obtain ⟨c, hc, hr, -⟩ := h f (by simp)
  obtain ⟨d', h1, h2⟩ := updateLoop_eq (f :: fs) hn d h
  refine ⟨d', ?_, h2⟩
  unfold updateMarks
  dsimp only
  rw [hc]
  dsimp only
  rw [hr, h1]

theorem marked_exported (marks : ℕ → ℕ → ℕ) (f : Frame) :
    (marked marks (exported f)).cols.length = 13 ∧
      (marked marks (exported f)).frame = historyRows f.rows.length marks f := by
  refine ⟨rfl, ?_⟩
  unfold CsvTable.frame historyRows
  have hl : (marked marks (exported f)).cols.length = 13 := rfl
  have hr : (marked marks (exported f)).nRows = f.rows.length := rfl
  rw [hl, hr]
  congr 1
  refine List.map_congr_left fun i hi => ?_
  have hi' := List.mem_range.mp hi
  have e : (marked marks (exported f)).cols = (exportColumns.map fun p =>
      (p.1, (List.range f.rows.length).map fun i => f.at i p.2)) ++
      [("DBC1".toList, (List.range f.rows.length).map fun i : ℕ => ((marks i 0 : ℕ) : ℝ)),
       ("DBC2".toList, (List.range f.rows.length).map fun i : ℕ => ((marks i 1 : ℕ) : ℝ)),
       ("DBC3".toList, (List.range f.rows.length).map fun i : ℕ => ((marks i 2 : ℕ) : ℝ))] := rfl
  have g : ∀ F : ℕ → ℝ, ((List.range f.rows.length).map F).getD i 0 = F i := by
    intro F
    simp [List.getD, hi']
  rw [e, List.map_append, List.map_map]
  have hr3 : List.range 3 = [0, 1, 2] := rfl
  rw [hr3]
  congr 1
  · simp only [exportColumns, historyColumns, List.map_cons, List.map_nil, Function.comp_apply, g]
  · simp only [List.map_cons, List.map_nil, g]

/-- **C126 (two ways).** Exporting the node data of a simulation and adding the marks to the files gives
the history files of the direct conversion. -/
theorem C126_two_ways {path root : Text} {dir : KDict Text Frame} {steps : List (ℕ × Text × Frame)}
    {nNode : ℕ} {bcs : Option DirichletBcs} {marks : ℕ → ℕ → ℕ}
    (h : NodeDataDir (simulationName path) dir steps) (hne : steps ≠ []) (hT : NodeTables nNode steps)
    (hm : historyMarks nNode bcs = .ok marks) (old : KDict Text CsvTable) :
    ∃ files files' direct, exportNodeData path (some dir) old = (.ok (), files) ∧
      updateMarks files.keys nNode marks files = (.ok (), files') ∧
      linksToHistory root (simulationName path) (simulationName path) dir bcs = .ok direct ∧
      files'.keys = direct.keys ∧
      ∀ t, t < steps.length → ∃ c,
        files'.get? (historyFile (simulationName path) t) = some c ∧
        direct.get? (historyFile (simulationName path) t) = some c.frame := by
  have hT' : ∀ s ∈ steps, s.2.2.cols = 18 := fun s hs => (hT s hs).1
  have he := exportNodeData_eq h hT' old
  have hw := writeHistory_eq (name := simulationName path) (frames := steps.map fun s => s.2.2)
    (nNode := nNode) (by simpa using hne) (by
      intro f hf
      obtain ⟨s, hs, rfl⟩ := List.mem_map.mp hf
      exact ⟨(hT s hs).1, (hT s hs).2.1⟩) hm
  have hfr : ∀ f ∈ steps.map fun s => s.2.2, f.rows.length = nNode := by
    intro f hf
    obtain ⟨s, hs, rfl⟩ := List.mem_map.mp hf
    exact (hT s hs).2.1
  have hdir : linksToHistory root (simulationName path) (simulationName path) dir bcs = .ok
      ((steps.map fun s => s.2.2).zipIdx.map fun p : Frame × ℕ =>
        (historyFile (simulationName path) p.2, historyRows nNode marks p.1)) := by
    unfold linksToHistory
    rw [collectNodeData_eq h]
    simp only [bind, Except.bind]
    rw [nodeFrames_eq h]
    exact hw
  have hlen0 : steps.length = (steps.map fun s => s.2.2).length := by simp
  have hne' : (steps.map fun s => s.2.2) ≠ [] := by simpa using hne
  rw [hlen0]
  generalize (steps.map fun s => s.2.2) = fs at *
  have hkeys : ∀ {β : Type} (F : Frame → β), KDict.keys (fs.zipIdx.map fun p : Frame × ℕ =>
      (historyFile (simulationName path) p.2, F p.1))
      = (List.range fs.length).map (historyFile (simulationName path)) := by
    intro β F
    unfold KDict.keys
    rw [List.map_map, List.range_eq_range', ← List.zipIdx_map_snd 0 fs, List.map_map]
    rfl
  have hnd : ((List.range fs.length).map (historyFile (simulationName path))).Nodup :=
    List.Nodup.map (fun a b h => historyFile_inj h) List.nodup_range
  obtain ⟨files', hu, hk, hg⟩ := updateMarks_eq (n := nNode) (marks := marks)
    (fs := (List.range fs.length).map (historyFile (simulationName path))) (by
      intro e
      rw [List.map_eq_nil_iff, List.range_eq_nil, List.length_eq_zero_iff] at e
      exact hne' e) hnd
    (fs.zipIdx.map fun p : Frame × ℕ => (historyFile (simulationName path) p.2, exported p.1)) (by
      intro f hf
      obtain ⟨t, ht, rfl⟩ := List.mem_map.mp hf
      have ht' := List.mem_range.mp ht
      have hget : fs[t]? = some fs[t] := List.getElem?_eq_getElem ht'
      refine ⟨_, zipIdx_getD fs t hget, hfr _ (List.getElem_mem ht'), ?_⟩
      exact (marked_exported marks fs[t]).1)
  refine ⟨_, files', _, he, ?_, hdir, ?_, ?_⟩
  · rw [hkeys]; exact hu
  · rw [hk, hkeys, hkeys]
  · intro t ht
    have hget : fs[t]? = some fs[t] := List.getElem?_eq_getElem ht
    have hx := hg (historyFile (simulationName path) t)
    rw [zipIdx_getD fs t hget, if_pos (List.mem_map.mpr ⟨t, List.mem_range.mpr ht, rfl⟩)] at hx
    refine ⟨_, hx, ?_⟩
    rw [(marked_exported marks fs[t]).2, hfr _ (List.getElem_mem ht)]
    refine get?_of_mem _ ?_ _ _ (List.mem_map.mpr ⟨(fs[t], t), ?_, rfl⟩)
    · exact (hkeys (historyRows nNode marks)) ▸ hnd
    · rw [List.mem_zipIdx_iff_getElem?]
      simp

/-! ## Marking again -/

theorem textPut_put {β : Type} (d : KDict Text β) (k : Text) (a b : β) :
    (d.put k a).put k b = d.put k b := by
  induction d with
  | nil => simp [KDict.put]
  | cons p d ih =>
    by_cases h : p.1 = k
    · simp [KDict.put, h]
    · simp [KDict.put, h, ih]

theorem put_comm_mem {β : Type} (d : KDict Text β) {k l : Text} (a b : β) (hkl : k ≠ l)
    (h : k ∈ d.keys) : (d.put k a).put l b = (d.put l b).put k a := by
  induction d with
  | nil => simp [KDict.keys] at h
  | cons p d ih =>
    by_cases h1 : p.1 = k
    · have h2 : p.1 ≠ l := fun e => hkl (h1 ▸ e)
      simp [KDict.put, h1, hkl]
    · have h3 : k ∈ KDict.keys d := by
        simp only [KDict.keys, List.map_cons, List.mem_cons] at h
        exact h.resolve_left fun e => h1 e.symm
      by_cases h2 : p.1 = l
      · simp [KDict.put, h1, h2, Ne.symm hkl]
      · simp [KDict.put, h1, h2, ih h3]

theorem marked_marked (m m' : ℕ → ℕ → ℕ) (c : CsvTable) :
    marked m' (marked m c) = marked m' c := by
  unfold marked
  dsimp only
  congr 1
  have h12 : "DBC1".toList ≠ "DBC2".toList := by decide
  have h13 : "DBC1".toList ≠ "DBC3".toList := by decide
  have h23 : "DBC2".toList ≠ "DBC3".toList := by decide
  generalize "DBC1".toList = k1 at *
  generalize "DBC2".toList = k2 at *
  generalize "DBC3".toList = k3 at *
  generalize c.cols = d
  generalize ((List.range c.nRows).map fun i : ℕ => ((m i 0 : ℕ) : ℝ)) = a1
  generalize ((List.range c.nRows).map fun i : ℕ => ((m i 1 : ℕ) : ℝ)) = a2
  generalize ((List.range c.nRows).map fun i : ℕ => ((m i 2 : ℕ) : ℝ)) = a3
  generalize ((List.range c.nRows).map fun i : ℕ => ((m' i 0 : ℕ) : ℝ)) = b1
  generalize ((List.range c.nRows).map fun i : ℕ => ((m' i 1 : ℕ) : ℝ)) = b2
  generalize ((List.range c.nRows).map fun i : ℕ => ((m' i 2 : ℕ) : ℝ)) = b3
  have mem : ∀ (e : KDict Text (List ℝ)) k a, k ∈ (e.put k a).keys := by
    intro e k a
    exact KDict.mem_keys_iff.mpr ⟨a, KDict.get?_put_self e k a⟩
  have mem2 : ∀ (e : KDict Text (List ℝ)) k l a, k ∈ e.keys → k ∈ (e.put l a).keys := by
    intro e k l a hk
    rw [KDict.keys_put]
    split_ifs with hl
    · exact hk
    · exact List.mem_append_left _ hk
  rw [← put_comm_mem (((d.put k1 a1).put k2 a2)) b1 a3 h13 (mem2 _ _ _ _ (mem _ _ _)),
    ← put_comm_mem (d.put k1 a1) b1 a2 h12 (mem _ _ _), textPut_put,
    ← put_comm_mem ((d.put k1 b1).put k2 a2) b2 a3 h23 (mem _ _ _), textPut_put, textPut_put]

/-- **C126 (again).** Marking files that have marks replaces these: the files are as if marked once. -/
theorem C126_again {paths : List Text} {n : ℕ} {m m' : ℕ → ℕ → ℕ} {d : KDict Text CsvTable}
    (hne : paths ≠ []) (hn : paths.Nodup) (h : ∀ f ∈ paths, ∃ c, d.get? f = some c ∧ c.nRows = n ∧
      c.cols.length = 10 ∧ "DBC1".toList ∉ c.cols.keys ∧ "DBC2".toList ∉ c.cols.keys ∧
      "DBC3".toList ∉ c.cols.keys) :
    ∃ d1 d2 d3, updateMarks paths n m d = (.ok (), d1) ∧ updateMarks paths n m' d1 = (.ok (), d2) ∧
      updateMarks paths n m' d = (.ok (), d3) ∧ d2.keys = d3.keys ∧ ∀ k, d2.get? k = d3.get? k := by
  have hl : ∀ (mm : ℕ → ℕ → ℕ) f, f ∈ paths → ∃ c, d.get? f = some c ∧ c.nRows = n ∧
      (marked mm c).cols.length = 13 := by
    intro mm f hf
    obtain ⟨c, hc, hr, hlen, n1, n2, n3⟩ := h f hf
    refine ⟨c, hc, hr, ?_⟩
    have k1 : ∀ (e : KDict Text (List ℝ)) k v, KDict.keys (e ++ [(k, v)]) = e.keys ++ [k] := by
      intro e k v
      simp [KDict.keys]
    unfold marked
    dsimp only
    rw [put_of_notMem c.cols _ _ n1]
    rw [put_of_notMem (c.cols ++ [_]) _ _ (by
      rw [k1, List.mem_append, not_or]; exact ⟨n2, by decide⟩)]
    rw [put_of_notMem (c.cols ++ [_] ++ [_]) _ _ (by
      rw [k1, k1, List.mem_append, List.mem_append, not_or, not_or]
      exact ⟨⟨n3, by decide⟩, by decide⟩)]
    simp at hlen ⊢
    omega
  obtain ⟨d1, u1, k1, g1⟩ := updateMarks_eq (marks := m) hne hn d (hl m)
  obtain ⟨d3, u3, k3, g3⟩ := updateMarks_eq (marks := m') hne hn d (hl m')
  obtain ⟨d2, u2, k2, g2⟩ := updateMarks_eq (marks := m') (n := n) hne hn d1 (by
    intro f hf
    obtain ⟨c, hc, hr, hx⟩ := hl m' f hf
    refine ⟨marked m c, ?_, hr, ?_⟩
    · rw [g1, if_pos hf, hc]; rfl
    · rw [marked_marked]; exact hx)
  refine ⟨d1, d2, d3, u1, u2, u3, by rw [k2, k1, k3], fun k => ?_⟩
  rw [g2, g3, g1]
  split_ifs with hk
  · rw [Option.map_map]
    congr 1
    funext c
    exact marked_marked m m' c
  · rfl

end Hooke
