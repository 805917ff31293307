import Verif.Props.SpecimenHistory

/-!
# C107: a case, and histories that do not arrive
-/

namespace Hooke

open Spec

/-- A table of eighteen columns with a row for each of the given rows of values of the node, of the
total time, of the displacements and of the reactions. -/
noncomputable def nodeTable (rows : List (ℝ × ℝ × (ℕ → ℝ) × (ℕ → ℝ))) : Frame :=
  ⟨18, rows.map fun r => [r.1, 1, r.2.1, 0, 0, 0, r.2.2.1 0, r.2.2.1 1, r.2.2.1 2, 0, 0, 0, 0, 0, 0,
    r.2.2.2 0, r.2.2.2 1, r.2.2.2 2]⟩

theorem nodeTables_of {nNode : ℕ} {steps : List (ℕ × Text × Frame)}
    (h : ∀ s ∈ steps, ∃ rows, rows.length = nNode ∧ s.2.2 = nodeTable rows) :
    NodeTables nNode steps := by
  intro s hs
  obtain ⟨rows, hr, he⟩ := h s hs
  rw [he]
  refine ⟨rfl, by simp [nodeTable, hr], ?_⟩
  intro r hr
  obtain ⟨q, -, rfl⟩ := List.mem_map.mp hr
  rfl

/-- Two nodes: node 1 is held, node 2 is displaced by `u` in the first direction. -/
noncomputable def twoNodeTable (t u : ℝ) : Frame :=
  nodeTable [(1, t, fun _ => 0, fun _ => -u), (2, t, fun _ => u, fun _ => 0)]

/-- The directory of a simulation of three steps, listed in an arbitrary order, with another file. -/
noncomputable def threeStepDir : KDict Text Frame :=
  [("s_10.nodedata".toList, twoNodeTable 3 5), ("s.log".toList, ⟨0, []⟩),
    ("s_2.nodedata".toList, twoNodeTable 2 4), ("s_01.nodedata".toList, twoNodeTable 1 3)]

/-- The steps of that simulation. -/
noncomputable def threeSteps : List (ℕ × Text × Frame) :=
  [(1, "01".toList, twoNodeTable 1 3), (2, "2".toList, twoNodeTable 2 4),
    (10, "10".toList, twoNodeTable 3 5)]

theorem threeSteps_dir : NodeDataDir "s".toList threeStepDir threeSteps where
  numbers s hs := by
    simp only [threeSteps, List.mem_cons, List.not_mem_nil, or_false] at hs
    rcases hs with rfl | rfl | rfl <;> rfl
  increasing := by simp [threeSteps]
  nodup := by
    show ["s_10.nodedata".toList, "s.log".toList, "s_2.nodedata".toList,
      "s_01.nodedata".toList].Nodup
    decide
  files s hs := by
    simp only [threeSteps, List.mem_cons, List.not_mem_nil, or_false] at hs
    rcases hs with rfl | rfl | rfl
    · exact List.mem_cons_of_mem _ (List.mem_cons_of_mem _ (List.mem_cons_of_mem _
        (List.mem_singleton.mpr rfl)))
    · exact List.mem_cons_of_mem _ (List.mem_cons_of_mem _ List.mem_cons_self)
    · exact List.mem_cons_self
  others p hp := by
    simp only [threeStepDir, List.mem_cons, List.not_mem_nil, or_false] at hp
    rcases hp with rfl | rfl | rfl | rfl
    · exact .inl ⟨(10, "10".toList, twoNodeTable 3 5), by simp [threeSteps], rfl⟩
    · exact .inr (by decide)
    · exact .inl ⟨(2, "2".toList, twoNodeTable 2 4), by simp [threeSteps], rfl⟩
    · exact .inl ⟨(1, "01".toList, twoNodeTable 1 3), by simp [threeSteps], rfl⟩

theorem threeSteps_tables : NodeTables 2 threeSteps := by
  refine nodeTables_of fun s hs => ?_
  simp only [threeSteps, List.mem_cons, List.not_mem_nil, or_false] at hs
  rcases hs with rfl | rfl | rfl <;> exact ⟨_, rfl, rfl⟩

/-- The first direction of node 1 is held. -/
noncomputable def heldNode : Option DirichletBcs := some [(1, [(1, 0)])]

theorem heldNode_within : BcsWithin 2 heldNode := by
  intro b n ds hb hn
  cases hb
  simp only [List.mem_cons, List.not_mem_nil, or_false, Prod.mk.injEq] at hn
  obtain ⟨rfl, rfl⟩ := hn
  refine ⟨le_refl _, by norm_num, ?_⟩
  intro d u hd
  simp only [List.mem_cons, List.not_mem_nil, or_false, Prod.mk.injEq] at hd
  omega

/-- The case meets the hypotheses; the last step gives the displacement 5 of the second node at the
last time, and the mark of the node held. -/
example (root root' : Text) : ∃ files h,
    linksToHistory root "s".toList "p".toList threeStepDir heldNode = .ok files ∧
    readHistory id root' "p".toList 2 files.reverse = .ok h ∧
    h.disps 1 0 2 = 5 ∧ h.forces 0 1 1 = -4 ∧ h.marks 0 0 0 = 1 ∧ h.marks 1 0 0 = 0 ∧
    h.times.length = 3 := by
  obtain ⟨files, hf, H⟩ := C107_history (root := root) (root' := root') (out := "p".toList)
    threeSteps_dir (by simp [threeSteps]) threeSteps_tables heldNode_within id rfl rfl
  obtain ⟨h, hh, hT, hV⟩ := H files.reverse (List.reverse_perm files)
  refine ⟨files, h, hf, hh, ?_, ?_, ?_, ?_, ?_⟩
  · rw [(hV 1 0 2 _ (by norm_num) (by norm_num) rfl).1]
    simp [twoNodeTable, nodeTable, Frame.at]
  · rw [(hV 0 1 1 _ (by norm_num) (by norm_num) rfl).2.1]
    simp [twoNodeTable, nodeTable, Frame.at]
  · exact (hV 0 0 0 _ (by norm_num) (by norm_num) rfl).2.2.1
      ⟨_, _, 0, rfl, List.mem_singleton.mpr rfl, List.mem_singleton.mpr rfl⟩
  · refine (hV 1 0 0 _ (by norm_num) (by norm_num) rfl).2.2.2 ?_
    rintro ⟨b, ds, u, hb, hn, -⟩
    cases hb
    simp at hn
  · rw [hT]
    simp [threeSteps]

/-- The results of the same simulation. -/
example : ∃ fs, readNodeResults "s".toList threeStepDir = .ok (some fs) ∧ fs.length = 3 ∧
    (fs.getD 2 ⟨0, []⟩).at 1 6 = 5 := by
  refine ⟨_, (C107_results threeSteps_dir threeSteps_tables (by norm_num)).trans
    (by rw [if_neg (by simp [threeSteps])]), rfl, ?_⟩
  simp [threeSteps, twoNodeTable, nodeTable, Frame.at]

/-! ## Histories that do not arrive -/

/-- **C107 is violated for times.** The times of the history are the positions of the steps, not the times recorded in the tables:
a simulation whose first step ends at a time other than zero gets another time. -/
theorem C107_time_violated {root root' name out : Text} {dir : KDict Text Frame}
    {steps : List (ℕ × Text × Frame)} {nNode : ℕ} {bcs : Option DirichletBcs}
    (h : NodeDataDir name dir steps) (hT : NodeTables nNode steps) (hB : BcsWithin nNode bcs)
    {s : ℕ × Text × Frame} (hs : steps.head? = some s) (ht : s.2.2.at 0 2 ≠ 0) :
    ∃ files hist, linksToHistory root name out dir bcs = .ok files ∧
      readHistory id root' out nNode files = .ok hist ∧ hist.times.head? ≠ some (s.2.2.at 0 2) := by
  have hne : steps ≠ [] := by rintro rfl; cases hs
  obtain ⟨files, hf, H⟩ := C107_history (root := root) (root' := root') (out := out) h hne hT hB id
    rfl rfl
  obtain ⟨hist, hh, hT, -⟩ := H files (List.Perm.refl _)
  refine ⟨files, hist, hf, hh, ?_⟩
  obtain ⟨s', ss, rfl⟩ := List.exists_cons_of_ne_nil hne
  rw [hT]
  simp only [List.map_cons, List.length_cons, List.range_succ_eq_map, List.head?_cons,
    Nat.cast_zero, ne_eq, Option.some.injEq]
  exact fun h => ht h.symm

/-- **C107 is violated for tables in another order.** The nodes of the history are the rows of the tables, whatever the nodes named in them: if the
first row is that of node 2, its displacement is given to node 1. -/
theorem C107_labels_violated {root root' : Text} (u v : ℝ) (huv : u ≠ v) :
    ∃ files hist, linksToHistory root "s".toList "p".toList [("s_1.nodedata".toList,
        nodeTable [(2, 1, fun _ => u, fun _ => 0), (1, 1, fun _ => v, fun _ => 0)])] none = .ok files ∧
      readHistory id root' "p".toList 2 files = .ok hist ∧ hist.disps 0 0 0 = u ∧
      hist.disps 0 0 0 ≠ v := by
  let tb := nodeTable [(2, 1, fun _ => u, fun _ => 0), (1, 1, fun _ => v, fun _ => 0)]
  have hd : NodeDataDir "s".toList [("s_1.nodedata".toList, tb)] [(1, "1".toList, tb)] := {
    numbers := by simp; rfl
    increasing := by simp
    nodup := by simp
    files := by
      intro s hs
      rw [List.mem_singleton.mp hs]
      exact List.mem_singleton.mpr rfl
    others := by
      intro p hp
      rw [List.mem_singleton.mp hp]
      exact .inl ⟨_, List.mem_singleton.mpr rfl, rfl⟩ }
  have ht : NodeTables 2 [(1, "1".toList, tb)] := nodeTables_of fun s hs => by
    rw [List.mem_singleton.mp hs]
    exact ⟨_, rfl, rfl⟩
  obtain ⟨files, hf, H⟩ := C107_history (root := root) (root' := root') (out := "p".toList) hd
    (by simp) ht (bcs := none) (by intro b n ds hb; cases hb) id rfl rfl
  obtain ⟨hist, hh, -, hV⟩ := H files (List.Perm.refl _)
  have hu : hist.disps 0 0 0 = u := by
    rw [(hV 0 0 0 _ (by norm_num) (by norm_num) rfl).1]
    simp [tb, nodeTable, Frame.at]
  exact ⟨files, hist, hf, hh, hu, by rw [hu]; exact huv⟩

/-- **C107 is violated for backup copies.** The pattern of the history files is open at the end: a backup copy of a file is a time step of
its own. -/
theorem C107_backup_violated (root : Text) (nNode : ℕ) (f : Frame) (hc : f.cols = 13)
    (hr : f.rows.length = nNode) : ∃ hist, readHistory id root "p".toList nNode
      [("p_tstep_0.csv".toList, f), ("p_tstep_0.csv.bak".toList, f)] = .ok hist ∧
      hist.times = [0, 1] := by
  have h1 : sortFiles root ["p_tstep_0.csv".toList, "p_tstep_0.csv.bak".toList]
      = .ok ["p_tstep_0.csv".toList, "p_tstep_0.csv.bak".toList] := by
    have k1 : lastNumber (root ++ '/' :: "p_tstep_0.csv".toList) = some 0 := by
      have := lastNumber_of (p := root ++ '/' :: "p_tstep".toList) (w := ['0'])
        (s := ".csv".toList) (c := '_') (by decide) (by decide) (by decide) (by decide)
      rw [List.append_assoc] at this
      exact this
    have k2 : lastNumber (root ++ '/' :: "p_tstep_0.csv.bak".toList) = some 0 := by
      have := lastNumber_of (p := root ++ '/' :: "p_tstep".toList) (w := ['0'])
        (s := ".csv.bak".toList) (c := '_') (by decide) (by decide) (by decide) (by decide)
      rw [List.append_assoc] at this
      exact this
    unfold sortFiles
    simp only [List.mapM_cons, List.mapM_nil, k1, k2]
    rfl
  have h2 : historyPaths root "p".toList ["p_tstep_0.csv".toList, "p_tstep_0.csv.bak".toList]
      = .ok ["p_tstep_0.csv".toList, "p_tstep_0.csv.bak".toList] := by
    have : ["p_tstep_0.csv".toList, "p_tstep_0.csv.bak".toList].filter (isHistoryFile "p".toList)
        = ["p_tstep_0.csv".toList, "p_tstep_0.csv.bak".toList] := by decide
    unfold historyPaths
    rw [this, h1]
    rfl
  have h3 : ["p_tstep_0.csv".toList, "p_tstep_0.csv.bak".toList].mapM (historyTable nNode
      [("p_tstep_0.csv".toList, f), ("p_tstep_0.csv.bak".toList, f)]) = .ok [f, f] := by
    have g1 : KDict.get? [("p_tstep_0.csv".toList, f), ("p_tstep_0.csv.bak".toList, f)]
        "p_tstep_0.csv".toList = some f := by
      exact get?_of_mem _ (by show ["p_tstep_0.csv".toList, "p_tstep_0.csv.bak".toList].Nodup; decide)
        _ _ List.mem_cons_self
    have g2 : KDict.get? [("p_tstep_0.csv".toList, f), ("p_tstep_0.csv.bak".toList, f)]
        "p_tstep_0.csv.bak".toList = some f := by
      exact get?_of_mem _ (by show ["p_tstep_0.csv".toList, "p_tstep_0.csv.bak".toList].Nodup; decide)
        _ _ (List.mem_cons_of_mem _ List.mem_cons_self)
    simp only [List.mapM_cons, List.mapM_nil, historyTable, g1, g2, orRaise, raiseIf, hc, hr,
      bind, Except.bind, pure, Except.pure, ne_eq, not_true_eq_false, if_false]
  unfold readHistory
  have hk : KDict.keys [("p_tstep_0.csv".toList, f), ("p_tstep_0.csv.bak".toList, f)]
      = ["p_tstep_0.csv".toList, "p_tstep_0.csv.bak".toList] := rfl
  rw [hk, h2]
  simp only [bind, Except.bind, specimenNumericalData, h3, pure, Except.pure]
  refine ⟨_, rfl, ?_⟩
  simp [List.range_succ_eq_map]

/-- **C107 is violated for names beginning with another.** The files of a simulation are those beginning with its name: the files of another simulation
kept beside it, whose name is longer, become time steps of the first. -/
theorem C107_prefix_violated (root : Text) (u v : ℝ) : ∃ files,
    linksToHistory root "s".toList "p".toList [("s_1.nodedata".toList, twoNodeTable 1 u),
      ("s_b_2.nodedata".toList, twoNodeTable 1 v)] none = .ok files ∧ files.length = 2 := by
  have h1 : collectNodeData root "s".toList ["s_1.nodedata".toList, "s_b_2.nodedata".toList]
      = .ok ["s_1.nodedata".toList, "s_b_2.nodedata".toList] := by
    have k1 : lastNumber (root ++ '/' :: "s_1.nodedata".toList) = some 1 :=
      nodeFile_key (name := "s".toList) (w := "1".toList) rfl
    have k2 : lastNumber (root ++ '/' :: "s_b_2.nodedata".toList) = some 2 :=
      nodeFile_key (name := "s_b".toList) (w := "2".toList) rfl
    have hf : ["s_1.nodedata".toList, "s_b_2.nodedata".toList].filter (isNodeDataFile "s".toList)
        = ["s_1.nodedata".toList, "s_b_2.nodedata".toList] := by decide
    unfold collectNodeData sortFiles
    rw [hf]
    simp only [List.mapM_cons, List.mapM_nil, k1, k2]
    rfl
  have h3 : ["s_1.nodedata".toList, "s_b_2.nodedata".toList].mapM (fun f => orRaise (KDict.get?
      [("s_1.nodedata".toList, twoNodeTable 1 u), ("s_b_2.nodedata".toList, twoNodeTable 1 v)] f)
      .osError) = Except.ok (ε := PyErr) [twoNodeTable 1 u, twoNodeTable 1 v] := by
    have hn : ["s_1.nodedata".toList, "s_b_2.nodedata".toList].Nodup := by decide
    have g1 := get?_of_mem [("s_1.nodedata".toList, twoNodeTable 1 u),
      ("s_b_2.nodedata".toList, twoNodeTable 1 v)] hn _ _ List.mem_cons_self
    have g2 := get?_of_mem [("s_1.nodedata".toList, twoNodeTable 1 u),
      ("s_b_2.nodedata".toList, twoNodeTable 1 v)] hn _ _
      (List.mem_cons_of_mem _ List.mem_cons_self)
    simp only [List.mapM_cons, List.mapM_nil, g1, g2]
    rfl
  have hw := writeHistory_eq (name := "p".toList) (nNode := 2) (bcs := none)
    (frames := [twoNodeTable 1 u, twoNodeTable 1 v]) (by simp) (by
      intro f hf
      simp only [List.mem_cons, List.not_mem_nil, or_false] at hf
      rcases hf with rfl | rfl <;> exact ⟨rfl, rfl⟩) rfl
  unfold linksToHistory
  have hk : KDict.keys [("s_1.nodedata".toList, twoNodeTable 1 u),
      ("s_b_2.nodedata".toList, twoNodeTable 1 v)]
      = ["s_1.nodedata".toList, "s_b_2.nodedata".toList] := rfl
  rw [hk, h1]
  simp only [bind, Except.bind]
  rw [h3]
  exact ⟨_, hw, rfl⟩

/-- **C107 is violated without node data.** Without node data files the conversion raises an `IndexError`; the results of the same
simulation are read without complaint, as `None`. -/
theorem C107_empty_violated (root name out : Text) (dir : KDict Text Frame)
    (h : ∀ p ∈ dir, ¬ ".nodedata".toList <:+ p.1) (bcs : Option DirichletBcs) :
    linksToHistory root name out dir bcs = .error .indexError ∧
      readNodeResults name dir = .ok none := by
  have h1 : dir.keys.filter (isNodeDataFile name) = [] := by
    refine List.filter_eq_nil_iff.mpr fun f hf hm => ?_
    obtain ⟨p, hp, rfl⟩ := List.mem_map.mp hf
    exact h p hp (isNodeDataFile_suffix hm)
  have h2 : (dir.filter fun p => isNodeDataFile name p.1) = [] :=
    List.filter_eq_nil_iff.mpr fun p hp hm => h p hp (isNodeDataFile_suffix hm)
  refine ⟨?_, ?_⟩
  · unfold linksToHistory collectNodeData
    rw [h1]
    rfl
  · unfold readNodeResults
    rw [h2]
    rfl

/-- **C107 is violated for single nodes.** The results of a simulation with a single node cannot be read. -/
theorem C107_single_node_violated (f : Frame) (h : f.rows.length = 1) :
    readNodeResults "s".toList [("s_1.nodedata".toList, f)] = .error .indexError := by
  have h2 : (([("s_1.nodedata".toList, f)] : KDict Text Frame).filter
      fun p => isNodeDataFile "s".toList p.1) = [("s_1.nodedata".toList, f)] :=
    List.filter_eq_self.mpr fun p hp => by
      rw [List.mem_singleton.mp hp]
      exact isNodeDataFile_nodeFile "s".toList "1".toList
  have h3 := nodeFile_step (name := "s".toList) (w := "1".toList) (n := 1) rfl
  have h4 : nodeFile "s".toList "1".toList = "s_1.nodedata".toList := by decide
  rw [h4] at h3
  unfold readNodeResults
  rw [h2]
  simp only [List.mapM_cons, List.mapM_nil, h3]
  simp [bind, Except.bind, pure, Except.pure, Except.map, raiseIf, h]

/-- **C107 is violated when not saving.** Both files have to be saved: with one of the two flags off, the data set of the specimen is
generated and an `UnboundLocalError` is raised at the end. -/
theorem C107_flags_violated (root : Text) (saveData saveState : Bool)
    (h : saveData = false ∨ saveState = false) :
    specimenDatasetPaths root saveData saveState = .error .unboundLocal := by
  unfold specimenDatasetPaths
  cases saveData <;> cases saveState <;> simp_all [orRaise, bind, Except.bind]

end Hooke
