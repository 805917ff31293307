import Verif.Spec.SpecimenSetters
import Verif.Lemmas.PyDict
import Verif.Lemmas.StrainPathHist

/-!
# C156: mesh and data of a specimen
-/

namespace Hooke

open Spec

variable {τ : Type}

theorem labelledTo_iff {n : ℕ} {keys : List String} :
    keys.toFinset = ((List.range n).map fun i => toString (i + 1)).toFinset ↔ LabelledTo n keys := by
  rw [Finset.ext_iff]
  refine forall_congr' fun k => ?_
  rw [List.mem_toFinset, List.mem_toFinset, List.mem_map]
  refine iff_congr Iff.rfl ⟨?_, ?_⟩
  · rintro ⟨i, hi, rfl⟩
    exact ⟨i + 1, by omega, by have := List.mem_range.1 hi; omega, rfl⟩
  · rintro ⟨i, h1, h2, rfl⟩
    exact ⟨i - 1, List.mem_range.2 (by omega), by rw [Nat.sub_add_cancel h1]⟩

theorem checkElementNodes_ok {types : PyDict (Option ℕ)} {l : List (String × List ℕ)} :
    checkElementNodes types l = .ok () ↔
      ∀ k nodes, (k, nodes) ∈ l → types.get? k = some (some nodes.length) := by
  induction l with
  | nil => simp [checkElementNodes]
  | cons e l ih =>
    obtain ⟨k, nodes⟩ := e
    simp only [checkElementNodes, bind_ok_iff, orRaise_ok, raiseIf_ok, ih, List.mem_cons, Prod.mk.injEq]
    constructor
    · rintro ⟨ty, h1, n, rfl, -, h2, h3⟩ k' nodes' (⟨rfl, rfl⟩ | h)
      · rw [h1, not_not.1 h2]
      · exact h3 _ _ h
    · intro h
      exact ⟨_, h k nodes (.inl ⟨rfl, rfl⟩), _, rfl, (), by simp, fun k' nodes' h' => h _ _ (.inr h')⟩

/-- **C156 (mesh).** A mesh is accepted exactly if the coordinates are a tensor with two dimensions and
the elements, labelled from 1 to their number, have types and as many nodes as their types say; then it
replaces the mesh, and the data are kept. -/
theorem C156_mesh_iff {s s' : SpecimenObj τ} {coords : TensorArg τ} {types : PyDict (Option ℕ)}
    {conn : PyDict (List ℕ)} {dirichlet : TensorArg τ} :
    s.setMesh coords types conn dirichlet = .ok s' ↔ ∃ N d x, coords = .tensor [N, d] x ∧
      CompleteElements types conn ∧ s' = ⟨some ⟨N, d, x, types, conn, dirichlet⟩, s.hists⟩ := by
  have hk : types.keys.length = types.length := by simp [KDict.keys]
  cases coords with
  | other =>
    simp [SpecimenObj.setMesh, newSpecimenMesh, checkMeshInitialization, bind, Except.bind]
  | tensor shape x =>
    simp only [SpecimenObj.setMesh, newSpecimenMesh, checkMeshInitialization, bind_ok_iff, raiseIf_ok,
      ne_eq, not_not, labelledTo_iff, hk, TensorArg.tensor.injEq]
    constructor
    · rintro ⟨m, ⟨⟨⟩, ⟨-, h1, -, h2, -, h3, -, h4, h5⟩, h6⟩, h7⟩
      obtain ⟨N, d, rfl⟩ := List.length_eq_two.1 h1
      cases h6
      cases h7
      exact ⟨N, d, x, ⟨rfl, rfl⟩, ⟨h2, h4, fun e he h => h3 ⟨e, he, h⟩,
        checkElementNodes_ok.1 h5⟩, rfl⟩
    · rintro ⟨N, d, x', ⟨rfl, rfl⟩, ⟨h1, h2, h3, h4⟩, rfl⟩
      exact ⟨_, ⟨(), ⟨(), rfl, (), h1, (), fun ⟨e, he, h⟩ => h3 e he h, (), h2,
        checkElementNodes_ok.2 h4⟩, rfl⟩, rfl⟩

theorem checkHist_ok {m : SpecimenMeshObj τ} {a : TensorArg τ} {u : List ℕ × τ} :
    checkHist m a = .ok u ↔ a = .tensor u.1 u.2 ∧ ∃ T, u.1 = [m.nNode, m.nDim, T] := by
  cases a with
  | other => simp [checkHist]
  | tensor shape x =>
    simp only [checkHist, bind_ok_iff, raiseIf_ok, ne_eq, not_not, pure, Except.pure, Except.ok.injEq,
      TensorArg.tensor.injEq]
    constructor
    · rintro ⟨-, h1, -, h2, -, h3, rfl⟩
      obtain ⟨a, b, c, rfl⟩ := List.length_eq_three.1 h1
      simp only [List.getD_cons_zero, List.getD_cons_succ] at h2 h3
      subst h2 h3
      exact ⟨⟨rfl, rfl⟩, c, rfl⟩
    · rintro ⟨⟨rfl, rfl⟩, T, h⟩
      simp [h, Prod.ext_iff]

/-- **C156 (data).** Data are accepted exactly if there is a mesh and the three histories are tensors with
one value for each node and dimension of the mesh and each time, the first dimension of the time history
being the number of times; then they replace the data, and the mesh is kept. -/
theorem C156_data_iff {s s' : SpecimenObj τ} {disps reactions bcs time : TensorArg τ} :
    s.setData disps reactions bcs time = .ok s' ↔ ∃ m T h, s.mesh = some m ∧
      FitData m.nNode m.nDim T h ∧ disps = .tensor h.disps.1 h.disps.2 ∧
      reactions = .tensor h.reactions.1 h.reactions.2 ∧ bcs = .tensor h.bcs.1 h.bcs.2 ∧
      time = .tensor h.time.1 h.time.2 ∧ s' = ⟨some m, some h⟩ := by
  simp only [SpecimenObj.setData, bind_ok_iff, orRaise_ok, checkHist_ok]
  constructor
  · rintro ⟨m, hm, u, ⟨h1, T1, h2⟩, r, ⟨h3, T2, h4⟩, b, ⟨h5, T3, h6⟩, h7⟩
    cases time with
    | other => cases h7
    | tensor shape x =>
      simp only [bind_ok_iff, orRaise_ok, raiseIf_ok, pure, Except.pure, Except.ok.injEq, h2, h4, h6,
        List.getD_cons_succ, List.getD_cons_zero, not_or, ne_eq, not_not] at h7
      obtain ⟨T, hT, -, ⟨rfl, rfl, rfl⟩, rfl⟩ := h7
      exact ⟨m, _, ⟨u, r, b, (shape, x)⟩, hm, ⟨h2, h4, h6, hT⟩, h1, h3, h5, rfl, by rw [hm]⟩
  · rintro ⟨m, T, h, hm, ⟨f1, f2, f3, f4⟩, rfl, rfl, rfl, rfl, rfl⟩
    refine ⟨m, hm, h.disps, ⟨rfl, T, f1⟩, h.reactions, ⟨rfl, T, f2⟩, h.bcs, ⟨rfl, T, f3⟩, ?_⟩
    simp only [bind_ok_iff, orRaise_ok, raiseIf_ok]
    refine ⟨T, f4, (), by simp [f1, f2, f3], ?_⟩
    simp [pure, Except.pure, hm]

/-- **C156 (rejected).** A rejected call leaves the object as it was. -/
theorem C156_rejected (s : SpecimenObj τ) (c : SpecimenCall τ) {e : PyErr} (h : (c.run s).2 = .error e) :
    (c.run s).1 = s := by
  unfold SpecimenCall.run at h ⊢
  dsimp only at h ⊢
  split at h
  · cases h
  · rfl

theorem run_data_consistent {s : SpecimenObj τ} {c : SpecimenCall τ} (hc : c.isData = true)
    (hs : Consistent s) : Consistent (c.run s).1 := by
  cases c with
  | mesh => cases hc
  | data u r b t =>
    rcases h : s.setData u r b t with e | s'
    · have : (SpecimenCall.data u r b t).run s = (s, .error e) := by
        simp only [SpecimenCall.run, h]
      rwa [this]
    · have : (SpecimenCall.data u r b t).run s = (s', .ok ()) := by
        simp only [SpecimenCall.run, h]
      rw [this]
      obtain ⟨m, T, h', -, hf, -, -, -, -, rfl⟩ := C156_data_iff.1 h
      intro g hg
      cases hg
      exact ⟨m, T, rfl, hf⟩

theorem run_data_history {s : SpecimenObj τ} {l : List (SpecimenCall τ)} (hl : ∀ c ∈ l, c.isData = true)
    (hs : Consistent s) : Consistent (runSpecimenCalls s l) := by
  induction l generalizing s with
  | nil => exact hs
  | cons c l ih =>
    exact ih (fun c' h' => hl c' (by simp [h'])) (run_data_consistent (hl c (by simp)) hs)

theorem run_mesh_hists {s : SpecimenObj τ} {c : SpecimenCall τ} (hc : c.isData = false) :
    (c.run s).1.hists = s.hists := by
  cases c with
  | data => cases hc
  | mesh x ty co d =>
    rcases h : s.setMesh x ty co d with e | s'
    · simp only [SpecimenCall.run, h]
    · simp only [SpecimenCall.run, h]
      obtain ⟨_, _, _, -, -, rfl⟩ := C156_mesh_iff.1 h
      rfl

theorem run_mesh_history {s : SpecimenObj τ} {l : List (SpecimenCall τ)} (hl : ∀ c ∈ l, c.isData = false) :
    (runSpecimenCalls s l).hists = s.hists := by
  induction l generalizing s with
  | nil => rfl
  | cons c l ih =>
    exact (ih (fun c' h' => hl c' (by simp [h']))).trans (run_mesh_hists (hl c (by simp)))

/-- **C156 (history).** After any calls that set meshes and then any calls that set data, rejected or not,
the data fit the mesh. -/
theorem C156_history {l l' : List (SpecimenCall τ)} (hl : ∀ c ∈ l, c.isData = false)
    (hl' : ∀ c ∈ l', c.isData = true) : Consistent (runSpecimenCalls (.new τ) (l ++ l')) := by
  rw [runSpecimenCalls, List.foldl_append]
  refine run_data_history hl' fun h hh => ?_
  have := run_mesh_history (s := .new τ) hl
  rw [runSpecimenCalls] at this
  rw [this] at hh
  cases hh

/-- **C156 (accepted data).** Whatever happened before, after accepted data the data fit the mesh. -/
theorem C156_accepted {s : SpecimenObj τ} {c : SpecimenCall τ} (hc : c.isData = true)
    (h : (c.run s).2 = .ok ()) : Consistent (c.run s).1 := by
  cases c with
  | mesh => cases hc
  | data u r b t =>
    rcases h' : s.setData u r b t with e | s'
    · simp [SpecimenCall.run, h'] at h
    · simp only [SpecimenCall.run, h']
      obtain ⟨m, T, h'', -, hf, -, -, -, -, rfl⟩ := C156_data_iff.1 h'
      intro g hg
      cases hg
      exact ⟨m, T, rfl, hf⟩

/-! ### Cases and faults -/

/-- A mesh of one triangle of three nodes. -/
def exTriangle (N : ℕ) (nodes : List ℕ) : SpecimenCall Unit :=
  .mesh (.tensor [N, 2] ()) [("1", some 3)] [("1", nodes)] (.tensor [N, 2] ())

theorem exTriangle_complete {nodes : List ℕ} (h : nodes.length = 3) :
    CompleteElements [("1", some 3)] [("1", nodes)] := by
  have hl : LabelledTo 1 ["1"] := by
    intro k
    simp only [List.mem_singleton]
    constructor
    · rintro rfl
      exact ⟨1, le_refl _, le_refl _, rfl⟩
    · rintro ⟨i, h1, h2, rfl⟩
      obtain rfl : i = 1 := by omega
      rfl
  refine ⟨hl, hl, by simp, fun k n hk => ?_⟩
  simp only [List.mem_singleton, Prod.mk.injEq] at hk
  obtain ⟨rfl, rfl⟩ := hk
  simp [KDict.get?, h]

theorem exTriangle_run (s : SpecimenObj Unit) (N : ℕ) {nodes : List ℕ} (h : nodes.length = 3) :
    (exTriangle N nodes).run s = (⟨some ⟨N, 2, (), [("1", some 3)], [("1", nodes)], .tensor [N, 2] ()⟩,
      s.hists⟩, .ok ()) := by
  have := C156_mesh_iff (s := s) (dirichlet := .tensor [N, 2] ()).2
    ⟨N, 2, (), rfl, exTriangle_complete h, rfl⟩
  simp only [exTriangle, SpecimenCall.run, this]

/-- Data of `N` nodes and four times. -/
def exHists (N : ℕ) (time : List ℕ) : SpecimenCall Unit :=
  .data (.tensor [N, 2, 4] ()) (.tensor [N, 2, 4] ()) (.tensor [N, 2, 4] ()) (.tensor time ())

theorem exHists_run {s : SpecimenObj Unit} {m : SpecimenMeshObj Unit} (hm : s.mesh = some m)
    (hd : m.nDim = 2) {time : List ℕ} (ht : time.head? = some 4) :
    (exHists m.nNode time).run s = (⟨some m, some ⟨([m.nNode, 2, 4], ()), ([m.nNode, 2, 4], ()),
      ([m.nNode, 2, 4], ()), (time, ())⟩⟩, .ok ()) := by
  have := C156_data_iff (s := s).2 ⟨m, 4, ⟨([m.nNode, 2, 4], ()), ([m.nNode, 2, 4], ()),
      ([m.nNode, 2, 4], ()), (time, ())⟩, hm, by constructor <;> simp [hd, ht], rfl, rfl, rfl, rfl, rfl⟩
  dsimp only at this
  simp only [exHists, SpecimenCall.run, this]

/-- A mesh, refused data (four nodes), accepted data. -/
example : ∃ h, (runSpecimenCalls (.new Unit) [exTriangle 3 [1, 2, 3], exHists 4 [4], exHists 3 [4]]).hists
    = some h ∧ FitData 3 2 4 h := by
  have h1 := exTriangle_run (.new Unit) 3 (nodes := [1, 2, 3]) rfl
  have h2 : ∀ s, ((exHists 4 [4]).run (⟨some ⟨3, 2, (), [("1", some 3)], [("1", [1, 2, 3])],
      .tensor [3, 2] ()⟩, s⟩ : SpecimenObj Unit)).1 = ⟨some ⟨3, 2, (), [("1", some 3)],
        [("1", [1, 2, 3])], .tensor [3, 2] ()⟩, s⟩ := fun s => rfl
  have h3 := fun s => exHists_run (s := (⟨some ⟨3, 2, (), [("1", some 3)], [("1", [1, 2, 3])],
      .tensor [3, 2] ()⟩, s⟩ : SpecimenObj Unit)) rfl rfl (time := [4]) rfl
  dsimp only at h3
  simp only [runSpecimenCalls, List.foldl_cons, List.foldl_nil, h1, h2, h3]
  exact ⟨_, rfl, rfl, rfl, rfl, rfl⟩

/-- **C156 is violated for a mesh set after the data.** The data of the old mesh stay: the object then
holds a mesh of `N` nodes and data of three, and no call was rejected. -/
theorem C156_new_mesh_violated (N : ℕ) (hN : N ≠ 3) :
    ¬ Consistent (runSpecimenCalls (.new Unit)
      [exTriangle 3 [1, 2, 3], exHists 3 [4], exTriangle N [1, 2, 3]]) := by
  have h1 := exTriangle_run (.new Unit) 3 (nodes := [1, 2, 3]) rfl
  have h3 := fun s => exHists_run (s := (⟨some ⟨3, 2, (), [("1", some 3)], [("1", [1, 2, 3])],
      .tensor [3, 2] ()⟩, s⟩ : SpecimenObj Unit)) rfl rfl (time := [4]) rfl
  have h2 := fun s => exTriangle_run s N (nodes := [1, 2, 3]) rfl
  dsimp only at h3
  simp only [runSpecimenCalls, List.foldl_cons, List.foldl_nil, h1, h2, h3]
  intro hc
  obtain ⟨m, T, hm, hf⟩ := hc _ rfl
  cases hm
  have := hf.disps
  simp only [List.cons.injEq] at this
  exact hN this.1.symm

/-- **C156 is violated for time histories with more than one dimension.** They are asked to have one, but
any shape with the right first dimension is accepted. -/
theorem C156_time_violated (rest : List ℕ) : ∃ s : SpecimenObj Unit,
    ((exHists 3 (4 :: rest)).run s).2 = .ok () := by
  have h3 := exHists_run (s := (⟨some ⟨3, 2, (), [("1", some 3)], [("1", [1, 2, 3])],
      .tensor [3, 2] ()⟩, none⟩ : SpecimenObj Unit)) rfl rfl (time := 4 :: rest) rfl
  exact ⟨_, congrArg Prod.snd h3⟩

/-- **C156 is violated for node labels that are not nodes.** The labels of the nodes of an element are not
compared with the number of nodes of the mesh. -/
theorem C156_labels_violated (s : SpecimenObj Unit) (N a b c : ℕ) :
    ((exTriangle N [a, b, c]).run s).2 = .ok () := by
  rw [exTriangle_run s N rfl]

end Hooke
