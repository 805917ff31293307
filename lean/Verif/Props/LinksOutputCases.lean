import Verif.Props.LinksOutput
import Verif.Props.SpecimenHistoryCases
import Mathlib.Tactic.FinCases

/-!
# C126: sets of nodes, Gauss points, cases and faults of the conversions
-/

namespace Hooke

open Spec

/-! ## Labels of sets -/

/-- The labels of the directions of a set. -/
def dirLabels : ℕ → List Bool → List ℕ
  | _, [] => []
  | n, true :: c => n :: dirLabels (n + 1) c
  | n, false :: c => 0 :: dirLabels n c

theorem setLabels_fold (code : List Bool) (acc : List ℕ) (n : ℕ) :
    code.foldl (fun (s : List ℕ × ℕ) c => if c then (s.1 ++ [s.2], s.2 + 1) else (s.1 ++ [0], s.2))
      (acc, n) = (acc ++ dirLabels n code, n + code.count true) := by
  induction code generalizing acc n with
  | nil => simp [dirLabels]
  | cons c code ih =>
    cases c
    · simp [dirLabels, ih]
    · simp [dirLabels, ih]; omega

theorem setLabels_eq (n : ℕ) (code : List Bool) :
    setLabels n code = (dirLabels n code, n + code.count true) := by
  unfold setLabels
  rw [setLabels_fold]
  rfl

theorem dirLabels_true {n : ℕ} {code : List Bool} {d : ℕ} (h : code[d]? = some true) :
    (dirLabels n code).getD d 0 = n + (code.take d).count true ∧
      (code.take d).count true < code.count true := by
  induction code generalizing n d with
  | nil => simp at h
  | cons c code ih =>
    cases d with
    | zero =>
      simp only [List.getElem?_cons_zero, Option.some.injEq] at h
      subst h
      simp [dirLabels]
    | succ d =>
      simp only [List.getElem?_cons_succ] at h
      cases c
      · obtain ⟨h1, h2⟩ := ih (n := n) h
        exact ⟨by simpa [dirLabels] using h1, by simpa using h2⟩
      · obtain ⟨h1, h2⟩ := ih (n := n + 1) h
        refine ⟨?_, by simpa using h2⟩
        simp only [dirLabels, List.getD_cons_succ, h1, List.take_succ_cons, List.count_cons_self]
        omega

theorem dirLabels_not {n : ℕ} {code : List Bool} {d : ℕ} (h : code[d]? ≠ some true) :
    (dirLabels n code).getD d 0 = 0 := by
  induction code generalizing n d with
  | nil => simp [dirLabels]
  | cons c code ih =>
    cases d with
    | zero => cases c <;> simp [dirLabels] at h ⊢
    | succ d =>
      simp only [List.getElem?_cons_succ] at h
      cases c <;> simpa [dirLabels] using ih h

theorem count_take_inj {code : List Bool} {d e : ℕ} (hd : code[d]? = some true)
    (he : code[e]? = some true) (h : (code.take d).count true = (code.take e).count true) : d = e := by
  induction code generalizing d e with
  | nil => simp at hd
  | cons c code ih =>
    cases d with
    | zero =>
      cases e with
      | zero => rfl
      | succ e =>
        simp only [List.getElem?_cons_zero, Option.some.injEq] at hd
        subst hd
        simp at h
    | succ d =>
      cases e with
      | zero =>
        simp only [List.getElem?_cons_zero, Option.some.injEq] at he
        subst he
        simp at h
      | succ e =>
        simp only [List.getElem?_cons_succ] at hd he
        rw [ih hd he (by simpa [List.count_cons] using h)]

/-- The first label of the set with index `k`. -/
def firstLabel (n : ℕ) : List (List ℕ × List Bool) → ℕ → ℕ
  | _, 0 => n
  | [], _ + 1 => n
  | s :: r, k + 1 => firstLabel (n + s.2.count true) r k

theorem firstLabel_ge (n : ℕ) (sets : List (List ℕ × List Bool)) (k : ℕ) :
    n ≤ firstLabel n sets k := by
  induction sets generalizing n k with
  | nil => cases k <;> simp [firstLabel]
  | cons s r ih =>
    cases k with
    | zero => simp [firstLabel]
    | succ k => exact (Nat.le_add_right _ _).trans (ih _ k)

theorem firstLabel_lt {n : ℕ} {sets : List (List ℕ × List Bool)} {k l : ℕ}
    {s : List ℕ × List Bool} (hk : sets[k]? = some s) (hkl : k < l) :
    firstLabel n sets k + s.2.count true ≤ firstLabel n sets l := by
  induction sets generalizing n k l with
  | nil => simp at hk
  | cons a r ih =>
    cases l with
    | zero => omega
    | succ l =>
      cases k with
      | zero =>
        simp only [List.getElem?_cons_zero, Option.some.injEq] at hk
        subst hk
        exact firstLabel_ge _ r l
      | succ k => exact ih (by simpa using hk) (by omega)

theorem mem_labelSets {n : ℕ} {sets : List (List ℕ × List Bool)} {p : ℕ × List ℕ} :
    p ∈ labelSets n sets ↔ ∃ (k : ℕ) (s : List ℕ × List Bool), sets[k]? = some s ∧ p.1 ∈ s.1 ∧
      p.2 = dirLabels (firstLabel n sets k) s.2 := by
  induction sets generalizing n with
  | nil => simp [labelSets]
  | cons a r ih =>
    rw [labelSets, List.mem_append, ih, setLabels_eq]
    constructor
    · rintro (h | ⟨k, s, h1, h2, h3⟩)
      · obtain ⟨v, hv, rfl⟩ := List.mem_map.mp h
        exact ⟨0, a, rfl, hv, rfl⟩
      · exact ⟨k + 1, s, by simpa using h1, h2, h3⟩
    · rintro ⟨k, s, h1, h2, h3⟩
      cases k with
      | zero =>
        simp only [List.getElem?_cons_zero, Option.some.injEq] at h1
        subst h1
        exact Or.inl (List.mem_map.mpr ⟨p.1, h2, by rw [firstLabel] at h3; rw [← h3]⟩)
      | succ k => exact Or.inr ⟨k, s, by simpa using h1, h2, h3⟩

theorem keys_labelSets (n : ℕ) (sets : List (List ℕ × List Bool)) :
    (labelSets n sets).map Prod.fst = sets.flatMap Prod.fst := by
  induction sets generalizing n with
  | nil => rfl
  | cons a r ih =>
    rw [labelSets, List.map_append, ih, List.map_map, List.flatMap_cons]
    congr 1
    simp [Function.comp_def]

theorem dirichletSets_fold (l : List (ℕ × List ℕ)) (d : KDict ℕ (List ℕ))
    (h : (d.keys ++ l.map Prod.fst).Nodup) :
    l.foldlM (fun (d : KDict ℕ (List ℕ)) (p : ℕ × List ℕ) => do
      raiseIf (d.has p.1 = true) .runtimeError
      pure (d.put p.1 p.2)) d = Except.ok (ε := PyErr) (d ++ l) := by
  induction l generalizing d with
  | nil => simp [pure, Except.pure]
  | cons p l ih =>
    have hp : p.1 ∉ d.keys := by
      intro hm
      rw [List.map_cons, List.nodup_append] at h
      exact h.2.2 _ hm _ (by simp) rfl
    have hh : ¬ (d.has p.1 = true) := fun e => hp (KDict.has_iff.mp e)
    rw [List.foldlM_cons, (raiseIf_ok (u := ())).mpr hh]
    simp only [bind, Except.bind, pure, Except.pure]
    have e := put_of_notMem d p.1 p.2 hp
    rw [e]
    have := ih (d ++ [p]) (by
      have e2 : KDict.keys (d ++ [p]) = d.keys ++ [p.1] := by simp [KDict.keys]
      rw [e2, List.append_assoc]
      exact h)
    simp only [bind, Except.bind, pure, Except.pure] at this
    rw [this, List.append_assoc]
    rfl

theorem dirichletSets_eq {sets : List (List ℕ × List Bool)} (h : (sets.flatMap Prod.fst).Nodup) :
    dirichletSets sets = .ok (labelSets 1 sets) := by
  have := dirichletSets_fold (labelSets 1 sets) [] (by rw [keys_labelSets]; simpa [KDict.keys] using h)
  exact this

theorem setMarks_fold {nNode : ℕ} (l : List (ℕ × List ℕ)) (h : ∀ p ∈ l, 1 ≤ p.1 ∧ p.1 ≤ nNode)
    (hn : (l.map Prod.fst).Nodup) (fl0 : ℕ → ℕ → ℕ) :
    ∃ fl, l.foldlM (fun (fl : ℕ → ℕ → ℕ) (p : ℕ × List ℕ) => do
      let i ← orRaise (wrapIndex nNode ((p.1 : ℤ) - 1)) .indexError
      pure fun a d => if a = i then p.2.getD d 0 else fl a d) fl0 = Except.ok (ε := PyErr) fl ∧
      (∀ p ∈ l, ∀ d, fl (p.1 - 1) d = p.2.getD d 0) ∧
      ∀ i d, i + 1 ∉ l.map Prod.fst → fl i d = fl0 i d := by
  induction l generalizing fl0 with
  | nil => exact ⟨fl0, rfl, by simp, by simp⟩
  | cons p l ih =>
    obtain ⟨h1, h2⟩ := h p (by simp)
    rw [List.map_cons, List.nodup_cons] at hn
    have hw : wrapIndex nNode ((p.1 : ℤ) - 1) = some (p.1 - 1) := by
      rw [wrapIndex_label (by exact_mod_cast h1) (by exact_mod_cast h2)]
      congr 1
      omega
    obtain ⟨fl, e1, e2, e3⟩ := ih (fun q hq => h q (by simp [hq])) hn.2
      (fun a d => if a = p.1 - 1 then p.2.getD d 0 else fl0 a d)
    refine ⟨fl, ?_, ?_, ?_⟩
    · rw [List.foldlM_cons, hw]
      simpa [orRaise, bind, Except.bind, pure, Except.pure] using e1
    · intro q hq d
      rcases List.mem_cons.mp hq with rfl | hq
      · have := e3 (q.1 - 1) d (by rw [Nat.sub_add_cancel h1]; exact hn.1)
        rw [this, if_pos rfl]
      · exact e2 q hq d
    · intro i d hi
      rw [List.map_cons, List.mem_cons, not_or] at hi
      rw [e3 i d hi.2, if_neg (by omega)]

/-- **C126 (sets).** Every prescribed direction of every set of nodes has a positive label of its own,
which marks that direction of the nodes of the set and nothing else. -/
theorem C126_sets {sets : List (List ℕ × List Bool)} {nNode : ℕ} (h : ProperSets sets nNode) :
    ∃ marks L, setMarks sets nNode = .ok marks ∧ MarksOf sets L marks := by
  have hnd : ((labelSets 1 sets).map Prod.fst).Nodup := by rw [keys_labelSets]; exact h.once
  obtain ⟨fl, e1, e2, e3⟩ := setMarks_fold (nNode := nNode) (labelSets 1 sets) (by
    intro p hp
    obtain ⟨k, s, hs, hv, -⟩ := mem_labelSets.mp hp
    exact h.within s (List.mem_of_getElem? hs) _ hv) hnd fun _ _ => 0
  refine ⟨fl, fun k d => firstLabel 1 sets k + ((((sets[k]?).getD ([], [])).2).take d).count true,
    ?_, ?_, ?_, ?_, ?_, ?_⟩
  · unfold setMarks
    rw [dirichletSets_eq h.once]
    exact e1
  · rintro k d k' d' ⟨s, hs, hd⟩ ⟨s', hs', hd'⟩ e
    simp only [hs, hs', Option.getD_some] at e
    have b1 := (dirLabels_true (n := 0) hd).2
    have b2 := (dirLabels_true (n := 0) hd').2
    rcases lt_trichotomy k k' with hlt | rfl | hlt
    · have := firstLabel_lt (n := 1) hs hlt
      omega
    · rw [hs] at hs'
      cases hs'
      exact ⟨rfl, count_take_inj hd hd' (by omega)⟩
    · have := firstLabel_lt (n := 1) hs' hlt
      omega
  · rintro k d -
    have := firstLabel_ge 1 sets k
    omega
  · rintro k s v d hs hv ⟨s', hs', hd⟩
    rw [hs] at hs'
    cases hs'
    have := e2 (v, dirLabels (firstLabel 1 sets k) s.2) (mem_labelSets.mpr ⟨k, s, hs, hv, rfl⟩) d
    dsimp only at this ⊢
    rw [this, (dirLabels_true hd).1, hs]
    rfl
  · rintro k s v d hs hv hnf
    have := e2 (v, dirLabels (firstLabel 1 sets k) s.2) (mem_labelSets.mpr ⟨k, s, hs, hv, rfl⟩) d
    dsimp only at this
    rw [this, dirLabels_not fun hd => hnf ⟨s, hs, hd⟩]
  · intro i d hi
    refine e3 i d ?_
    rw [keys_labelSets, List.mem_flatMap]
    rintro ⟨s, hs, hv⟩
    exact hi s hs hv

theorem dirichletSets_dup (l : List (ℕ × List ℕ)) (d : KDict ℕ (List ℕ)) (hd : d.keys.Nodup)
    (h : ¬ (d.keys ++ l.map Prod.fst).Nodup) :
    l.foldlM (fun (d : KDict ℕ (List ℕ)) (p : ℕ × List ℕ) => do
      raiseIf (d.has p.1 = true) .runtimeError
      pure (d.put p.1 p.2)) d = Except.error (ε := PyErr) .runtimeError := by
  induction l generalizing d with
  | nil => simp at h; exact absurd hd h
  | cons p l ih =>
    rw [List.foldlM_cons]
    by_cases hp : p.1 ∈ d.keys
    · simp [raiseIf, KDict.has_iff.mpr hp, bind, Except.bind]
    · have hh : ¬ (d.has p.1 = true) := fun e => hp (KDict.has_iff.mp e)
      rw [(raiseIf_ok (u := ())).mpr hh]
      simp only [bind, Except.bind, pure, Except.pure]
      have := ih (d.put p.1 p.2) (KDict.nodup_put hd _ _) (by
        rw [KDict.keys_put, if_neg hp, List.append_assoc]
        exact h)
      simp only [bind, Except.bind, pure, Except.pure] at this
      exact this

/-- **C126 (one set).** A node in two sets is refused. -/
theorem C126_overlap {sets : List (List ℕ × List Bool)} (h : ¬ (sets.flatMap Prod.fst).Nodup)
    (nNode : ℕ) : setMarks sets nNode = .error .runtimeError := by
  unfold setMarks dirichletSets
  rw [dirichletSets_dup _ [] (by simp [KDict.keys]) (by rw [keys_labelSets]; simpa [KDict.keys] using h)]
  rfl

theorem labelRange_mem {a b v : ℕ} : v ∈ labelRange a b ↔ a ≤ v ∧ v < b := by
  unfold labelRange
  rw [List.mem_map]
  constructor
  · rintro ⟨i, hi, rfl⟩
    have := List.mem_range.mp hi
    omega
  · rintro ⟨h1, h2⟩
    exact ⟨v - a, List.mem_range.mpr (by omega), by omega⟩

/-- The sets written in the code are proper for meshes with all their nodes. -/
theorem nodeSetsInCode_proper {nNode : ℕ} (h : 1712 ≤ nNode) : ProperSets nodeSetsInCode nNode where
  once := by decide +kernel
  within := by
    intro s hs v hv
    simp only [nodeSetsInCode, List.mem_cons, List.not_mem_nil, or_false] at hs
    rcases hs with rfl | rfl
    · simp only [List.mem_append, labelRange_mem] at hv
      omega
    · simp only [List.mem_append, labelRange_mem, List.mem_cons, List.not_mem_nil, or_false] at hv
      omega
  three := by
    intro s hs
    simp only [nodeSetsInCode, List.mem_cons, List.not_mem_nil, or_false] at hs
    rcases hs with rfl | rfl <;> rfl

/-- Non-vacuity: two sets, of which the second is held in two directions. -/
example : ProperSets [([1, 4], [true, true, true]), ([2], [false, true, true])] 5 ∧
    FixedIn [([1, 4], [true, true, true]), ([2], [false, true, true])] 1 2 := by
  refine ⟨⟨by decide, by decide, by decide⟩, _, rfl, rfl⟩

/-- **C126 is violated for other specimens.** The sets of `generate_dirichlet_sets` are those of one
specimen: for a mesh with fewer nodes it raises. -/
theorem C126_small_violated {nNode : ℕ} (h : nNode < 1712) :
    generateDirichletSets nNode = .error .indexError := by
  unfold generateDirichletSets setMarks
  rw [dirichletSets_eq (by decide +kernel)]
  have key : ∀ (l : List (ℕ × List ℕ)) (fl0 : ℕ → ℕ → ℕ), (∀ p ∈ l, 1 ≤ p.1) →
      (∃ p ∈ l, nNode < p.1) →
      l.foldlM (fun (fl : ℕ → ℕ → ℕ) (p : ℕ × List ℕ) => do
        let i ← orRaise (wrapIndex nNode ((p.1 : ℤ) - 1)) .indexError
        pure fun a d => if a = i then p.2.getD d 0 else fl a d) fl0
        = Except.error (ε := PyErr) .indexError := by
    intro l
    induction l with
    | nil => rintro _ _ ⟨p, hp, -⟩; cases hp
    | cons p l ih =>
      intro fl0 h1 h2
      rw [List.foldlM_cons]
      by_cases hp : nNode < p.1
      · have : wrapIndex nNode ((p.1 : ℤ) - 1) = none := by
          unfold wrapIndex
          rw [if_neg (by omega), if_neg (by omega)]
        rw [this]
        rfl
      · have hp1 := h1 p (by simp)
        rw [wrapIndex_label (by exact_mod_cast hp1) (by exact_mod_cast (not_lt.mp hp))]
        simp only [orRaise, bind, Except.bind, pure, Except.pure]
        have := ih (fun a d => if a = ((p.1 : ℤ) - 1).toNat then p.2.getD d 0 else fl0 a d)
          (fun q hq => h1 q (by simp [hq])) (by
            obtain ⟨q, hq, hq'⟩ := h2
            rcases List.mem_cons.mp hq with rfl | hq
            · exact absurd hq' hp
            · exact ⟨q, hq, hq'⟩)
        simp only [bind, Except.bind, pure, Except.pure] at this
        exact this
  refine key _ _ ?_ ?_
  · intro p hp
    obtain ⟨k, s, hs, hv, -⟩ := mem_labelSets.mp hp
    exact ((nodeSetsInCode_proper le_rfl).within s (List.mem_of_getElem? hs) _ hv).1
  · refine ⟨(1712, _), mem_labelSets.mpr ⟨0, _, rfl, ?_, rfl⟩, h⟩
    simp [labelRange_mem]

/-- **C126 is violated for meshes of other specimens.** A mesh with enough nodes is marked at the nodes
of that one specimen, whatever the nodes of its own sets. -/
theorem C126_specimen_violated {nNode : ℕ} (h : 1712 ≤ nNode) :
    ∃ marks, generateDirichletSets nNode = .ok marks ∧ marks 1 0 ≠ 0 ∧ marks 0 0 = 0 := by
  obtain ⟨marks, L, e, H⟩ := C126_sets (nodeSetsInCode_proper h)
  refine ⟨marks, e, ?_, ?_⟩
  · have hF : FixedIn nodeSetsInCode 1 0 := ⟨_, rfl, rfl⟩
    have := H.mark 1 _ 2 0 rfl (by simp) hF
    rw [this]
    exact (H.pos 1 0 hF).ne'
  · refine H.outside 0 0 ?_
    intro s hs
    simp only [nodeSetsInCode, List.mem_cons, List.not_mem_nil, or_false] at hs
    rcases hs with rfl | rfl <;> simp [labelRange_mem]

/-! ## Gauss points -/

/-- **C126 (Gauss points).** In three dimensions the response path of a Gauss point has the times of its
output file, its stresses, and strains whose double contraction with any stress is the sum of the products
of the components in the file: the engineering shear strains are halved once.  The components are those of
the order 11, 22, 33, 12, 23, 13. -/
theorem C126_gauss {f : Frame} (hc : 59 ≤ f.cols) {nDim : ℕ} (hd : nDim ≠ 2) :
    ∃ p, gaussPath nDim (some f) = .ok p ∧
      p.order = [(1, 1), (2, 2), (3, 3), (1, 2), (2, 3), (1, 3)] ∧
      p.times = (List.range f.rows.length).map (fun t => f.at t 0) ∧
      p.strain.length = f.rows.length ∧ p.stress.length = f.rows.length ∧
      ∀ t, t < f.rows.length → (p.stress.getD t []).length = 6 ∧ (p.strain.getD t []).length = 6 ∧
        (∀ j, j < 6 → (p.stress.getD t []).getD j 0 = f.at t (11 + j)) ∧
        (∀ s : List ℝ, ∑ i, ∑ j, rowTensor p.order s i j * rowTensor p.order (p.strain.getD t []) i j
          = ∑ j ∈ Finset.range 6, s.getD j 0 * f.at t (53 + j)) := by
  have h1 : gaussPath nDim (some f) = .ok {
      order := gaussComps
      times := (List.range f.rows.length).map fun t => f.at t 0
      strain := (List.range f.rows.length).map fun t => gaussComps.zipIdx.map fun p =>
        (if p.1.1 ≠ p.1.2 then 1 / 2 else 1) * f.at t (53 + p.2)
      stress := (List.range f.rows.length).map fun t => gaussComps.zipIdx.map fun p =>
        f.at t (11 + p.2) } := by
    unfold gaussPath
    simp only [orRaise, bind, Except.bind]
    rw [(raiseIf_ok (u := ())).mpr hd, (raiseIf_ok (u := ())).mpr (by omega)]
    rfl
  refine ⟨_, h1, rfl, rfl, by simp, by simp, ?_⟩
  intro t ht
  have e1 : ∀ F : ℕ → List ℝ, ((List.range f.rows.length).map F).getD t [] = F t := by
    intro F
    simp [List.getD, ht]
  dsimp only
  rw [e1, e1]
  refine ⟨rfl, rfl, ?_, ?_⟩
  · intro j hj
    interval_cases j <;> rfl
  · intro s
    simp only [Fin.sum_univ_three, Finset.sum_range_succ, Finset.sum_range_zero]
    simp [rowTensor, gaussComps, List.findIdx, List.findIdx.go]
    ring

/-- **C126 (refusals).** The file of a Gauss point is read only if it exists and has all columns, and marks
are added only if there are history files. -/
theorem C126_refused {nDim : ℕ} :
    (∀ e : GaussPath, gaussPath nDim none ≠ .ok e) ∧
    (∀ f : Frame, f.cols < 59 → ∀ e : GaussPath, gaussPath nDim (some f) ≠ .ok e) ∧
    ∀ (n : ℕ) (m : ℕ → ℕ → ℕ) (d : KDict Text CsvTable), updateMarks [] n m d = (.error .indexError, d) := by
  refine ⟨(by intro e h; cases h), ?_, (by intro _ _ _; rfl)⟩
  intro f hc e h
  unfold gaussPath at h
  obtain ⟨_, h0, h⟩ := bind_ok h
  cases h0
  obtain ⟨_, -, h⟩ := bind_ok h
  obtain ⟨_, h2, -⟩ := bind_ok h
  exact raiseIf_ok.mp h2 (by omega)

/-- **C126 (names).** The simulation of an output directory is its last component without extension. -/
theorem C126_name {dir name ext : Text} (h1 : '/' ∉ name) (h2 : '/' ∉ ext) (h3 : '.' ∉ ext)
    (h4 : ∃ c ∈ name, c ≠ '.') :
    simulationName (dir ++ '/' :: (name ++ '.' :: ext)) = name ∧
      simulationName (name ++ '.' :: ext) = name := by
  have hb : ∀ w : Text, '/' ∉ w → ∀ q : Text, (w.reverse ++ '/' :: q).takeWhile (· ≠ '/') = w.reverse := by
    intro w hw q
    rw [List.takeWhile_append_of_pos (by
      intro a ha
      simp only [decide_eq_true_eq]
      rintro rfl
      exact hw (List.mem_reverse.mp ha))]
    simp
  have hb' : ∀ w : Text, '/' ∉ w → w.reverse.takeWhile (· ≠ '/') = w.reverse := by
    intro w hw
    rw [← List.append_nil w.reverse, List.takeWhile_append_of_pos, List.takeWhile_nil]
    intro a ha
    simp only [decide_eq_true_eq]
    rintro rfl
    exact hw (List.mem_reverse.mp ha)
  have hn : '/' ∉ name ++ '.' :: ext := by simp [h1, h2]
  have hs : splitextRoot (name ++ '.' :: ext) = name := by
    unfold splitextRoot
    have e : (name ++ '.' :: ext).reverse = ext.reverse ++ '.' :: name.reverse := by simp
    rw [e, List.dropWhile_append_of_pos (by
      intro a ha
      simp only [decide_eq_true_eq]
      rintro rfl
      exact h3 (List.mem_reverse.mp ha))]
    rw [List.dropWhile_cons_of_neg (by simp)]
    dsimp only
    rw [if_pos]
    · simp
    · rw [List.any_eq_true]
      obtain ⟨c, hc, hc'⟩ := h4
      exact ⟨c, List.mem_reverse.mpr hc, by simpa using hc'⟩
  constructor
  · unfold simulationName baseName
    have e : (dir ++ '/' :: (name ++ '.' :: ext)).reverse = (name ++ '.' :: ext).reverse ++ '/' :: dir.reverse := by
      simp
    rw [e, hb _ hn, List.reverse_reverse, hs]
  · unfold simulationName baseName
    rw [hb' _ hn, List.reverse_reverse, hs]

/-- Non-vacuity: the directory of a simulation. -/
example : simulationName "runs/tensile.v2.dat".toList = "tensile.v2".toList :=
  (C126_name (dir := "runs".toList) (name := "tensile.v2".toList) (ext := "dat".toList) (by decide) (by decide)
    (by decide) ⟨'t', by decide, by decide⟩).1

/-- Non-vacuity: a point with two records. -/
example : ∃ p, gaussPath 3 (some ⟨60, [List.replicate 60 1, List.replicate 60 2]⟩) = .ok p ∧
    (p.strain.getD 1 []) = [2, 2, 2, 1, 1, 1] := by
  refine ⟨_, rfl, ?_⟩
  simp [gaussComps, Frame.at, List.range, List.range.loop]

/-- **C126 is violated for two dimensions.** No output file of a Gauss point of a plane problem can be
read. -/
theorem C126_plane_violated (f : Frame) : gaussPath 2 (some f) = .error .typeError := rfl

/-- Non-vacuity of the export and of the two ways: a simulation with three steps. -/
example : ∃ path, NodeDataDir (simulationName path) threeStepDir threeSteps ∧ threeSteps ≠ [] ∧
    NodeTables 2 threeSteps ∧ ∃ marks, historyMarks 2 heldNode = .ok marks := by
  obtain ⟨marks, h, -⟩ := historyMarks_eq heldNode_within
  exact ⟨"out/s".toList, threeSteps_dir, by simp [threeSteps], threeSteps_tables, marks, h⟩

/-! ## Faults of the export -/

/-- **C126 is violated for gaps.** Steps zero and two of a simulation become the files of steps zero and
one. -/
theorem C126_gap_violated (u v : ℝ) (old : KDict Text CsvTable) :
    ∃ files c, exportNodeData "out/s".toList (some [("s_2.nodedata".toList, twoNodeTable 2 v),
        ("s_0.nodedata".toList, twoNodeTable 0 u)]) old = (.ok (), files) ∧
      files.get? "s_tstep_1.csv".toList = some c ∧ ExportOf (twoNodeTable 2 v) c ∧
      files.get? "s_tstep_2.csv".toList = none := by
  have hd : NodeDataDir (simulationName "out/s".toList) [("s_2.nodedata".toList, twoNodeTable 2 v),
      ("s_0.nodedata".toList, twoNodeTable 0 u)] [(0, "0".toList, twoNodeTable 0 u),
      (2, "2".toList, twoNodeTable 2 v)] := {
    numbers := by
      intro s hs
      simp only [List.mem_cons, List.not_mem_nil, or_false] at hs
      rcases hs with rfl | rfl <;> rfl
    increasing := by simp
    nodup := by simp
    files := by
      intro s hs
      simp only [List.mem_cons, List.not_mem_nil, or_false] at hs
      rcases hs with rfl | rfl
      · exact List.mem_cons_of_mem _ (List.mem_cons_self ..)
      · exact List.mem_cons_self ..
    others := by
      intro p hp
      simp only [List.mem_cons, List.not_mem_nil, or_false] at hp
      rcases hp with rfl | rfl
      · exact Or.inl ⟨_, List.mem_cons_of_mem _ (List.mem_cons_self ..), rfl⟩
      · exact Or.inl ⟨_, List.mem_cons_self .., rfl⟩ }
  obtain ⟨files, h1, h2, h3⟩ := C126_export hd (by
    intro s hs
    simp only [List.mem_cons, List.not_mem_nil, or_false] at hs
    rcases hs with rfl | rfl <;> rfl) old
  obtain ⟨c, hc, hE⟩ := h3 1 _ rfl
  refine ⟨files, c, h1, hc, hE, ?_⟩
  rw [KDict.get?_eq_none, h2]
  have e : [(0, "0".toList, twoNodeTable 0 u), (2, "2".toList, twoNodeTable 2 v)].length = 2 := rfl
  rw [e]
  decide

/-- **C126 is violated for failed exports.** A file of node data with another number of columns makes
the export raise, but the files of the earlier export are gone. -/
theorem C126_lost_violated {f : Frame} (h : f.cols ≠ 18) (old : KDict Text CsvTable) :
    exportNodeData "out/s".toList (some [("s_0.nodedata".toList, f)]) old
      = (.error .runtimeError, []) := by
  have e : collectNodeData ("out/s".toList ++ "/NODE_DATA".toList) (simulationName "out/s".toList)
      (KDict.keys [("s_0.nodedata".toList, f)]) = .ok ["s_0.nodedata".toList] := rfl
  have e2 : exportTable f = .error .runtimeError := by
    unfold exportTable raiseIf
    rw [if_pos h]
    rfl
  have e3 : ["s_0.nodedata".toList].map (fun g => (KDict.get? [("s_0.nodedata".toList, f)] g).getD
      ⟨0, []⟩) = [f] := rfl
  unfold exportNodeData
  dsimp only
  rw [e]
  dsimp only
  rw [e3]
  unfold exportLoop
  rw [e2]

/-- **C126 is violated for paths with a final separator.** The name of the simulation is then empty, so
the files of all simulations are taken and the history of the simulation is not found. -/
theorem C126_slash_violated {f : Frame} (h : f.cols = 18) (old : KDict Text CsvTable) (root : Text) :
    ∃ files, exportNodeData "out/s/".toList (some [("s_0.nodedata".toList, f),
        ("other_1.nodedata".toList, f)]) old = (.ok (), files) ∧
      files.keys = ["_tstep_0.csv".toList, "_tstep_1.csv".toList] ∧
      historyPaths root "s".toList files.keys = .error .runtimeError := by
  have e : collectNodeData ("out/s/".toList ++ "/NODE_DATA".toList) (simulationName "out/s/".toList)
      (KDict.keys [("s_0.nodedata".toList, f), ("other_1.nodedata".toList, f)])
      = .ok ["s_0.nodedata".toList, "other_1.nodedata".toList] := by
    have : KDict.keys [("s_0.nodedata".toList, f), ("other_1.nodedata".toList, f)]
      = ["s_0.nodedata".toList, "other_1.nodedata".toList] := rfl
    rw [this]
    rfl
  have hf := exportLoop_eq (name := simulationName "out/s/".toList) [f, f] (by simp [h]) 0 []
    (by simp [KDict.keys])
  refine ⟨[] ++ ([f, f].zipIdx 0).map fun p : Frame × ℕ =>
      (historyFile (simulationName "out/s/".toList) p.2, exported p.1), ?_, rfl, ?_⟩
  · unfold exportNodeData
    dsimp only
    rw [e]
    exact hf
  · have k : KDict.keys ([] ++ ([f, f].zipIdx 0).map fun p : Frame × ℕ =>
      (historyFile (simulationName "out/s/".toList) p.2, exported p.1))
      = ["_tstep_0.csv".toList, "_tstep_1.csv".toList] := rfl
    rw [k]
    unfold historyPaths raiseIf
    rw [if_pos (by decide)]
    rfl

/-- **C126 is violated for failed updates.** The files are marked one by one: if the second has another
number of columns the update raises, but the first has its new marks. -/
theorem C126_half_violated {a b : Text} (hab : a ≠ b) {c c' : CsvTable} {n : ℕ} {m : ℕ → ℕ → ℕ}
    (hc : c.nRows = n) (hl : (marked m c).cols.length = 13) (hc' : c'.nRows = n)
    (hl' : (marked m c').cols.length ≠ 13) :
    updateMarks [a, b] n m [(a, c), (b, c')]
      = (.error .runtimeError, [(a, marked m c), (b, c')]) := by
  unfold updateMarks
  simp only [KDict.get?, if_pos]
  unfold updateLoop
  simp only [KDict.get?, if_pos]
  rw [hc, markTable_eq hc hl]
  dsimp only
  unfold updateLoop
  have e : KDict.get? (KDict.put [(a, c), (b, c')] a (marked m c)) b = some c' := by
    rw [KDict.get?_put_ne _ _ (Ne.symm hab)]
    simp [KDict.get?, hab]
  rw [e]
  have e2 : markTable n n m c' = .error .runtimeError := by
    unfold markTable
    rw [(raiseIf_ok (u := ())).mpr (by simp [hc']), (raiseIf_ok (u := ())).mpr (by simp [hc'])]
    simp only [bind, Except.bind]
    unfold raiseIf
    rw [if_pos]
    exact hl'
  simp only [e2]
  simp [KDict.put]

/-- Non-vacuity: a table of ten columns and one of eleven. -/
example (f : Frame) (m : ℕ → ℕ → ℕ) : (marked m (exported f)).cols.length = 13 ∧
    (marked m ⟨f.rows.length, (exported f).cols ++ [("TIME".toList, [])]⟩).cols.length ≠ 13 := by
  refine ⟨rfl, ?_⟩
  have : (marked m ⟨f.rows.length, (exported f).cols ++ [("TIME".toList, [])]⟩).cols.length = 14 := rfl
  rw [this]
  decide

end Hooke
