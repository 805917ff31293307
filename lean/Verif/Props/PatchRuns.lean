import Verif.Spec.PatchRuns
import Verif.Props.ConvergenceParameters

/-!
# C142: generation of random material patches
-/

namespace Hooke

open Spec

variable {P : Type}

/-! ### Directories -/

theorem diskThen_ok {α β : Type} {r : PatchDisk P × Py α} {f : PatchDisk P → α → PatchDisk P × Py β}
    {d' : PatchDisk P} {b : β} :
    diskThen r f = (d', .ok b) ↔ ∃ d a, r = (d, .ok a) ∧ f d a = (d', .ok b) := by
  obtain ⟨d, x | a⟩ := r
  · simp [diskThen]
  · constructor
    · intro h
      exact ⟨d, a, rfl, h⟩
    · rintro ⟨d1, a1, h, h2⟩
      cases h
      exact h2

/-- The disk with the directory `p` emptied, or created. -/
def PatchDisk.cleared (d : PatchDisk P) (p : APath) : PatchDisk P :=
  ⟨fun q => if p <+: q then decide (q = p) else d.dirs q, fun q => if p <+: q then none else d.file q⟩

/-- Nothing is below a path that is not a directory. -/
def Tidy (d : PatchDisk P) (p : APath) : Prop :=
  d.file p = none ∧ (d.dirs p = false → ∀ q, p <+: q → d.dirs q = false ∧ d.file q = none)

/-- The strict ancestors are directories. -/
def Rooted (d : PatchDisk P) (p : APath) : Prop :=
  ∀ q, q <+: p → q ≠ p → d.dirs q = true ∧ d.file q = none

theorem overwriteDir_eq {d : PatchDisk P} {p : APath} (hr : Rooted d p) (ht : Tidy d p) :
    d.overwriteDir p = (d.cleared p, .ok ()) := by
  have key : ∀ d₀ : PatchDisk P, d₀ = (if d.dirs p then d.rmtree p else d) →
      d₀.dirs p = false ∧ (∀ q, q <+: p → d₀.file q = none) ∧
      (∀ q, (d₀.dirs q || q.isPrefixOf p) = (if p <+: q then decide (q = p) else d.dirs q)) ∧
      ∀ q, d₀.file q = if p <+: q then none else d.file q := by
    rintro d₀ rfl
    cases hp : d.dirs p with
    | true =>
      rw [if_pos rfl]
      refine ⟨by simp [PatchDisk.rmtree], ?_, ?_, ?_⟩
      · intro q hq
        by_cases h : q = p
        · simp [PatchDisk.rmtree, h]
        · simp [PatchDisk.rmtree, (hr q hq h).2]
      · intro q
        by_cases h : p <+: q
        · rw [if_pos h]
          have : q <+: p ↔ q = p := ⟨fun h' => h'.eq_of_length_le h.length_le, fun h' => h' ▸ List.prefix_rfl⟩
          rw [Bool.eq_iff_iff]
          simp [PatchDisk.rmtree, h, this]
        · rw [if_neg h, Bool.eq_iff_iff]
          simp only [PatchDisk.rmtree, Bool.or_eq_true, Bool.and_eq_true, Bool.not_eq_true',
            List.isPrefixOf_iff_prefix]
          have hb : p.isPrefixOf q = false := by
            rw [Bool.eq_false_iff]
            exact fun h' => h (List.isPrefixOf_iff_prefix.mp h')
          constructor
          · rintro (⟨h1, -⟩ | h1)
            · exact h1
            · exact (hr q h1 (fun h' => h (h' ▸ List.prefix_rfl))).1
          · intro h1
            exact Or.inl ⟨h1, hb⟩
      · intro q
        simp [PatchDisk.rmtree]
    | false =>
      rw [if_neg (by simp)]
      refine ⟨hp, ?_, ?_, ?_⟩
      · intro q hq
        by_cases h : q = p
        · exact h ▸ ht.1
        · exact (hr q hq h).2
      · intro q
        by_cases h : p <+: q
        · rw [if_pos h, (ht.2 hp q h).1, Bool.false_or, Bool.eq_iff_iff]
          simp only [List.isPrefixOf_iff_prefix, decide_eq_true_eq]
          exact ⟨fun h' => h'.eq_of_length_le h.length_le, fun h' => h' ▸ List.prefix_rfl⟩
        · rw [if_neg h, Bool.eq_iff_iff]
          simp only [Bool.or_eq_true, List.isPrefixOf_iff_prefix]
          constructor
          · rintro (h1 | h1)
            · exact h1
            · exact (hr q h1 (fun h' => h (h' ▸ List.prefix_rfl))).1
          · exact Or.inl
      · intro q
        by_cases h : p <+: q
        · rw [if_pos h, (ht.2 hp q h).2]
        · rw [if_neg h]
  unfold PatchDisk.overwriteDir
  obtain ⟨d₀, h₀⟩ : ∃ d₀ : PatchDisk P, d₀ = (if d.dirs p then d.rmtree p else d) := ⟨_, rfl⟩
  rw [← h₀]
  obtain ⟨h1, h2, h3, h4⟩ := key d₀ h₀
  unfold PatchDisk.makedirs
  have hany : (p.inits.any fun q => (d₀.file q).isSome) = false := by
    rw [List.any_eq_false]
    intro q hq
    rw [h2 q ((List.mem_inits _ _).mp hq)]
    simp
  rw [h1, hany]
  simp only [Bool.or_self, Bool.false_eq_true, if_false]
  unfold PatchDisk.cleared
  congr 2
  · funext q
    exact h3 q
  · funext q
    exact h4 q

/-- What is not below `p` is kept by `make_directory` for a path below `p`. -/
theorem overwriteDir_frame {d d' : PatchDisk P} {p p' : APath} {r : Py Unit} (hpp : p <+: p')
    (hr : ∀ q, q <+: p → q ≠ p → d.dirs q = true)
    (h : d.overwriteDir p' = (d', r)) {q : APath} (hq : ¬ p <+: q) : SameAt d d' q := by
  have hq' : ¬ p' <+: q := fun h' => hq (hpp.trans h')
  have hb : p'.isPrefixOf q = false := by
    rw [Bool.eq_false_iff]
    exact fun h' => hq' (List.isPrefixOf_iff_prefix.mp h')
  have h1 : ∀ d₀ : PatchDisk P, d₀ = (if d.dirs p' then d.rmtree p' else d) → SameAt d d₀ q := by
    rintro d₀ rfl
    cases d.dirs p' with
    | true => simp [SameAt, PatchDisk.rmtree, hb, hq']
    | false => exact ⟨rfl, rfl⟩
  unfold PatchDisk.overwriteDir at h
  obtain ⟨d₀, h₀⟩ : ∃ d₀ : PatchDisk P, d₀ = (if d.dirs p' then d.rmtree p' else d) := ⟨_, rfl⟩
  rw [← h₀] at h
  have h1 := h1 d₀ h₀
  unfold PatchDisk.makedirs at h
  split at h
  · cases h
    exact h1
  · cases h
    refine ⟨?_, h1.2⟩
    show (d₀.dirs q || q.isPrefixOf p') = d.dirs q
    rw [h1.1, Bool.eq_iff_iff]
    simp only [Bool.or_eq_true, List.isPrefixOf_iff_prefix]
    constructor
    · rintro (h1 | h1)
      · exact h1
      · rcases List.prefix_or_prefix_of_prefix h1 hpp with h2 | h2
        · exact hr q h2 (fun h' => hq (h' ▸ List.prefix_rfl))
        · exact absurd h2 hq
    · exact Or.inl

theorem Spec.SameAt.trans {d d' d'' : PatchDisk P} {q : APath} (h : SameAt d d' q) (h' : SameAt d' d'' q) :
    SameAt d d'' q := ⟨h'.1.trans h.1, h'.2.trans h.2⟩

theorem patchRoot_eq {base : APath} {name : PName} {n i : ℕ} (hn : 0 < n) (hf : NameFits name n) :
    joinName base (patchDirName n name i) = patchRoot base name n i := by
  unfold joinName patchDirName patchRoot
  have happ : name ++ "_".toList ++ strNat i = name ++ '_' :: strNat i := by simp
  rw [happ]
  by_cases h : n = 1
  · obtain ⟨h1, h2, h3⟩ := hf h
    have h2 : name ≠ ['.'] := h2
    have h3 : name ≠ ['.', '.'] := h3
    have hn1 : ¬ n > 1 := by omega
    simp only [if_neg hn1, if_pos h, h1, h2, h3, or_self, if_false]
  · have hm : '_' ∈ name ++ '_' :: strNat i := by simp
    have hn1 : n > 1 := by omega
    have e1 : name ++ '_' :: strNat i ≠ [] := by simp
    have e2 : name ++ '_' :: strNat i ≠ ['.'] := by
      intro hc
      rw [hc] at hm
      revert hm
      decide
    have e3 : name ++ '_' :: strNat i ≠ ['.', '.'] := by
      intro hc
      rw [hc] at hm
      revert hm
      decide
    simp only [if_pos hn1, if_neg h, e1, e2, e3, or_self, if_false]

theorem patchRoot_inj {base : APath} {name : PName} {n i j : ℕ} (hi : i < n) (hj : j < n) {q : APath}
    (h1 : patchRoot base name n i <+: q) (h2 : patchRoot base name n j <+: q) : i = j := by
  by_cases h : n = 1
  · omega
  · have hl : (patchRoot base name n i).length = (patchRoot base name n j).length := by
      simp [patchRoot]
    have := List.prefix_of_prefix_length_le h1 h2 hl.le
    have := this.eq_of_length hl
    unfold patchRoot at this
    rw [if_neg h, if_neg h] at this
    have := List.append_cancel_left this
    have := (List.cons.inj this).1
    exact strNat_inj (List.append_cancel_left this)

/-! ### One patch -/

/-- The subdirectories of a patch directory are empty, and it holds nothing else. -/
def freshDirs (d : PatchDisk P) (p : APath) : PatchDisk P :=
  (((d.cleared p).cleared (patchDataDir p)).cleared (patchSimulationsDir p)).cleared (patchPlotsDir p)

theorem prefix_snoc_ne {p q : APath} {a : PName} (h : q <+: p ++ [a]) (hne : q ≠ p ++ [a]) : q <+: p := by
  rcases List.prefix_concat_iff.mp h with h | h
  · exact absurd h hne
  · exact h

theorem not_below_parent {p : APath} {a : PName} : ¬ p ++ [a] <+: p := by
  intro h
  have := h.length_le
  simp at this

theorem sibling_prefix {p q : APath} {a b : PName} (h1 : p ++ [a] <+: q) (h2 : p ++ [b] <+: q) : a = b := by
  have hl : (p ++ [a]).length = (p ++ [b]).length := by simp
  have := (List.prefix_of_prefix_length_le h1 h2 hl.le).eq_of_length hl
  exact (List.cons.inj (List.append_cancel_left this)).1

theorem rooted_cleared {d : PatchDisk P} {p : APath} (h : Rooted d p) {a : PName} :
    Rooted (d.cleared p) (p ++ [a]) := by
  intro q hq hne
  have hq := prefix_snoc_ne hq hne
  unfold PatchDisk.cleared
  by_cases hqp : q = p
  · subst hqp
    simp
  · have hn : ¬ p <+: q := fun h' => hqp (hq.eq_of_length_le h'.length_le)
    simp only [if_neg hn]
    exact h q hq hqp

theorem rooted_sub {d : PatchDisk P} {p : APath} (h : Rooted d p) (hp : d.dirs p = true)
    (hf : d.file p = none) {a : PName} : Rooted d (p ++ [a]) := by
  intro q hq hne
  have hq := prefix_snoc_ne hq hne
  by_cases hqp : q = p
  · exact hqp ▸ ⟨hp, hf⟩
  · exact h q hq hqp

theorem rooted_cleared_sibling {d : PatchDisk P} {p : APath} {a b : PName}
    (h : Rooted d (p ++ [b])) : Rooted (d.cleared (p ++ [a])) (p ++ [b]) := by
  intro q hq hne
  have hq' := prefix_snoc_ne hq hne
  have hn : ¬ p ++ [a] <+: q := fun h' => not_below_parent (h'.trans hq')
  unfold PatchDisk.cleared
  simp only [if_neg hn]
  exact h q hq hne

theorem tidy_cleared_sub {d : PatchDisk P} {p : APath} {a : PName} : Tidy (d.cleared p) (p ++ [a]) := by
  have hp : p <+: p ++ [a] := List.prefix_append _ _
  refine ⟨by simp [PatchDisk.cleared], fun _ q hq => ?_⟩
  have hpq : p <+: q := hp.trans hq
  have : q ≠ p := by
    rintro rfl
    exact not_below_parent hq
  simp [PatchDisk.cleared, hpq, this]

theorem tidy_cleared_sibling {d : PatchDisk P} {p : APath} {a b : PName} (hab : a ≠ b)
    (h : Tidy d (p ++ [b])) : Tidy (d.cleared (p ++ [a])) (p ++ [b]) := by
  have hn : ∀ q, p ++ [b] <+: q → ¬ p ++ [a] <+: q := fun q h1 h2 => hab (sibling_prefix h2 h1)
  unfold PatchDisk.cleared
  constructor
  · simp only [if_neg (hn _ List.prefix_rfl)]
    exact h.1
  · intro hd q hq
    simp only [if_neg (hn _ List.prefix_rfl)] at hd
    simp only [if_neg (hn _ hq)]
    exact h.2 hd q hq

theorem data_ne_sims : ("material_patch".toList : PName) ≠ "simulations".toList := by decide
theorem data_ne_plots : ("material_patch".toList : PName) ≠ "plots".toList := by decide
theorem sims_ne_plots : ("simulations".toList : PName) ≠ "plots".toList := by decide

theorem setPatchDir_fresh {d : PatchDisk P} {name : PName} {base : APath} (hb : d.dirs base = true)
    {p : APath} (hp : joinName base name = p) (hr : Rooted d p) (ht : Tidy d p) :
    setPatchDir d name base true = (freshDirs d p, .ok p) := by
  unfold setPatchDir
  rw [hb]
  simp only [Bool.not_true, Bool.false_eq_true, if_false, hp]
  unfold PatchDisk.ensureDir
  simp only [Bool.or_true, if_true]
  rw [overwriteDir_eq hr ht]
  simp only [diskThen]
  have r1 : Rooted (d.cleared p) (patchDataDir p) := rooted_cleared hr
  rw [overwriteDir_eq r1 tidy_cleared_sub]
  simp only
  have r2 : Rooted ((d.cleared p).cleared (patchDataDir p)) (patchSimulationsDir p) :=
    rooted_cleared_sibling (rooted_cleared hr)
  rw [overwriteDir_eq r2 (tidy_cleared_sibling data_ne_sims tidy_cleared_sub)]
  simp only
  have r3 : Rooted (((d.cleared p).cleared (patchDataDir p)).cleared (patchSimulationsDir p))
      (patchPlotsDir p) := rooted_cleared_sibling (rooted_cleared_sibling (rooted_cleared hr))
  rw [overwriteDir_eq r3 (tidy_cleared_sibling sims_ne_plots
    (tidy_cleared_sibling data_ne_plots tidy_cleared_sub))]
  rfl

/-- The subdirectories for new results are empty. -/
def resetDirs (d : PatchDisk P) (p : APath) : PatchDisk P :=
  (d.cleared (patchSimulationsDir p)).cleared (patchPlotsDir p)

theorem setPatchDir_load {d : PatchDisk P} {name : PName} {base : APath} (hb : d.dirs base = true)
    {p : APath} (hp : joinName base name = p) (hr : Rooted d p) (hd : d.dirs p = true)
    (hf : d.file p = none) (hdd : d.dirs (patchDataDir p) = true) (hs : Tidy d (patchSimulationsDir p))
    (hpl : Tidy d (patchPlotsDir p)) :
    setPatchDir d name base false = (resetDirs d p, .ok p) := by
  unfold setPatchDir
  rw [hb]
  simp only [Bool.not_true, Bool.false_eq_true, if_false, hp]
  unfold PatchDisk.ensureDir
  simp only [hd, Bool.not_true, Bool.or_self, Bool.false_eq_true, if_false, diskThen, hdd]
  have r2 : Rooted d (patchSimulationsDir p) := rooted_sub hr hd hf
  rw [overwriteDir_eq r2 hs]
  simp only
  have r3 : Rooted (d.cleared (patchSimulationsDir p)) (patchPlotsDir p) :=
    rooted_cleared_sibling (rooted_sub hr hd hf)
  rw [overwriteDir_eq r3 (tidy_cleared_sibling sims_ne_plots hpl)]
  rfl

theorem freshDirs_file {d : PatchDisk P} {p q : APath} :
    (freshDirs d p).file q = if p <+: q then none else d.file q := by
  simp only [freshDirs, PatchDisk.cleared]
  have h : ∀ a : PName, p ++ [a] <+: q → p <+: q := fun a h => (List.prefix_append _ _).trans h
  by_cases hp : p <+: q
  · simp [hp]
  · have h1 : ∀ a : PName, ¬ p ++ [a] <+: q := fun a h' => hp (h a h')
    simp only [patchDataDir, patchSimulationsDir, patchPlotsDir, if_neg (h1 _), if_neg hp]

theorem resetDirs_file {d : PatchDisk P} {p q : APath} :
    (resetDirs d p).file q =
      if patchSimulationsDir p <+: q ∨ patchPlotsDir p <+: q then none else d.file q := by
  simp only [resetDirs, PatchDisk.cleared]
  by_cases h1 : patchSimulationsDir p <+: q <;> by_cases h2 : patchPlotsDir p <+: q <;> simp [h1, h2]

/-- The disk after a successful iteration. -/
def donePatch (F : PatchFlags) (d : PatchDisk P) (p : APath) (x : P) : PatchDisk P :=
  (((savePatch F d p x).write (patchFigureFile p) (.figure x)).write (patchInputFile p)
    (.input x)).simulated p x (some (some true))

theorem onePatch_ok {T : PatchTools P} {F : PatchFlags} {g : Py P} {d d' : PatchDisk P} {base : APath}
    {nm : PName} {r : APath × APath} (h : onePatch T F g d base nm = (d', .ok r)) :
    ∃ d1 p x, setPatchDir d nm base (!F.load) = (d1, .ok p) ∧ obtainPatch F g d1 p = .ok x ∧
      d' = donePatch F d1 p x ∧ r = (patchInputFile p, patchOutputDir p) := by
  unfold onePatch at h
  obtain ⟨d1, p, h1, h⟩ := diskThen_ok.mp h
  obtain ⟨d2, x, h2, h⟩ := diskThen_ok.mp h
  obtain ⟨rfl, h2'⟩ := Prod.mk.inj h2
  obtain ⟨d3, y, h3, h⟩ := diskThen_ok.mp h
  obtain ⟨rfl, h3⟩ := Prod.mk.inj h3
  refine ⟨d1, p, x, h1, h2', ?_⟩
  unfold simulatePatch at h
  rcases hin : T.input x with ⟨o, e | u⟩
  · rw [hin] at h
    cases h
  · rw [hin] at h
    simp only at h
    obtain ⟨d4, y, h4, h⟩ := diskThen_ok.mp h
    obtain ⟨rfl, h4⟩ := Prod.mk.inj h4
    unfold runPatch at h
    cases hb : T.bin with
    | none => rw [hb] at h; cases h
    | some run =>
      rw [hb] at h
      simp only at h
      obtain ⟨h5, h6⟩ := Prod.mk.inj h
      rcases hrun : run x with _ | _ | _ | _
      · rw [hrun] at h6; cases h6
      · rw [hrun] at h6; cases h6
      · rw [hrun] at h6; cases h6
      · rw [hrun] at h5 h6
        cases h6
        exact ⟨h5.symm, rfl⟩

theorem onePatch_total {T : PatchTools P} {F : PatchFlags} {g : Py P} {d d1 : PatchDisk P} {base : APath}
    {nm : PName} {p : APath} {x : P} (h1 : setPatchDir d nm base (!F.load) = (d1, .ok p))
    (h2 : obtainPatch F g d1 p = .ok x) (ht : ToolsWork T x) :
    onePatch T F g d base nm = (donePatch F d1 p x, .ok (patchInputFile p, patchOutputDir p)) := by
  obtain ⟨f, hb, hf⟩ := ht.run
  have h3 := ht.input
  rcases hin : T.input x with ⟨o, e | u⟩
  · rw [hin] at h3
    cases h3
  · unfold onePatch simulatePatch
    rw [h1]
    simp only [diskThen, h2, ht.figure, hin, ht.loads, runPatch, hb, hf]
    rfl

theorem setPatchDir_frame {d d' : PatchDisk P} {nm : PName} {base : APath} {ow : Bool} {r : Py APath}
    {p : APath} (hp : joinName base nm = p) (hr : ∀ q, q <+: p → q ≠ p → d.dirs q = true)
    (h : setPatchDir d nm base ow = (d', r)) {q : APath} (hq : ¬ p <+: q) : SameAt d d' q := by
  have key : ∀ {d d1 : PatchDisk P} {r : Py Unit} {a : APath} {ow : Bool}, p <+: a →
      (∀ q, q <+: p → q ≠ p → d.dirs q = true) → d.ensureDir a ow = (d1, r) →
      ∀ {q}, ¬ p <+: q → SameAt d d1 q := by
    intro d d1 r a ow hpa hr h q hq
    unfold PatchDisk.ensureDir at h
    split at h
    · exact overwriteDir_frame hpa hr h hq
    · cases h
      exact ⟨rfl, rfl⟩
  have anc : ∀ {d d1 : PatchDisk P}, (∀ q, q <+: p → q ≠ p → d.dirs q = true) →
      (∀ {q}, ¬ p <+: q → SameAt d d1 q) → ∀ q, q <+: p → q ≠ p → d1.dirs q = true := by
    intro d d1 hr hs q h1 h2
    rw [(hs fun h' => h2 (h1.eq_of_length_le h'.length_le)).1]
    exact hr q h1 h2
  unfold setPatchDir at h
  split at h
  · cases h
    exact ⟨rfl, rfl⟩
  · simp only [hp] at h
    rcases h1 : d.ensureDir p ow with ⟨d1, r1⟩
    have f1 := fun {q} hq => key (q := q) List.prefix_rfl hr h1 hq
    have a1 := anc hr f1
    rw [h1] at h
    cases r1 with
    | error e => cases h; exact f1 hq
    | ok _ =>
      simp only [diskThen] at h
      rcases h2 : d1.ensureDir (patchDataDir p) ow with ⟨d2, r2⟩
      have f2 := fun {q} hq => key (q := q) (List.prefix_append _ _) a1 h2 hq
      have a2 := anc a1 f2
      rw [h2] at h
      cases r2 with
      | error e => cases h; exact (f1 hq).trans (f2 hq)
      | ok _ =>
        simp only at h
        rcases h3 : d2.overwriteDir (patchSimulationsDir p) with ⟨d3, r3⟩
        have f3 := fun {q} hq => overwriteDir_frame (q := q) (List.prefix_append _ _) a2 h3 hq
        have a3 := anc a2 f3
        rw [h3] at h
        cases r3 with
        | error e => cases h; exact ((f1 hq).trans (f2 hq)).trans (f3 hq)
        | ok _ =>
          simp only at h
          rcases h4 : d3.overwriteDir (patchPlotsDir p) with ⟨d4, r4⟩
          have f4 := fun {q} hq => overwriteDir_frame (q := q) (List.prefix_append _ _) a3 h4 hq
          rw [h4] at h
          cases r4 with
          | error e => cases h; exact (((f1 hq).trans (f2 hq)).trans (f3 hq)).trans (f4 hq)
          | ok _ => cases h; exact (((f1 hq).trans (f2 hq)).trans (f3 hq)).trans (f4 hq)

theorem write_frame {d : PatchDisk P} {p a q : APath} {b : PatchBlob P} (ha : p <+: a) (hq : ¬ p <+: q) :
    SameAt d (d.write a b) q := by
  refine ⟨rfl, ?_⟩
  have : q ≠ a := by
    rintro rfl
    exact hq ha
  simp [PatchDisk.write, this]

theorem simulated_frame {d : PatchDisk P} {p q : APath} {x : P} {o : Option (Option Bool)}
    (hq : ¬ p <+: q) : SameAt d (d.simulated p x o) q := by
  have hd : q ≠ patchOutputDir p := by
    rintro rfl
    exact hq ⟨_, by rw [patchOutputDir, patchSimulationsDir, List.append_assoc]⟩
  have hs : q ≠ patchScreenFile p := by
    rintro rfl
    exact hq ⟨_, by rw [patchScreenFile, patchOutputDir, patchSimulationsDir, List.append_assoc,
      List.append_assoc]⟩
  rcases o with _ | _ | b
  · exact ⟨rfl, rfl⟩
  · exact ⟨by simp [PatchDisk.simulated, hd], rfl⟩
  · exact ⟨by simp [PatchDisk.simulated, PatchDisk.write, hd],
      by simp [PatchDisk.simulated, PatchDisk.write, hs]⟩

theorem below_two (p : APath) (a b : PName) : p <+: p ++ [a] ++ [b] := ⟨[a, b], by simp⟩

theorem onePatch_frame {T : PatchTools P} {F : PatchFlags} {g : Py P} {d d' : PatchDisk P} {base : APath}
    {nm : PName} {r : Py (APath × APath)} {p : APath} (hp : joinName base nm = p)
    (hr : ∀ q, q <+: p → q ≠ p → d.dirs q = true) (h : onePatch T F g d base nm = (d', r)) {q : APath}
    (hq : ¬ p <+: q) : SameAt d d' q := by
  unfold onePatch at h
  rcases h1 : setPatchDir d nm base (!F.load) with ⟨d1, r1⟩
  have f1 := setPatchDir_frame hp hr h1 hq
  rw [h1] at h
  cases r1 with
  | error e => cases h; exact f1
  | ok p' =>
    have hpp : p' = p := by
      unfold setPatchDir at h1
      split at h1
      · cases h1
      · simp only [hp] at h1
        obtain ⟨_, _, -, h1⟩ := diskThen_ok.mp h1
        obtain ⟨_, _, -, h1⟩ := diskThen_ok.mp h1
        obtain ⟨_, _, -, h1⟩ := diskThen_ok.mp h1
        obtain ⟨_, _, -, h1⟩ := diskThen_ok.mp h1
        cases h1
        rfl
    subst hpp
    simp only [diskThen] at h
    cases h2 : obtainPatch F g d1 p' with
    | error e => rw [h2] at h; cases h; exact f1
    | ok x =>
      rw [h2] at h
      simp only at h
      have f2 : SameAt d (savePatch F d1 p' x) q := by
        unfold savePatch
        split
        · exact (f1.trans (write_frame (below_two _ _ _) hq)).trans (write_frame (below_two _ _ _) hq)
        · exact f1
      cases h3 : T.figure x with
      | error e => rw [h3] at h; cases h; exact f2
      | ok _ =>
        rw [h3] at h
        simp only at h
        have f3 : SameAt d ((savePatch F d1 p' x).write (patchFigureFile p') (.figure x)) q :=
          f2.trans (write_frame (below_two _ _ _) hq)
        unfold simulatePatch at h
        rcases hin : T.input x with ⟨o, e | u⟩
        · rw [hin] at h
          cases o with
          | true => cases h; exact f3.trans (write_frame (below_two _ _ _) hq)
          | false => cases h; exact f3
        · rw [hin] at h
          simp only at h
          have f4 := f3.trans (write_frame (d := (savePatch F d1 p' x).write (patchFigureFile p')
            (.figure x)) (a := patchInputFile p') (b := .input x) (below_two _ _ _) hq)
          cases h5 : T.loads x with
          | error e => rw [h5] at h; cases h; exact f4
          | ok _ =>
            rw [h5] at h
            simp only [diskThen, runPatch] at h
            cases hb : T.bin with
            | none => rw [hb] at h; cases h; exact f4
            | some run =>
              rw [hb] at h
              obtain ⟨h6, -⟩ := Prod.mk.inj h
              rw [← h6]
              exact f4.trans (simulated_frame hq)

end Hooke
