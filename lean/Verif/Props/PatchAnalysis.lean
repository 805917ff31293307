import Verif.Spec.PatchAnalysis

/-!
# C166: directories of the analysis of a material patch
-/

noncomputable section

open Classical

namespace Hooke

open Spec

theorem below_iff {p q : APath} : Below p q ↔ p <+: q :=
  ⟨fun ⟨r, h⟩ => ⟨r, h.symm⟩, fun ⟨r, h⟩ => ⟨r, h.symm⟩⟩

theorem analysis_dir {fs : DataFs} {base : APath} {name : PName} (hb : fs.isDir base)
    (hn : fs.file (base ++ [name]) = none) :
    setAnalysisDir fs base name = .ok (((fs.freshDir (base ++ [name])).mkdir (finderDir base name)).mkdir
      (base ++ [name] ++ ["material_model_performance".toList])) := by
  unfold setAnalysisDir
  rw [raiseIf, if_neg (not_not.mpr hb), raiseIf, if_neg (by rw [hn]; simp)]
  rfl

theorem not_prefix_length {p q : APath} (h : q.length < p.length) : ¬ p <+: q := fun hp => by
  have := hp.length_le
  omega

/-- **C166 (analysis).** If the directory of the patch exists, and the input file and the directory with the
node data are outside the directory of the analysis and have different names, the directory of the analysis
then consists of an empty directory for the performance and the directory of the finder with the simulation,
which holds a copy of the input file and a copy of the node data and nothing else; what it held before is
gone, and nothing else has changed. -/
theorem C166_analysis {fs : DataFs} {base inp csv : APath} {name : PName} {t : Text}
    (hb : fs.isDir base) (hn : fs.file (base ++ [name]) = none) (hi : fs.file inp = some t)
    (hc : fs.isDir csv) (hio : ¬ Below (base ++ [name]) inp) (hco : ¬ Below (base ++ [name]) csv)
    (hac : ¬ Below csv (base ++ [name])) (hne : lastName inp ≠ lastName csv) :
    ∃ fs' sim, sim = base ++ [name, "material_model_finder".toList, "0_simulation".toList] ∧
      patchAnalysis fs base name inp csv = (fs', .ok (sim, sim ++ [lastName inp], sim ++ [lastName csv])) ∧
      UnchangedOutside fs fs' (base ++ [name]) ∧ fs'.file (sim ++ [lastName inp]) = some t ∧
      CopiedTree fs fs' csv (sim ++ [lastName csv]) ∧
      (∀ q, Below (base ++ [name]) q → fs'.file q ≠ none →
        q = sim ++ [lastName inp] ∨ Below (sim ++ [lastName csv]) q) ∧
      ∀ q, Below (base ++ [name]) q → (fs'.isDir q ↔ q = base ++ [name] ∨
        q = base ++ [name, "material_model_finder".toList] ∨
        q = base ++ [name, "material_model_performance".toList] ∨ q = sim ∨
        Below (sim ++ [lastName csv]) q ∧ fs'.isDir q) := by
  rw [below_iff] at hio hco hac
  set a : APath := base ++ [name] with ha
  set fin : APath := finderDir base name with hfin
  have hfin' : fin = a ++ ["material_model_finder".toList] := rfl
  set sim : APath := fin ++ ["0_simulation".toList] with hsim
  have las : a <+: sim := by
    rw [hsim, hfin', List.append_assoc]
    exact List.prefix_append _ _
  have lsim : sim.length = a.length + 2 := by
    rw [hsim, hfin']
    simp
  set fs1 : DataFs := ((fs.freshDir a).mkdir fin).mkdir (a ++ ["material_model_performance".toList]) with hfs1
  have d1 : ∀ q, fs1.isDir q ↔ q = a ++ ["material_model_performance".toList] ∨ q = fin ∨ q = a ∨
      fs.isDir q ∧ ¬ a <+: q := fun q => Iff.rfl
  have f1 : ∀ q, fs1.file q = if a <+: q then none else fs.file q := fun q => rfl
  have e1 : setAnalysisDir fs base name = .ok fs1 := analysis_dir hb hn
  set fs2 : DataFs := (fs1.freshDir sim).write (sim ++ [lastName inp]) t with hfs2
  have d2 : ∀ q, fs2.isDir q ↔ q = sim ∨ fs1.isDir q ∧ ¬ sim <+: q := fun q => Iff.rfl
  have f2 : ∀ q, fs2.file q = if q = sim ++ [lastName inp] then some t else
      if sim <+: q then none else fs1.file q := fun q => rfl
  have out : ∀ q, ¬ a <+: q → (fs2.isDir q ↔ fs.isDir q) ∧ fs2.file q = fs.file q := by
    intro q hq
    have hs : ¬ sim <+: q := fun h => hq (las.trans h)
    have hq1 : q ≠ sim := fun h => hs (by rw [h])
    have hq2 : q ≠ a := fun h => hq (by rw [h])
    have hq3 : q ≠ fin := fun h => hq (by rw [h, hfin']; exact List.prefix_append _ _)
    have hq4 : q ≠ a ++ ["material_model_performance".toList] :=
      fun h => hq (by rw [h]; exact List.prefix_append _ _)
    have hq5 : q ≠ sim ++ [lastName inp] := fun h => hs (by rw [h]; exact List.prefix_append _ _)
    constructor
    · rw [d2, d1]
      simp only [hq1, hq2, hq3, hq4, hq, hs, false_or, not_false_eq_true, and_true]
    · rw [f2, if_neg hq5, if_neg hs, f1, if_neg hq]
  have hin : (fs1.freshDir sim).file inp = some t := by
    have hs : ¬ sim <+: inp := fun h => hio (las.trans h)
    change (if sim <+: inp then none else fs1.file inp) = some t
    rw [if_neg hs, f1, if_neg hio, hi]
  have hdst : sim <+: sim ++ [lastName csv] := List.prefix_append _ _
  have hcd : ¬ (¬ fs2.isDir csv ∨ fs2.isDir (sim ++ [lastName csv]) ∨
      (fs2.file (sim ++ [lastName csv])).isSome = true) := by
    rintro (h | h | h)
    · exact h ((out csv hco).1.mpr hc)
    · rw [d2] at h
      rcases h with h | h
      · have := congrArg List.length h
        simp at this
      · exact h.2 hdst
    · rw [f2, if_neg (fun h => hne (by simpa using h.symm)), if_pos hdst] at h
      cases h
  have hres : patchAnalysis fs base name inp csv =
      (fs2.copyTree csv (sim ++ [lastName csv]), .ok (sim, sim ++ [lastName inp], sim ++ [lastName csv])) := by
    unfold patchAnalysis
    rw [e1]
    dsimp only
    unfold setSimulationDir
    rw [if_neg (not_not.mpr ((d1 fin).mpr (Or.inr (Or.inl rfl))))]
    dsimp only
    rw [hin]
    dsimp only
    rw [if_neg hcd]
  set dst : APath := sim ++ [lastName csv] with hdst'
  have d3 : ∀ q, (fs2.copyTree csv dst).isDir q ↔
      if dst <+: q then fs2.isDir (csv ++ q.drop dst.length) else fs2.isDir q := fun q => Iff.rfl
  have f3 : ∀ q, (fs2.copyTree csv dst).file q =
      if dst <+: q then fs2.file (csv ++ q.drop dst.length) else fs2.file q := fun q => rfl
  have ldst : dst.length = a.length + 3 := by
    rw [hdst', List.length_append, lsim]
    rfl
  refine ⟨_, sim, ?_, hres, ?_, ?_, ?_, ?_, ?_⟩
  · rw [hsim, hfin', ha]
    simp
  · intro q hq
    rw [below_iff] at hq
    have hd : ¬ dst <+: q := fun h => hq ((las.trans hdst).trans h)
    rw [d3, if_neg hd, f3, if_neg hd]
    exact out q hq
  · have hd : ¬ dst <+: sim ++ [lastName inp] := by
      intro h
      have := h.eq_of_length (by rw [hdst']; simp)
      exact hne (by simpa [hdst'] using this.symm)
    rw [f3, if_neg hd, f2, if_pos rfl]
  · intro r
    have hd : dst <+: dst ++ r := List.prefix_append _ _
    have hr : ¬ a <+: csv ++ r := by
      intro h
      rcases List.prefix_or_prefix_of_prefix h (List.prefix_append csv r) with h1 | h1
      · exact hco h1
      · exact hac h1
    rw [d3, if_pos hd, f3, if_pos hd, List.drop_left]
    exact out _ hr
  · intro q hq hf
    rw [below_iff] at hq ⊢
    by_cases hd : dst <+: q
    · exact Or.inr hd
    · left
      by_contra hne2
      refine hf ?_
      rw [f3, if_neg hd, f2, if_neg hne2, f1, if_pos hq]
      split_ifs <;> rfl
  · intro q hq
    rw [below_iff] at hq
    have ep : base ++ [name, "material_model_performance".toList] =
      a ++ ["material_model_performance".toList] := by rw [ha]; simp
    have ef : base ++ [name, "material_model_finder".toList] = fin := by rw [hfin', ha]; simp
    rw [ep, ef, below_iff]
    by_cases hd : dst <+: q
    · have hl := hd.length_le
      have h1 : q ≠ a := fun h => by rw [h] at hl; omega
      have h2 : q ≠ fin := fun h => by rw [h, hfin'] at hl; simp at hl; omega
      have h3 : q ≠ a ++ ["material_model_performance".toList] := fun h => by rw [h] at hl; simp at hl; omega
      have h4 : q ≠ sim := fun h => by rw [h] at hl; omega
      constructor
      · exact fun h => Or.inr (Or.inr (Or.inr (Or.inr ⟨hd, h⟩)))
      · rintro (h | h | h | h | h)
        · exact absurd h h1
        · exact absurd h h2
        · exact absurd h h3
        · exact absurd h h4
        · exact h.2
    · rw [d3, if_neg hd, d2, d1]
      constructor
      · rintro (h | ⟨h | h | h | h, -⟩)
        · exact Or.inr (Or.inr (Or.inr (Or.inl h)))
        · exact Or.inr (Or.inr (Or.inl h))
        · exact Or.inr (Or.inl h)
        · exact Or.inl h
        · exact absurd hq h.2
      · rintro (h | h | h | h | h)
        · exact Or.inr ⟨Or.inr (Or.inr (Or.inl h)), not_prefix_length (by rw [h]; omega)⟩
        · exact Or.inr ⟨Or.inr (Or.inl h), not_prefix_length (by rw [h, hfin']; simp; omega)⟩
        · exact Or.inr ⟨Or.inl h, not_prefix_length (by rw [h]; simp; omega)⟩
        · exact Or.inl h
        · exact absurd h.1 hd

/-- **C166 is violated for input files in the directory of the analysis.** If the input file is below the
directory of the analysis, as for a patch named as the directory of its simulation, the call deletes it and
then fails for lack of it. -/
theorem C166_deleted_violated {fs : DataFs} {base inp csv : APath} {name : PName}
    (hb : fs.isDir base) (hn : fs.file (base ++ [name]) = none) (hio : Below (base ++ [name]) inp) :
    ∃ fs', patchAnalysis fs base name inp csv = (fs', .error .osError) ∧
      ∀ q, Below (base ++ [name]) q → fs'.file q = none := by
  have e1 := analysis_dir hb hn
  rw [below_iff] at hio
  refine ⟨(((fs.freshDir (base ++ [name])).mkdir (finderDir base name)).mkdir
      (base ++ [name] ++ ["material_model_performance".toList])).freshDir
      (finderDir base name ++ ["0_simulation".toList]), ?_, ?_⟩
  · unfold patchAnalysis
    rw [e1]
    dsimp only
    unfold setSimulationDir
    have hf : (((fs.freshDir (base ++ [name])).mkdir (finderDir base name)).mkdir
      (base ++ [name] ++ ["material_model_performance".toList])).isDir (finderDir base name) :=
      Or.inr (Or.inl rfl)
    rw [if_neg (not_not.mpr hf)]
    dsimp only
    have : ((((fs.freshDir (base ++ [name])).mkdir (finderDir base name)).mkdir
      (base ++ [name] ++ ["material_model_performance".toList])).freshDir
      (finderDir base name ++ ["0_simulation".toList])).file inp = none := by
      change (if _ then none else if (base ++ [name]) <+: inp then none else fs.file inp) = none
      rw [if_pos hio]
      split_ifs <;> rfl
    rw [this]
  · intro q hq
    rw [below_iff] at hq
    change (if _ then none else if (base ++ [name]) <+: q then none else fs.file q) = none
    rw [if_pos hq]
    split_ifs <;> rfl

/-- **C166 (refusals).** A directory of the patch that does not exist and a file in the place of the directory
of the analysis are refused without a change. -/
theorem C166_refusals {fs : DataFs} {base inp csv : APath} {name : PName} :
    (¬ fs.isDir base → patchAnalysis fs base name inp csv = (fs, .error .runtimeError)) ∧
    (fs.isDir base → (fs.file (base ++ [name])).isSome = true →
      patchAnalysis fs base name inp csv = (fs, .error .osError)) := by
  constructor
  · intro h
    unfold patchAnalysis setAnalysisDir
    rw [raiseIf, if_pos h]
    rfl
  · intro h h'
    unfold patchAnalysis setAnalysisDir
    rw [raiseIf, if_neg (not_not.mpr h), raiseIf, if_pos h']
    rfl

/-- A patch with an input file and node data in its simulation directory. -/
example : ∃ fs : DataFs, ∃ base inp csv : APath, ∃ name : PName, fs.isDir base ∧
    fs.file (base ++ [name]) = none ∧ fs.file inp = some "*NODE".toList ∧ fs.isDir csv ∧
    ¬ Below (base ++ [name]) inp ∧ ¬ Below (base ++ [name]) csv ∧ ¬ Below csv (base ++ [name]) ∧
    lastName inp ≠ lastName csv := by
  refine ⟨⟨fun _ => True, fun q => if q = ["patch_0".toList, "simulations".toList, "patch.inp".toList] then
    some "*NODE".toList else none⟩, ["patch_0".toList],
    ["patch_0".toList, "simulations".toList, "patch.inp".toList],
    ["patch_0".toList, "simulations".toList, "csv".toList], "patch".toList, trivial, ?_, ?_, trivial,
    ?_, ?_, ?_, ?_⟩
  · dsimp only
    rw [if_neg (by decide)]
  · dsimp only
    rw [if_pos rfl]
  · rw [below_iff]
    decide
  · rw [below_iff]
    decide
  · rw [below_iff]
    decide
  · decide

end Hooke
