import Verif.Props.LinksRun
import Verif.Props.NumberFormatCases
import Verif.Props.NoisyDataset

/-!
# C125: generation and runs of Links simulations, and what is violated
-/

noncomputable section

open Classical

namespace Hooke

open Spec

/-! ## Runs -/

theorem splitText_has {p : Char → Bool} {w : Text} (hw : ∀ c ∈ w, p c = false) {s : Text} (h : w <:+: s) :
    ∃ l ∈ splitText p s, w <:+: l := by
  obtain ⟨a, b, rfl⟩ := h
  induction a with
  | nil =>
    obtain ⟨h, t, ht⟩ := splitText_prefix hw b
    refine ⟨w ++ h, ?_, (List.prefix_append w h).isInfix⟩
    rw [List.nil_append, ht]
    simp
  | cons c a ih =>
    obtain ⟨l, hl, hwl⟩ := ih
    rw [List.cons_append, List.cons_append]
    unfold splitText
    split_ifs with hc
    · exact ⟨l, List.mem_cons_of_mem _ hl, hwl⟩
    · cases hs : splitText p (a ++ w ++ b) with
      | nil => exact absurd hs (splitText_ne_nil p _)
      | cons h t =>
        rw [hs] at hl
        rcases List.mem_cons.mp hl with rfl | hl
        · exact ⟨c :: l, by simp, hwl.trans (List.suffix_cons c l).isInfix⟩
        · exact ⟨l, by simp [hl], hwl⟩

theorem fileLines_has {w : Text} (hne : w ≠ []) (hw : '\n' ∉ w) (s : Text) :
    (∃ l ∈ fileLines s, w <:+: l) ↔ w <:+: s := by
  constructor
  · rintro ⟨l, hl, hwl⟩
    refine hwl.trans (splitText_infix (p := (· == '\n')) ?_)
    unfold fileLines at hl
    split_ifs at hl
    · exact List.mem_of_mem_dropLast hl
    · exact hl
  · intro h
    obtain ⟨l, hl, hwl⟩ := splitText_has (p := (· == '\n')) (w := w) (fun c hc => by
      simp only [beq_eq_false_iff_ne]
      rintro rfl
      exact hw hc) h
    refine ⟨l, ?_, hwl⟩
    unfold fileLines
    split_ifs with hlast
    · have hl0 : l ≠ [] := by
        rintro rfl
        exact hne (List.eq_nil_of_infix_nil hwl)
      have hd : splitText (· == '\n') s = (splitText (· == '\n') s).dropLast ++ [[]] :=
        (List.dropLast_append_getLast? [] hlast).symm
      rw [hd] at hl
      rcases List.mem_append.mp hl with h | h
      · exact h
      · exact absurd (List.mem_singleton.mp h) hl0
    · exact hl

/-- **C125 (runs).** If the program runs and there is a screen file in the output directory afterwards,
the run is reported as successful exactly if the file has the sentence Links ends with.  Without the
directory or the screen file an error is raised. -/
theorem C125_run (run : LinksOutput → LinksOutput) (out : LinksOutput) :
    (runLinks (some run) out).1 = run out ∧
    (∀ screen, run out = some (some screen) → ∃ b, (runLinks (some run) out).2 = .ok b ∧
      (b = true ↔ "Program L I N K S successfully completed.".toList <:+: screen)) ∧
    ((∀ screen, run out ≠ some (some screen)) → (runLinks (some run) out).2 = .error .runtimeError) := by
  refine ⟨?_, ?_, ?_⟩
  · unfold runLinks
    cases h : run out with
    | none => simp only [h]
    | some o => cases o <;> simp only [h]
  · intro screen h
    refine ⟨(fileLines screen).any fun l => decide (successMessage <:+: l), ?_, ?_⟩
    · unfold runLinks
      simp only [h]
    · rw [List.any_eq_true]
      simp only [decide_eq_true_eq]
      exact fileLines_has (by decide) (by decide) screen
  · intro h
    unfold runLinks
    cases hr : run out with
    | none => simp only [hr]
    | some o =>
      cases o with
      | none => simp only [hr]
      | some s => exact absurd hr (h s)

/-- **C125 is violated for the output of an earlier run.** The output directory is not removed before the
run, and the exit code of the program is not used: if the program fails at once, the screen file of an
earlier successful run of a file with the same name makes it a success. -/
theorem C125_stale_violated (a b : Text) :
    (runLinks (some id) (some (some (a ++ "Program L I N K S successfully completed.".toList ++ b)))).2
      = .ok true := by
  obtain ⟨x, hx, hb⟩ := (C125_run id (some (some
    (a ++ "Program L I N K S successfully completed.".toList ++ b)))).2.1 _ rfl
  rw [hx, hb.mpr ⟨a, b, rfl⟩]

/-! ## Generation -/

/-- **C125 (parameters).** The parameters of the file: those given replace the default ones. -/
theorem C125_params {ps u : KDict String Text} (hu : u.keys.Nodup) (k : String) :
    (overrideParams ps (some u)).get? k
      = if ps.has k then (u.get? k).or (ps.get? k) else none := by
  unfold overrideParams
  dsimp only
  induction u generalizing ps with
  | nil =>
    by_cases h : ps.has k = true
    · simp [h, KDict.get?]
    · rw [if_neg h]
      simpa [KDict.has] using h
  | cons e u ih =>
    obtain ⟨k', v⟩ := e
    have hnd : (KDict.keys u).Nodup := (List.nodup_cons.mp hu).2
    have hk' : k' ∉ KDict.keys u := (List.nodup_cons.mp hu).1
    rw [List.foldl_cons, ih hnd]
    by_cases h : ps.has k' = true
    · simp only [h, if_true]
      by_cases hk : k = k'
      · subst hk
        have hn : KDict.get? u k = none := KDict.get?_eq_none.mpr hk'
        have h2 : (ps.put k v).has k = true := by simp [KDict.has]
        have h3 : KDict.get? ((k, v) :: u) k = some v := by simp [KDict.get?]
        rw [if_pos h2, if_pos h, hn, h3, KDict.get?_put_self]
        rfl
      · have h2 : (ps.put k' v).has k = ps.has k := by
          unfold KDict.has
          rw [KDict.get?_put_ne _ v hk]
        have : KDict.get? ((k', v) :: u) k = KDict.get? u k := by
          simp [KDict.get?, Ne.symm hk]
        rw [this, h2, KDict.get?_put_ne _ v hk]
    · simp only [h]
      by_cases hk : k = k'
      · subst hk
        simp [h]
      · have : KDict.get? ((k', v) :: u) k = KDict.get? u k := by
          simp [KDict.get?, Ne.symm hk]
        rw [this]
        simp

/-- The name of the file is new if files are not to be overwritten. -/
theorem inputName_spec {fuel : ℕ} {dir : KDict Text Text} {filename : Text} {ow : Bool} {n : Text}
    (h : inputName fuel dir filename ow = some n) :
    (ow = true ∨ dir.has (filename ++ ".dat".toList) = false → n = filename ++ ".dat".toList) ∧
    (ow = false → dir.has n = false) := by
  unfold inputName at h
  dsimp only at h
  split_ifs at h with hc
  · simp only [Bool.and_eq_true, Bool.not_eq_true'] at hc
    refine ⟨fun h' => ?_, fun _ => ?_⟩
    · rcases h' with h' | h'
      · rw [hc.2] at h'; cases h'
      · rw [hc.1] at h'; cases h'
    · obtain ⟨q, hq, hn⟩ := Option.map_eq_some_iff.mp h
      obtain ⟨hnot, root, ext, _, _, hcase⟩ := C64_file_new fuel _ [] _ q (by simpa using hq)
      have hsingle : q = [n] := by
        rcases hcase with ⟨_, rfl⟩ | ⟨_, i, _, rfl, _⟩
        · simp only [List.nil_append, List.headD_cons] at hn ⊢
          rw [hn]
        · simp only [List.nil_append, List.headD_cons] at hn ⊢
          rw [hn]
      rw [hsingle] at hnot
      by_contra hh
      rw [Bool.not_eq_false, KDict.has_iff] at hh
      exact hnot (by simpa using hh)
  · simp only [Option.some.injEq] at h
    subst h
    refine ⟨fun _ => rfl, fun how => ?_⟩
    subst how
    simpa using hc

/-- **C125 (ends).** The search for a new name ends. -/
theorem C125_ends (F : NumberText) (I : LinksInput) (dir : KDict Text Text) (filename : Text) (ow : Bool) :
    ∃ r, ∀ fuel, dir.length < fuel → generateInput F fuel I dir filename ow = some r := by
  have key : ∃ n, ∀ fuel, dir.length < fuel → inputName fuel dir filename ow = some n := by
    unfold inputName
    dsimp only
    split_ifs with hc
    · obtain ⟨q, hq⟩ := C64_file_ends ⟨∅, (dir.keys.map fun n => [n]).toFinset⟩ [filename ++ ".dat".toList]
      refine ⟨q.headD [], fun fuel hf => ?_⟩
      rw [hq fuel ?_]
      · rfl
      · refine le_trans (Nat.add_le_add_right (List.toFinset_card_le _) 1) ?_
        rw [List.length_map]
        unfold KDict.keys
        rw [List.length_map]
        exact hf
    · exact ⟨_, fun _ _ => rfl⟩
  obtain ⟨n, hn⟩ := key
  unfold generateInput
  exact ⟨_, fun fuel hf => by rw [hn fuel hf]; rfl⟩

theorem generateInput_eq (F : NumberText) (fuel : ℕ) (I : LinksInput) (dir : KDict Text Text)
    (filename : Text) (ow : Bool) : generateInput F fuel I dir filename ow
      = (inputName fuel dir filename ow).map fun name =>
        match prepareInput I with
        | .error e => (dir, .error e)
        | .ok (ps, m) =>
            ((writeInput F I ps m dir name).1, (writeInput F I ps m dir name).2.map fun _ => name) := by
  unfold generateInput
  congr 1
  funext name
  cases prepareInput I with
  | error e => rfl
  | ok x =>
    dsimp only
    generalize writeInput F I x.1 x.2 dir name = w
    obtain ⟨d, r⟩ := w
    cases r <;> rfl

theorem prepareInput_ok {I : LinksInput} {ps : KDict String Text} {m : PatchInput}
    (h : prepareInput I = .ok (ps, m)) :
    ∃ ps0, defaultLinksParams I.strainFormulation I.analysisType = .ok ps0 ∧ I.mesh = .ok m ∧
      checkPhases I.phases I.descs = .ok () ∧ ps = overrideParams ps0 I.user := by
  obtain ⟨ps0, h0, h⟩ := bind_ok h
  obtain ⟨m', hm, h⟩ := bind_ok h
  obtain ⟨u, hu, h⟩ := bind_ok h
  cases h
  exact ⟨ps0, h0, hm, hu, rfl⟩

theorem writeInput_other (F : NumberText) (I : LinksInput) (ps : KDict String Text) (m : PatchInput)
    (dir : KDict Text Text) (name : Text) {k : Text} (hk : k ≠ name)
    (hi : k ≠ "loading_incrementation.dat".toList ∨ I.isSaveIncrem = false) :
    (writeInput F I ps m dir name).1.get? k = dir.get? k := by
  have h2 : KDict.get? (if I.isSaveIncrem then
      (dir.put name []).put "loading_incrementation.dat".toList I.increm.flatten
      else dir.put name []) k = dir.get? k := by
    split_ifs with hs
    · rw [KDict.get?_put_ne _ _ (hi.resolve_right (by simp [hs])), KDict.get?_put_ne _ _ hk]
    · rw [KDict.get?_put_ne _ _ hk]
  unfold writeInput
  dsimp only
  cases inputText F I ps m with
  | error e => exact h2
  | ok t =>
    dsimp only
    rw [KDict.get?_put_ne _ _ hk, h2]

/-- **C125 (generation).** If a file is generated, its name is the one asked for, or one that was not in
the directory if files are not to be overwritten; it holds the header with the parameters, the material
blocks and the mesh; and no other file is changed, apart from that of the loading incrementation, if it is
to be saved. -/
theorem C125_generate {F : NumberText} {fuel : ℕ} {I : LinksInput} {dir dir' : KDict Text Text}
    {filename name : Text} {ow : Bool}
    (h : generateInput F fuel I dir filename ow = some (dir', .ok name)) :
    (ow = true ∨ dir.has (filename ++ ".dat".toList) = false → name = filename ++ ".dat".toList) ∧
    (ow = false → dir.has name = false) ∧
    (∃ (ps : KDict String Text) (m : PatchInput) (blocks : List (List Text)) (text : Text),
      defaultLinksParams I.strainFormulation I.analysisType = .ok ps ∧ I.mesh = .ok m ∧
      List.Forall₂ (fun p b => materialLines I.descs p = .ok b) I.phases blocks ∧
      writeLinksFile F I.nDim (linksParams (overrideParams ps I.user)) I.increm I.phases m.elemType
        m.nGauss blocks.flatten m.coords m.elements m.phase m.disps = .ok text ∧
      dir'.get? name = some text) ∧
    (∀ k, k ≠ name → k ≠ "loading_incrementation.dat".toList ∨ I.isSaveIncrem = false →
      dir'.get? k = dir.get? k) ∧
    (I.isSaveIncrem = true → name ≠ "loading_incrementation.dat".toList →
      dir'.get? "loading_incrementation.dat".toList = some I.increm.flatten) := by
  rw [generateInput_eq] at h
  obtain ⟨n, hn, h⟩ := Option.map_eq_some_iff.mp h
  obtain ⟨h1, h2⟩ := inputName_spec hn
  cases hp : prepareInput I with
  | error e => rw [hp] at h; cases h
  | ok x =>
    obtain ⟨ps, m⟩ := x
    rw [hp] at h
    obtain ⟨ps0, hps, hm, _, rfl⟩ := prepareInput_ok hp
    simp only [Prod.mk.injEq] at h
    obtain ⟨rfl, hr⟩ := h
    cases ht : inputText F I (overrideParams ps0 I.user) m with
    | error e => simp only [writeInput, ht, Except.map] at hr; cases hr
    | ok text =>
      have hname : n = name := by
        simp only [writeInput, ht, Except.map] at hr
        exact Except.ok.inj hr
      subst hname
      refine ⟨h1, h2, ?_, fun k hk hi => writeInput_other F I _ m dir n hk hi, ?_⟩
      · obtain ⟨blocks, hb, hw⟩ := bind_ok ht
        refine ⟨ps0, m, blocks, text, hps, hm, mapM_forall₂ hb, hw, ?_⟩
        simp only [writeInput, ht, KDict.get?_put_self]
      · intro hs hne
        simp only [writeInput, ht, hs, if_true]
        rw [KDict.get?_put_ne _ _ (Ne.symm hne), KDict.get?_put_self]

/-- **C125 (kept).** Whether the generation succeeds or not, without overwriting no file of the directory
changes (apart from that of the loading incrementation, if it is to be saved). -/
theorem C125_kept {F : NumberText} {fuel : ℕ} {I : LinksInput} {dir dir' : KDict Text Text}
    {filename : Text} {r : Py Text} (h : generateInput F fuel I dir filename false = some (dir', r))
    {k : Text} (hk : dir.has k = true)
    (hi : k ≠ "loading_incrementation.dat".toList ∨ I.isSaveIncrem = false) :
    dir'.get? k = dir.get? k := by
  rw [generateInput_eq] at h
  obtain ⟨n, hn, h⟩ := Option.map_eq_some_iff.mp h
  have h2 := (inputName_spec hn).2 rfl
  cases hp : prepareInput I with
  | error e => rw [hp] at h; cases h; rfl
  | ok x =>
    rw [hp] at h
    simp only [Prod.mk.injEq] at h
    obtain ⟨rfl, -⟩ := h
    refine writeInput_other F I _ _ dir n ?_ hi
    rintro rfl
    rw [h2] at hk
    cases hk

/-- **C125 (checks).** An unknown type of analysis, a mesh that cannot be made and a phase without
descriptors are noticed before the file is opened: no file is created or changed. -/
theorem C125_checks {F : NumberText} {fuel : ℕ} {I : LinksInput} {dir dir' : KDict Text Text}
    {filename : Text} {ow : Bool} {r : Py Text}
    (h : generateInput F fuel I dir filename ow = some (dir', r))
    (hbad : I.analysisType ∉ ["plane_stress", "plane_strain", "axisymmetric", "tridimensional"] ∨
      (∃ e, I.mesh = .error e) ∨
      ∃ p ∈ I.phases, ∀ k ∈ I.descs.keys, intOfText k ≠ .ok (p : ℤ)) :
    dir' = dir ∧ ∃ e, r = .error e := by
  rw [generateInput_eq] at h
  obtain ⟨n, hn, h⟩ := Option.map_eq_some_iff.mp h
  cases hp : prepareInput I with
  | error e => rw [hp] at h; cases h; exact ⟨rfl, e, rfl⟩
  | ok x =>
    exfalso
    obtain ⟨ps, m⟩ := x
    obtain ⟨ps0, hps, hm, hc, _⟩ := prepareInput_ok hp
    rcases hbad with hb | ⟨e, hb⟩ | ⟨p, hpm, hb⟩
    · obtain ⟨a, ha, -⟩ := bind_ok hps
      have ha := orRaise_ok.mp ha
      have hmem := KDict.mem_keys_iff.mpr ⟨a, ha⟩
      exact hb (by simpa [KDict.keys] using hmem)
    · rw [hm] at hb; cases hb
    · obtain ⟨ids, hids, hr⟩ := bind_ok hc
      have hr := raiseIf_ok.mp hr
      simp only [Bool.not_eq_false, List.all_eq_true, decide_eq_true_eq] at hr
      obtain ⟨k, hk, hkp⟩ := mapM_mem hids _ (hr p hpm)
      exact hb k hk hkp

theorem forall₂_left {α β : Type} {R : α → β → Prop} {l : List α} {r : List β}
    (h : List.Forall₂ R l r) {x : α} (hx : x ∈ l) : ∃ y ∈ r, R x y := by
  induction h with
  | nil => cases hx
  | cons h1 _ ih =>
    rcases List.mem_cons.mp hx with rfl | hx
    · exact ⟨_, by simp, h1⟩
    · obtain ⟨y, hy, hr⟩ := ih hx
      exact ⟨y, by simp [hy], hr⟩

theorem checkPhases_of {phases : List ℕ} {descs : KDict Text Descr}
    (hkeys : ∀ k ∈ descs.keys, ∃ z, intOfText k = .ok z)
    (hp : ∀ p ∈ phases, ∃ k ∈ descs.keys, intOfText k = .ok (p : ℤ)) :
    checkPhases phases descs = .ok () := by
  choose! g hg using hkeys
  unfold checkPhases
  rw [mapM_of_forall (g := g) hg]
  refine raiseIf_ok.mpr ?_
  simp only [Bool.not_eq_false, List.all_eq_true, decide_eq_true_eq]
  intro p hpm
  obtain ⟨k, hk, hkp⟩ := hp p hpm
  rw [hg k hk] at hkp
  exact List.mem_map.mpr ⟨k, hk, Except.ok.inj hkp⟩

theorem defaultParams_of {sf at_ : String}
    (h : at_ ∈ ["plane_stress", "plane_strain", "axisymmetric", "tridimensional"]) :
    ∃ ps, defaultLinksParams sf at_ = .ok ps := by
  simp only [List.mem_cons, List.not_mem_nil, or_false] at h
  rcases h with rfl | rfl | rfl | rfl <;> exact ⟨_, rfl⟩

theorem prepareInput_of {I : LinksInput} {m : PatchInput}
    (hat : I.analysisType ∈ ["plane_stress", "plane_strain", "axisymmetric", "tridimensional"])
    (hm : I.mesh = .ok m) (hkeys : ∀ k ∈ I.descs.keys, ∃ z, intOfText k = .ok z)
    (hp : ∀ p ∈ I.phases, ∃ k ∈ I.descs.keys, intOfText k = .ok (p : ℤ)) :
    ∃ ps, defaultLinksParams I.strainFormulation I.analysisType = .ok ps ∧
      prepareInput I = .ok (overrideParams ps I.user, m) := by
  obtain ⟨ps, hps⟩ := defaultParams_of (sf := I.strainFormulation) hat
  refine ⟨ps, hps, ?_⟩
  unfold prepareInput
  rw [hps, hm, checkPhases_of hkeys hp]
  rfl

/-- **C125 (success).** With a known type of analysis, a mesh, descriptors labelled with the numbers of the
phases, from which the material blocks can be written, and a mesh that can be written, the file is
generated. -/
theorem C125_success {F : NumberText} {fuel : ℕ} {I : LinksInput} {m : PatchInput}
    {dir : KDict Text Text} {filename : Text} {ow : Bool} (hf : dir.length < fuel)
    (hat : I.analysisType ∈ ["plane_stress", "plane_strain", "axisymmetric", "tridimensional"])
    (hm : I.mesh = .ok m) (hkeys : ∀ k ∈ I.descs.keys, ∃ z, intOfText k = .ok z)
    (hp : ∀ p ∈ I.phases, ∃ k ∈ I.descs.keys, intOfText k = .ok (p : ℤ))
    (hb : ∀ p ∈ I.phases, ∃ b, materialLines I.descs p = .ok b)
    (hw : ∀ ip mats, ∃ t, writeLinksFile F I.nDim ip I.increm I.phases m.elemType m.nGauss mats m.coords
      m.elements m.phase m.disps = .ok t) :
    ∃ dir' name, generateInput F fuel I dir filename ow = some (dir', .ok name) := by
  obtain ⟨ps, _, hprep⟩ := prepareInput_of hat hm hkeys hp
  choose! g hg using hb
  have hmats : I.phases.mapM (materialLines I.descs) = .ok (I.phases.map g) := mapM_of_forall hg
  obtain ⟨t, ht⟩ := hw (linksParams (overrideParams ps I.user)) (I.phases.map g).flatten
  have hin : inputText F I (overrideParams ps I.user) m = .ok t := by
    unfold inputText
    rw [hmats]
    exact ht
  obtain ⟨r, hr⟩ := C125_ends F I dir filename ow
  have hr := hr fuel hf
  rw [hr]
  rw [generateInput_eq, hprep] at hr
  obtain ⟨n, hn, hr⟩ := Option.map_eq_some_iff.mp hr
  simp only [writeInput, hin, Except.map] at hr
  exact ⟨_, n, congrArg some hr.symm⟩

/-- **C125 is violated for errors after the file is opened.** The file is opened, and emptied, before the
lines are put together: if a material model is unknown or a descriptor is missing, the earlier input file
is replaced by an empty one. -/
theorem C125_emptied_violated (F : NumberText) (fuel : ℕ) {I : LinksInput} (dir : KDict Text Text)
    (filename : Text) {m : PatchInput}
    (hat : I.analysisType ∈ ["plane_stress", "plane_strain", "axisymmetric", "tridimensional"])
    (hm : I.mesh = .ok m) (hkeys : ∀ k ∈ I.descs.keys, ∃ z, intOfText k = .ok z)
    (hp : ∀ p ∈ I.phases, ∃ k ∈ I.descs.keys, intOfText k = .ok (p : ℤ))
    (hb : ∃ p ∈ I.phases, ∃ e, materialLines I.descs p = .error e) (hs : I.isSaveIncrem = false) :
    ∃ e, generateInput F fuel I dir filename true
      = some (dir.put (filename ++ ".dat".toList) [], .error e) := by
  obtain ⟨ps, _, hprep⟩ := prepareInput_of hat hm hkeys hp
  obtain ⟨p, hpm, e, he⟩ := hb
  have hin : ∃ e', inputText F I (overrideParams ps I.user) m = .error e' := by
    unfold inputText
    cases hmats : I.phases.mapM (materialLines I.descs) with
    | error e' => exact ⟨e', rfl⟩
    | ok r =>
      obtain ⟨b, _, hy⟩ := forall₂_left (mapM_forall₂ hmats) hpm
      rw [hy] at he
      cases he
  obtain ⟨e', he'⟩ := hin
  have hn : inputName fuel dir filename true = some (filename ++ ".dat".toList) := by
    unfold inputName
    simp
  refine ⟨e', ?_⟩
  rw [generateInput_eq, hn, hprep]
  simp [writeInput, he', hs, Except.map]

/-- **C125 is violated for labels with leading zeros.** The check of the descriptors reads the labels as
numbers, the writing looks for the texts of the numbers: the label `01` passes the check of phase 1,
and its descriptors are not found after the file has been emptied. -/
theorem C125_labels_violated (F : NumberText) (fuel : ℕ) {I : LinksInput} (dir : KDict Text Text)
    (filename : Text) {m : PatchInput} {d : Descr}
    (hat : I.analysisType ∈ ["plane_stress", "plane_strain", "axisymmetric", "tridimensional"])
    (hm : I.mesh = .ok m) (hd : I.descs = [("01".toList, d)]) (hp : I.phases = [1])
    (hs : I.isSaveIncrem = false) :
    generateInput F fuel I dir filename true
      = some (dir.put (filename ++ ".dat".toList) [], .error .keyError) := by
  have h01 : intOfText "01".toList = .ok 1 := by decide +kernel
  obtain ⟨ps, _, hprep⟩ := prepareInput_of hat hm
    (by rw [hd]; intro k hk; simp only [KDict.keys, List.map_cons, List.map_nil, List.mem_singleton] at hk
        exact ⟨1, by rw [hk]; exact h01⟩)
    (by rw [hd, hp]; intro p hp; rw [List.mem_singleton] at hp
        exact ⟨"01".toList, by simp [KDict.keys], by rw [hp]; exact h01⟩)
  have hin : inputText F I (overrideParams ps I.user) m = .error .keyError := by
    unfold inputText
    rw [hd, hp]
    rfl
  have hn : inputName fuel dir filename true = some (filename ++ ".dat".toList) := by
    unfold inputName
    simp
  rw [generateInput_eq, hn, hprep]
  simp [writeInput, hin, hs, Except.map]

/-- **C125 is violated for the loading incrementation.** Its file is replaced also if files are not to be
overwritten. -/
theorem C125_increments_violated {F : NumberText} {fuel : ℕ} {I : LinksInput} {dir dir' : KDict Text Text}
    {filename name : Text} (h : generateInput F fuel I dir filename false = some (dir', .ok name))
    (hs : I.isSaveIncrem = true) {old : Text}
    (hold : dir.get? "loading_incrementation.dat".toList = some old) :
    dir'.get? "loading_incrementation.dat".toList = some I.increm.flatten := by
  obtain ⟨-, h2, -, -, h5⟩ := C125_generate h
  refine h5 hs ?_
  rintro rfl
  have := h2 rfl
  rw [KDict.has, hold] at this
  cases this

/-- **C125 is violated for parameters with unknown names.** They are ignored without an error. -/
theorem C125_unknown_violated (F : NumberText) (fuel : ℕ) (I : LinksInput) (dir : KDict Text Text)
    (filename : Text) (ow : Bool) (v : Text) :
    generateInput F fuel { I with user := some [("VTK_OUTPUT", v)] } dir filename ow
      = generateInput F fuel { I with user := none } dir filename ow := by
  have h : prepareInput { I with user := some [("VTK_OUTPUT", v)] } = prepareInput { I with user := none } := by
    unfold prepareInput
    dsimp only
    cases hps : defaultLinksParams I.strainFormulation I.analysisType with
    | error e => rfl
    | ok ps =>
      have : overrideParams ps (some [("VTK_OUTPUT", v)]) = ps := by
        obtain ⟨a, _, hps⟩ := bind_ok hps
        cases hps
        rfl
      simp only [bind, Except.bind]
      rw [this]
      rfl
  rw [generateInput_eq, generateInput_eq, h]
  rfl

/-- **C125 is violated for negative numbers with exponents of three digits.** They fill the sixteen columns,
and no blank separates them from the next number. -/
theorem C125_glued_violated {p : ℕ} {d : Descr} {x y : ℝ} (hx : NumberAt d "yield_c_init" x)
    (hy : NumberAt d "c_hard_slope" y) (hneg : x < 0) (he : 100 ≤ (sciParts 8 x).2.natAbs)
    (hm : Moderate y) :
    ∃ l, numberLine p d ["yield_c_init", "c_hard_slope"] = .ok l ∧ (splitBlank l).length = 1 := by
  refine ⟨descSpacing p ++ ([x, y].map leftField).flatten ++ ['\n'], ?_, ?_⟩
  · simp only [numberLine, descNumbers_of (xs := [x, y]) (.cons hx (.cons hy .nil)), bind, Except.bind]
  · have hl : 16 ≤ (sciText 8 x).length := by
      rw [sciText_length, if_pos hneg]
      have : 3 ≤ (zeroPad 2 (strNat (sciParts 8 x).2.natAbs)).length := by
        unfold zeroPad
        rw [List.length_append]
        have : 3 ≤ (strNat (sciParts 8 x).2.natAbs).length := by
          unfold strNat
          rw [if_neg (by omega), List.length_reverse, List.length_map]
          exact (Nat.lt_digits_length_iff (by norm_num) _).mpr (by omega)
        omega
      omega
    have hlf : leftField x = sciText 8 x := by
      unfold leftField padRight
      rw [Nat.sub_eq_zero_of_le hl]
      simp
    have hly : (sciText 8 y).length ≤ 15 := by
      rw [sciText_length, exponent_length (exponent_small hm)]
      split_ifs <;> omega
    obtain ⟨k, hk⟩ : ∃ k, 16 - (sciText 8 y).length = k + 1 := ⟨15 - (sciText 8 y).length, by omega⟩
    have : descSpacing p ++ ([x, y].map leftField).flatten ++ ['\n']
        = descSpacing p ++ ((sciText 8 x ++ sciText 8 y) ++ ' ' :: (List.replicate k ' ' ++ ['\n'])) := by
      simp only [List.map_cons, List.map_nil, List.flatten_cons, List.flatten_nil, List.append_nil, hlf]
      unfold leftField padRight
      rw [hk, List.replicate_succ]
      simp
    rw [this]
    unfold descSpacing
    rw [splitBlank_blanks, splitBlank_append (by decide), splitBlank_blanks, splitBlank_word]
    · rfl
    · simp [sciText_ne_nil]
    · intro c hc
      rcases List.mem_append.mp hc with hc | hc
      · exact isBlankChar_numeral (sciText_char 8 x c hc)
      · exact isBlankChar_numeral (sciText_char 8 y c hc)

/-! ## A case -/

/-- A von Mises material. -/
def steelDescr : Descr :=
  [("name", .text "VON_MISES".toList), ("density", .num 1), ("young", .num 110000), ("poisson", .num (1/2)),
    ("n_hard_point", .count 2), ("hardening_law", .law fun e => .ok (900 + 100 * e)),
    ("hardening_parameters", .params)]

theorem moderate_of {x : ℝ} (h1 : 1 / 10 ≤ x) (h2 : x ≤ 10 ^ 9) : Moderate x := by
  refine .inr ⟨?_, ?_⟩
  · rw [abs_of_nonneg (by linarith)]
    refine le_trans ?_ h1
    norm_num
  · rw [abs_of_nonneg (by linarith)]
    refine lt_of_le_of_lt h2 ?_
    norm_num

/-- The block of phase 2: density, elastic constants, two points. -/
example : ∃ lines, materialLines [("2".toList, steelDescr)] 2 = .ok lines ∧
    MaterialBlock 2 "VON_MISES".toList [[1], [110000, 1/2], [2], [0, 900], [2, 1100]] lines := by
  have h := C125_vonMises (descs := [("2".toList, steelDescr)]) (p := 2) (d := steelDescr) rfl rfl
    (ρ := 1) (E := 110000) (ν := 1/2) (.inl rfl) (.inl rfl) (.inl rfl) (by
      intro x hx
      simp only [List.mem_cons, List.not_mem_nil, or_false] at hx
      rcases hx with rfl | rfl | rfl <;> exact moderate_of (by norm_num) (by norm_num))
    (n := 2) (f := fun e => .ok (900 + 100 * e)) rfl rfl rfl (rows := [[0, 900], [2, 1100]])
    ⟨fun i => 900 + 200 * i, by
      intro i hi
      norm_num
      ring, by
      simp only [List.range_succ, List.range_zero, List.nil_append, List.map_cons,
        List.map_nil, List.cons_append]
      norm_num⟩ (by
      intro r hr x hx
      simp only [List.mem_cons, List.not_mem_nil, or_false] at hr
      rcases hr with rfl | rfl
      · simp only [List.mem_cons, List.not_mem_nil, or_false] at hx
        rcases hx with rfl | rfl
        · exact .inl rfl
        · exact moderate_of (by norm_num) (by norm_num)
      · simp only [List.mem_cons, List.not_mem_nil, or_false] at hx
        rcases hx with rfl | rfl <;> exact moderate_of (by norm_num) (by norm_num))
  simpa using h

/-- An input with that material and a mesh. -/
def steelInput (m : PatchInput) : LinksInput :=
  ⟨"infinitesimal", "plane_strain", 2, none, .ok m, [2], [("2".toList, steelDescr)], [], false⟩

/-- The checks pass for it. -/
example (m : PatchInput) : ∃ ps, prepareInput (steelInput m) = .ok (ps, m) := by
  have h2 : intOfText "2".toList = .ok 2 := by decide +kernel
  obtain ⟨ps, _, h⟩ := prepareInput_of (I := steelInput m) (m := m) (by simp [steelInput]) rfl
    (by intro k hk
        simp only [steelInput, KDict.keys, List.map_cons, List.map_nil, List.mem_singleton] at hk
        exact ⟨2, by rw [hk]; exact h2⟩)
    (by intro p hp
        simp only [steelInput, List.mem_singleton] at hp
        exact ⟨"2".toList, by simp [steelInput, KDict.keys], by rw [hp]; exact h2⟩)
  exact ⟨_, h⟩

end Hooke
