import Verif.Props.PatchRunsCases
import Verif.Props.PatchSolidCases

/-!
# C142: generation of random material patches (data set, parameters of the script, violated clauses)
-/

namespace Hooke

open Spec Matrix

variable {P : Type}

/-! ### The data set of local paths -/

theorem root_of_prefix {base : APath} {w v : PName} (h : base ++ [v] <+: base ++ [w]) : v = w :=
  sibling_prefix h List.prefix_rfl

/-- **C142f.** After a run for at least two patches in a directory without earlier ones, the data set
of local paths is made of all the patches, in the order of their numbers. -/
theorem C142_dataset {T : PatchTools P} {save : Bool} {gen : ℕ → Py P} {n : ℕ} (hn : 2 ≤ n)
    {base : APath} {name : PName} {d d' : PatchDisk P} {out : KDict Text (APath × APath)} (hs : Sound d)
    (hb : d.dirs base = true) (hno : NoNumbered d base name)
    (h : generatePatches T ⟨save, false⟩ gen n base name d = (d', .ok out)) {names : List Text}
    (hl : ListsDir d' base names) {α : Type} {paths : Text → Py (List α)} {part : ℕ → List α}
    (hp : ∀ i < n, paths (name ++ '_' :: strNat i) = .ok (part i)) (root : Text) :
    patchesDataset root name (some names) paths = .ok ((List.range n).map part).flatten := by
  have hf : NameFits name n := fun h1 => by omega
  have hroot : ∀ i, patchRoot base name n i = base ++ [name ++ '_' :: strNat i] := by
    intro i
    rw [patchRoot, if_neg (by omega)]
    simp
  have hpat : ∀ i, ∃ v : Text, v ≠ [] ∧ (∀ x ∈ v, x.isDigit = true) ∧
      (name ++ '_' :: strNat i = name ++ '_' :: v ∨ name ++ '_' :: strNat i = name ++ '_' :: v ++ ['\n']) :=
    fun i => ⟨strNat i, strNat_ne_nil i, fun x hx => isDigit_of_mem_strNat hx, Or.inl rfl⟩
  have hnf : ∀ i < n, d.file (patchRoot base name n i) = none := by
    intro i _
    by_contra hne
    rw [hroot] at hne
    exact hno _ (Or.inr hne) (hpat i)
  have hdone := ((C142_generate hs hb hf hnf h).1 out rfl).1
  have hmem : ∀ i < n, name ++ '_' :: strNat i ∈ names := by
    intro i hi
    obtain ⟨x, -, hsim, -⟩ := hdone i hi
    rw [hl.2, ← hroot]
    exact Or.inl hsim.root
  have hnum : ∀ w ∈ names, isPatchDir name w = true → ∃ i < n, w = name ++ '_' :: strNat i := by
    intro w hw hpd
    by_contra hcon
    push Not at hcon
    have hsame : SameAt d d' (base ++ [w]) := C142_frame hs hb hf h fun i hi hpre => by
      rw [hroot] at hpre
      exact hcon i hi (root_of_prefix hpre).symm
    have := (hl.2 w).mp hw
    rw [hsame.1, hsame.2] at this
    exact hno w this (isPatchDir_iff.mp hpd)
  refine C134_patches (ids := List.range n) ⟨List.pairwise_lt_range, names.filter fun w =>
    !isPatchDir name w, ?_, ?_⟩ (by simp; omega) ?_
  · have hfil : (names.filter (isPatchDir name)).Perm
        ((List.range n).map fun k : ℕ => name ++ '_' :: strNat k) := by
      refine (List.perm_ext_iff_of_nodup (hl.1.filter _) ?_).mpr fun w => ?_
      · refine List.nodup_range.map ?_
        intro a b hab
        have := List.append_cancel_left hab
        exact strNat_inj (List.cons.inj this).2
      · rw [List.mem_filter, List.mem_map]
        constructor
        · rintro ⟨h1, h2⟩
          obtain ⟨i, hi, rfl⟩ := hnum w h1 h2
          exact ⟨i, List.mem_range.mpr hi, rfl⟩
        · rintro ⟨i, hi, rfl⟩
          exact ⟨hmem i (List.mem_range.mp hi), isPatchDir_iff.mpr (hpat i)⟩
    exact (List.filter_append_perm (isPatchDir name) names).symm.trans (hfil.append_right _)
  · intro o ho
    have := (List.mem_filter.mp ho).2
    rw [Bool.not_eq_true'] at this
    intro hc
    rw [isPatchDir_iff.mpr hc] at this
    cases this
  · rw [List.forall₂_map_right_iff, List.forall₂_same]
    intro i hi
    exact hp i (List.mem_range.mp hi)

/-- **C142 is violated for a single patch.** Its directory has no number, and the data set of local
paths cannot be built: a RuntimeError. -/
theorem C142_single_violated {T : PatchTools P} {F : PatchFlags} {gen : ℕ → Py P} {base : APath}
    {name : PName} {d d' : PatchDisk P} {res : Py (KDict Text (APath × APath))} (hs : Sound d)
    (hb : d.dirs base = true) (hf : NameFits name 1) (hno : NoNumbered d base name)
    (h : generatePatches T F gen 1 base name d = (d', res)) {names : List Text}
    (hl : ListsDir d' base names) {α : Type} (paths : Text → Py (List α)) (root : Text) :
    patchesDataset root name (some names) paths = .error .runtimeError := by
  have hfil : names.filter (isPatchDir name) = [] := by
    rw [List.filter_eq_nil_iff]
    intro w hw hpd
    by_cases hwn : w = name
    · obtain ⟨v, -, -, hv | hv⟩ := isPatchDir_iff.mp hpd
      · have := congrArg List.length (hwn.symm.trans hv)
        simp at this
      · have := congrArg List.length (hwn.symm.trans hv)
        simp at this
    · have hsame : SameAt d d' (base ++ [w]) := C142_frame hs hb hf h fun i hi hpre => by
        rw [patchRoot, if_pos rfl] at hpre
        exact hwn (root_of_prefix hpre).symm
      have := (hl.2 w).mp hw
      rw [hsame.1, hsame.2] at this
      exact hno w this (isPatchDir_iff.mp hpd)
  unfold patchesDataset patchDirs
  simp only [orRaise, bind, Except.bind, raiseIf]
  by_cases hnil : names = []
  · simp only [if_pos hnil]
  · simp only [if_neg hnil, if_pos hfil]

/-! ### Data that is lost -/

/-- **C142 is violated for patches that are not admissible.** The data of an earlier run is deleted
before the new patch is generated: if it is not, nothing of the old one is left. -/
theorem C142_regenerate_violated {T : PatchTools P} {save : Bool} {gen : ℕ → Py P} {n : ℕ} (hn : 0 < n)
    {base : APath} {name : PName} {d : PatchDisk P} (hs : Sound d) (hb : d.dirs base = true)
    (hf : NameFits name n) (hnf : d.file (patchRoot base name n 0) = none) {e : PyErr}
    (hg : gen 0 = .error e) :
    ∃ d', generatePatches T ⟨save, false⟩ gen n base name d = (d', .error e) ∧
      ∀ q, patchRoot base name n 0 <+: q → d'.file q = none := by
  have hbase := base_of_sound hs hb
  refine ⟨freshDirs d (patchRoot base name n 0), ?_, fun q hq => by rw [freshDirs_file, if_pos hq]⟩
  obtain ⟨m, rfl⟩ : ∃ m, n = m + 1 := ⟨n - 1, by omega⟩
  unfold generatePatches patchesLoop onePatch
  rw [Bool.not_false, setPatchDir_fresh hb (patchRoot_eq hn hf) (rooted_of_base hbase)
    (tidy_of_sound hs hnf)]
  simp only [diskThen, obtainPatch, hg, Bool.false_eq_true, if_false]

/-- **C142 is violated for saved patches that are missing.** The results of an earlier simulation are
deleted before the file of the patch is looked for: a RuntimeError, and no results. -/
theorem C142_load_violated {T : PatchTools P} {save : Bool} {gen : ℕ → Py P} {n : ℕ} (hn : 0 < n)
    {base : APath} {name : PName} {d : PatchDisk P} (hs : Sound d) (hb : d.dirs base = true)
    (hf : NameFits name n) {x : P} (hsim : Simulated d (patchRoot base name n 0) x)
    (hd : d.dirs (patchRoot base name n 0 ++ ["material_patch".toList]) = true)
    (hpl : d.file (patchRoot base name n 0 ++ ["plots".toList]) = none)
    (hmiss : d.file (patchRoot base name n 0 ++
      ["material_patch".toList, "material_patch.pkl".toList]) = none) :
    ∃ d', generatePatches T ⟨save, true⟩ gen n base name d = (d', .error .runtimeError) ∧
      ∀ q, patchRoot base name n 0 ++ ["simulations".toList] <+: q ∨
        patchRoot base name n 0 ++ ["plots".toList] <+: q → d'.file q = none := by
  have hbase := base_of_sound hs hb
  refine ⟨resetDirs d (patchRoot base name n 0), ?_, fun q hq => by
    rw [resetDirs_file]
    exact if_pos hq⟩
  obtain ⟨m, rfl⟩ : ∃ m, n = m + 1 := ⟨n - 1, by omega⟩
  unfold generatePatches patchesLoop onePatch
  rw [Bool.not_true, setPatchDir_load hb (patchRoot_eq hn hf) (rooted_of_base hbase) hsim.root
    (hs.2 _ hsim.root) hd (tidy_of_sound hs (hs.2 _ hsim.folder)) (tidy_of_sound hs hpl)]
  simp only [diskThen, obtainPatch, if_true]
  rw [patchFile_eq, reset_data, hmiss]

/-- **C142 is violated for an empty name.** A single patch without a name is generated in the base
directory itself, and everything else in it is deleted. -/
theorem C142_name_violated {T : PatchTools P} {save : Bool} {gen : ℕ → Py P} {base : APath}
    {d : PatchDisk P} (hs : Sound d) (hb : d.dirs base = true) {x : P} (hg : gen 0 = .ok x)
    (hw : ToolsWork T x) :
    ∃ d' out, generatePatches T ⟨save, false⟩ gen 1 base [] d = (d', .ok out) ∧ NoLeftovers d' base := by
  have hbase := base_of_sound hs hb
  have h1 : setPatchDir d (patchDirName 1 [] 0) base true = (freshDirs d base, .ok base) :=
    setPatchDir_fresh hb (by simp [joinName, patchDirName]) (fun q hq _ => hbase q hq)
      (tidy_of_sound hs (hbase base List.prefix_rfl).2)
  have h2 := onePatch_total (T := T) (F := ⟨save, false⟩) (g := gen 0) h1 hg hw
  refine ⟨_, [(strNat 0, patchInputFile base, patchOutputDir base)], ?_, noLeftovers_of_done
    (d := freshDirs d base) (F := ⟨save, false⟩) (x := x) fun q hq => by rw [freshDirs_file, if_pos hq]⟩
  unfold generatePatches patchesLoop
  rw [h2]
  rfl

/-! ### The parameters of the script -/

theorem get?_const {β : Type} (v : β) (k : String) (ks : List String) :
    KDict.get? (ks.map fun s => (s, v)) k = if k ∈ ks then some v else none := by
  induction ks with
  | nil => rfl
  | cons a ks ih =>
    rw [List.map_cons, KDict.get?]
    by_cases h : a = k
    · rw [if_pos h, if_pos (by simp [h])]
    · rw [if_neg h, ih]
      have : k ∈ a :: ks ↔ k ∈ ks := by simp [Ne.symm h]
      simp only [this]

theorem get?_labels {β : Type} (v : β) {n c : ℕ} (hc : c < n) :
    KDict.get? ((List.range n).map fun i : ℕ => (toString (i + 1), v)) (toString (c + 1)) = some v := by
  have e : ((List.range n).map fun i : ℕ => (toString (i + 1), v)) =
      ((List.range n).map fun i : ℕ => toString (i + 1)).map fun s => (s, v) := by
    rw [List.map_map]
    rfl
  rw [e, get?_const, if_pos (List.mem_map.mpr ⟨c, List.mem_range.mpr hc, rfl⟩)]

theorem shipped_displacements {u : PatchDraws} (hu : PatchDraws.Ok u) {disp : ℕ → ℕ → ℝ}
    (h : cornerDisplacements 3 shippedArgs3.bc shippedArgs3.ranges shippedArgs3.order u.corner u.edge =
      .ok disp) {c k : ℕ} (hc : c < 8) (hk : k < 3) : |disp c k| ≤ 0.05 := by
  unfold cornerDisplacements at h
  obtain ⟨b, hb, h1⟩ := bind_ok h
  obtain ⟨r, hr, h2⟩ := bind_ok h1
  obtain ⟨o, ho, h3⟩ := bind_ok h2
  clear h h1 h2
  cases hb
  have hoj : ∀ i < 3, ∀ j < 8, o i j ≠ 0 := by
    unfold buildOrders shippedArgs3 at ho
    obtain ⟨os, hos, ho⟩ := bind_ok ho
    cases ho
    have hos' : os = (List.range (edgesMapping 3).length).map fun _ => 3 := by
      have := mapM_of_forall (g := fun _ : ℕ => 3) (f := edgeOrder ((List.range 24).map fun i : ℕ =>
        (toString (i + 1), some (3 : ℤ)))) (l := List.range (edgesMapping 3).length) (by
          intro l hl
          have : l < 24 := by
            have e : (edgesMapping 3).length = 24 := by decide
            rw [e] at hl
            exact List.mem_range.mp hl
          rw [edgeOrder, get?_labels _ this]
          rfl)
      rw [hos] at this
      exact Except.ok.inj this
    intro i hi j hj
    have : (edgesMapping 3).idxOf (i, j) < 24 := by
      have key : ∀ i < 3, ∀ j < 8, (edgesMapping 3).idxOf (i, j) < 24 := by decide +kernel
      exact key i hi j hj
    show os.getD ((edgesMapping 3).idxOf (i, j)) 0 ≠ 0
    rw [hos', show (edgesMapping 3).length = 24 by decide, List.getD_eq_getElem?_getD,
      List.getElem?_map, List.getElem?_range this]
    simp
  have hfold : cornersDisp 3 r o u.corner u.edge =
      (fun c k => uniformDraw (r c k) (u.corner c k), o) := by
    unfold cornersDisp
    have hin : ∀ i < 3, ∀ l : List ℕ, (∀ j ∈ l, j < 8) → ∀ f : ℕ → ℕ → ℝ,
        l.foldl (edgeDisp 3 r u.edge i ((edgesPerDim 3).getD i [])) (f, o) = (f, o) := by
      intro i hi l hl f
      induction l with
      | nil => rfl
      | cons j l ih =>
        rw [List.foldl_cons]
        have : edgeDisp 3 r u.edge i ((edgesPerDim 3).getD i []) (f, o) j = (f, o) := by
          unfold edgeDisp
          rw [if_neg (hoj i hi j (hl j (by simp)))]
        rw [this]
        exact ih fun j hj => hl j (by simp [hj])
    have hlen : ∀ i < 3, ((edgesPerDim 3).getD i []).length = 8 := by decide
    have hout : ∀ l : List ℕ, (∀ i ∈ l, i < 3) → ∀ f : ℕ → ℕ → ℝ,
        l.foldl (fun s i =>
          let es := (edgesPerDim 3).getD i []
          (List.range es.length).foldl (edgeDisp 3 r u.edge i es) s) (f, o) = (f, o) := by
      intro l hl f
      induction l with
      | nil => rfl
      | cons i l ih =>
        rw [List.foldl_cons]
        have hi := hl i (by simp)
        have := hin i hi (List.range ((edgesPerDim 3).getD i []).length) (by
          intro j hj
          rw [hlen i hi] at hj
          exact List.mem_range.mp hj) f
        simp only [this]
        exact ih fun i hi => hl i (by simp [hi])
    exact hout _ (fun i hi => List.mem_range.mp hi) _
  rw [hfold] at h3
  cases h3
  have hrange : r c k = (-0.05, 0.05) := by
    unfold buildCornersRange shippedArgs3 at hr
    obtain ⟨rs, hrs, hr⟩ := bind_ok hr
    cases hr
    have := mapM_of_forall (g := fun _ : ℕ => [((-0.05 : ℝ), (0.05 : ℝ)), (-0.05, 0.05), (-0.05, 0.05)])
      (f := cornerRanges 3 ((List.range 8).map fun i : ℕ => (toString (i + 1),
        some [some [-0.05, 0.05], some [-0.05, 0.05], some [-0.05, 0.05]])))
      (l := List.range (nCorners 3)) (by
        intro l hl
        have : l < 8 := List.mem_range.mp hl
        rw [cornerRanges, get?_labels _ this]
        rfl)
    have this := hrs.symm.trans this
    cases this
    have hb : (List.replicate 3 (0 : ℤ)).getD k 0 ≠ 1 := by
      interval_cases k <;> decide
    simp only
    rw [if_neg hb, List.getD_eq_getElem?_getD, List.getD_eq_getElem?_getD, List.getElem?_map, List.getElem?_range (show c < nCorners 3 from hc)]
    interval_cases k <;> rfl
  simp only [hrange, uniformDraw]
  obtain ⟨h0, h1⟩ := hu.1 c k
  rw [abs_le]
  constructor <;> nlinarith

theorem shipped_nondegenerate {disp : ℕ → ℕ → ℝ} (h : ∀ c < 8, ∀ k < 3, |disp c k| ≤ 0.05) :
    NonDegenerate3 ![1, 1, 1] disp := by
  intro lab i c d f hrow
  have key : ∀ r ∈ patchEdges3, (r.2.2.1 < 8 ∧ r.2.2.2.1 < 8 ∧ r.2.2.2.2 < 8) ∧
      (cornerBit r.2.2.1 (Fin.ofNat 3 r.2.1) = 0 ∧ cornerBit r.2.2.2.1 (Fin.ofNat 3 r.2.1) = 1 ∧
        cornerBit r.2.2.2.2 (Fin.ofNat 3 r.2.1) = 1) ∧
      ∃ j : Fin 3, j ≠ Fin.ofNat 3 r.2.1 ∧ cornerBit r.2.2.2.1 j = cornerBit r.2.2.1 j ∧
        ((cornerBit r.2.2.2.2 j = 1 ∧ cornerBit r.2.2.1 j = 0) ∨
          (cornerBit r.2.2.2.2 j = 0 ∧ cornerBit r.2.2.1 j = 1)) := by decide +kernel
  obtain ⟨⟨hc, hd, hf⟩, ⟨b1, b2, b3⟩, j, hji, b4, b5⟩ := key _ hrow
  simp only at hc hd hf b1 b2 b3 hji b4 b5
  have hL : ∀ r : Fin 3, (![1, 1, 1] : Vec3) r = 1 := by
    intro r
    fin_cases r <;> rfl
  have hp : ∀ (c : ℕ) (r : Fin 3), cornerPoint3 ![1, 1, 1] disp c r = (cornerBit c r : ℝ) + disp c r := by
    intro c r
    rw [cornerPoint3, hL, mul_one]
  have hb : ∀ c < 8, ∀ r : Fin 3, -0.05 ≤ disp c r ∧ disp c r ≤ 0.05 :=
    fun c hc r => abs_le.mp (h c hc r r.isLt)
  intro e v
  set ι := Fin.ofNat 3 i with hι
  have he : ∀ r, e r = (cornerBit d r : ℝ) + disp d r - ((cornerBit c r : ℝ) + disp c r) := by
    intro r
    show cornerPoint3 _ disp d r - cornerPoint3 _ disp c r = _
    rw [hp, hp]
  have hv : ∀ r, v r = (cornerBit f r : ℝ) + disp f r - ((cornerBit c r : ℝ) + disp c r) := by
    intro r
    show cornerPoint3 _ disp f r - cornerPoint3 _ disp c r = _
    rw [hp, hp]
  have ei := he ι
  have ej := he j
  have vi := hv ι
  have vj := hv j
  rw [b1, b2] at ei
  rw [b1, b3] at vi
  rw [b4] at ej
  obtain ⟨c1, c2⟩ := hb c hc ι
  obtain ⟨c3, c4⟩ := hb d hd ι
  obtain ⟨c5, c6⟩ := hb f hf ι
  obtain ⟨c7, c8⟩ := hb c hc j
  obtain ⟨c9, c10⟩ := hb d hd j
  obtain ⟨c11, c12⟩ := hb f hf j
  push_cast at ei vi
  have k1 : 0.9 ≤ e ι ∧ e ι ≤ 1.1 := by constructor <;> linarith
  have k2 : 0.9 ≤ v ι ∧ v ι ≤ 1.1 := by constructor <;> linarith
  have k3 : -0.1 ≤ e j ∧ e j ≤ 0.1 := by constructor <;> linarith
  refine ⟨fun hx => ?_, Or.inl (by linarith [k1.1])⟩
  have hcomp : ∀ a b : Fin 3, v a * e b = v b * e a := by
    have h0 := congrFun hx 0
    have h1 := congrFun hx 1
    have h2 := congrFun hx 2
    simp [cross_apply] at h0 h1 h2
    intro a b
    fin_cases a <;> fin_cases b <;> simp <;> linarith
  have hij := hcomp j ι
  have hup : v ι * e j ≤ 0.11 ∧ -0.11 ≤ v ι * e j := by
    constructor <;> nlinarith [k2.1, k2.2, k3.1, k3.2]
  rcases b5 with ⟨b5, b6⟩ | ⟨b5, b6⟩
  · rw [b5, b6] at vj
    push_cast at vj
    have : 0.9 ≤ v j := by linarith
    nlinarith [k1.1]
  · rw [b5, b6] at vj
    push_cast at vj
    have : v j ≤ -0.9 := by linarith
    nlinarith [k1.1]

/-- **C142g.** With the parameters of the script (nine elements along each dimension, displacements of
the corners and the edges of at most five per cent, no rigid motion) a patch is generated for all the
values that may be drawn. -/
theorem C142_parameters {fl : ℝ → ℝ} (hfl : IsRounding fl) {uniq : ℕ → List (ℕ × ℕ)}
    (huq : ListsEdges uniq) {u : PatchDraws} (hu : PatchDraws.Ok u) :
    ∃ p, shippedPatch3 fl uniq u = .ok p := by
  have hk : ("SHEXA8", true, 3, 2) ∈ feKinds := by simp [feKinds]
  obtain ⟨p, hp⟩ := (C112_accepts hfl hk (L := ![1, 1, 1]) (nElems := ![9, 9, 9]) (a := shippedArgs3)
    (maxIter := 10) (by intro r; fin_cases r <;> norm_num) (by intro r; fin_cases r <;> norm_num)
    (by intro r; fin_cases r <;> norm_num) huq trivial (by
      intro c hc v hv
      rw [get?_labels _ (show c < 8 from hc)] at hv
      cases hv
      exact ⟨_, rfl, rfl, by simp⟩) (by
      intro e he v hv
      rw [get?_labels _ (show e < 24 from he)] at hv
      cases hv
      simp) (by
      intro lab h1 h2 v hv
      obtain ⟨m, rfl⟩ : ∃ m, lab = m + 1 := ⟨lab - 1, by omega⟩
      rw [get?_labels _ (show m < 24 by omega)] at hv
      cases hv
      exact ⟨_, _, rfl, by norm_num⟩) (by norm_num) hu
    (fun disp hd => shipped_nondegenerate fun c hc k hk => shipped_displacements hu hd hc hk)).1
    (by simp [shippedArgs3]) (by simp [shippedArgs3])
  refine ⟨p, ?_⟩
  unfold shippedPatch3
  have : [(![9, 9, 9] : Fin 3 → ℕ) 0, (![9, 9, 9] : Fin 3 → ℕ) 1, (![9, 9, 9] : Fin 3 → ℕ) 2] = [9, 9, 9] := rfl
  rw [this] at hp
  rw [hp]
  rfl

/-! ### Concrete cases -/

/-- A disk with the given directories and files. -/
def diskOf (ds : List APath) (fs : List (APath × PatchBlob P)) : PatchDisk P :=
  ⟨fun q => decide (q ∈ ds), fun q => KDict.get? fs q⟩

theorem sound_diskOf {ds : List APath} {fs : List (APath × PatchBlob P)}
    (h1 : ∀ r ∈ ds ++ KDict.keys fs, ∀ q ∈ r.inits, q ≠ r → q ∈ ds)
    (h2 : ∀ q ∈ ds, q ∉ KDict.keys fs) : Sound (diskOf ds fs) := by
  constructor
  · intro q r hq hne hr
    have hm : r ∈ ds ++ KDict.keys fs := by
      rw [List.mem_append]
      rcases hr with hr | hr
      · exact Or.inl (by simpa [diskOf] using hr)
      · exact Or.inr (KDict.mem_keys_iff.mpr (Option.ne_none_iff_exists'.mp hr))
    simpa [diskOf] using h1 r hm q ((List.mem_inits _ _).mpr hq) hne
  · intro q hq
    have hq : q ∈ ds := by simpa [diskOf] using hq
    by_contra hne
    exact h2 q hq (KDict.mem_keys_iff.mpr (Option.ne_none_iff_exists'.mp hne))

/-- Tools that work. -/
def goodTools : PatchTools ℕ := ⟨fun _ => .ok (), fun _ => (true, .ok ()), fun _ => .ok (), some fun _ => some (some true)⟩

theorem goodTools_work (x : ℕ) : ToolsWork goodTools x := ⟨rfl, rfl, rfl, _, rfl, rfl⟩

/-- An empty base directory. -/
def emptyBase : PatchDisk ℕ := diskOf [[], ["b".toList]] []

theorem emptyBase_sound : Sound emptyBase := sound_diskOf (by decide) (by decide)

/-- C142: two patches in an empty directory; the hypotheses of `C142_generate` and `C142_dataset` are
met. -/
example : ∃ d' out, generatePatches goodTools ⟨true, false⟩ (fun i => .ok (i + 7)) 2 ["b".toList]
    "random_specimen".toList emptyBase = (d', .ok out) ∧
    Simulated d' (patchRoot ["b".toList] "random_specimen".toList 2 1) 8 := by
  obtain ⟨d', out, h⟩ := C142_accepts (T := goodTools) (save := true) (gen := fun i => .ok (i + 7))
    (n := 2) (base := ["b".toList]) (name := "random_specimen".toList) emptyBase_sound (by decide)
    (fun h => by omega) (fun i _ => rfl) fun i _ => ⟨i + 7, rfl, goodTools_work _⟩
  refine ⟨d', out, h, ?_⟩
  obtain ⟨x, hx, hsim, -⟩ := ((C142_generate emptyBase_sound (by decide) (fun h => by omega)
    (fun i _ => rfl) h).1 out rfl).1 1 (by omega)
  cases hx
  exact hsim

example : NoNumbered emptyBase ["b".toList] "random_specimen".toList := by
  intro w hw
  rcases hw with hw | hw
  · have : ["b".toList] ++ [w] ∈ [[], ["b".toList]] := by simpa [emptyBase, diskOf] using hw
    simp at this
  · exact absurd rfl hw

/-- A patch of an earlier run that was simulated, and not saved. -/
def unsavedRun : PatchDisk ℕ :=
  diskOf [[], ["b".toList], ["b".toList, "p".toList], ["b".toList, "p".toList, "material_patch".toList],
      ["b".toList, "p".toList, "simulations".toList], ["b".toList, "p".toList, "plots".toList],
      ["b".toList, "p".toList, "simulations".toList, "random_specimen".toList]]
    [(["b".toList, "p".toList, "simulations".toList, "random_specimen.dat".toList], .input 3),
      (["b".toList, "p".toList, "simulations".toList, "random_specimen".toList,
        "random_specimen.screen".toList], .screen 3 true),
      (["b".toList, "p".toList, "plots".toList, "specimen_deformed_configuration.pdf".toList], .figure 3)]

theorem unsavedRun_sound : Sound unsavedRun := sound_diskOf (by decide +kernel) (by decide +kernel)

/-- C142: loading the patch that was not saved deletes its results. -/
example : ∃ d', generatePatches goodTools ⟨false, true⟩ (fun _ => .ok 0) 1 ["b".toList] "p".toList unsavedRun =
      (d', .error .runtimeError) ∧
    unsavedRun.file ["b".toList, "p".toList, "simulations".toList, "random_specimen.dat".toList] ≠ none ∧
    d'.file ["b".toList, "p".toList, "simulations".toList, "random_specimen.dat".toList] = none := by
  have hroot : patchRoot ["b".toList] "p".toList 1 0 = ["b".toList, "p".toList] := rfl
  have hsim : Simulated unsavedRun (patchRoot ["b".toList] "p".toList 1 0) 3 := by
    rw [hroot]
    refine ⟨by decide +kernel, by decide +kernel, rfl, rfl, by decide +kernel, rfl, ?_⟩
    intro s q _ _ hne
    have hm := KDict.mem_keys_iff.mpr (Option.ne_none_iff_exists'.mp hne)
    simp only [KDict.keys, List.map_cons, List.map_nil, List.mem_cons, List.not_mem_nil, or_false] at hm
    exact hm
  obtain ⟨d', h, hq⟩ := C142_load_violated (T := goodTools) (save := false) (gen := fun _ => .ok 0)
    (n := 1) (by omega) unsavedRun_sound (by decide +kernel) (fun _ => by decide) hsim (by decide +kernel) rfl rfl
  exact ⟨d', h, by rw [show unsavedRun.file _ = some (.input 3) from rfl]; simp,
    hq _ (Or.inl ⟨["random_specimen.dat".toList], rfl⟩)⟩

/-- C142: values in the unit interval. -/
example : PatchDraws.Ok ⟨fun _ _ => 1 / 2, fun _ _ _ => (1 / 2, 1 / 2), fun _ _ _ => 1 / 2,
    fun _ _ _ => (0, 0), fun _ => 1 / 2, fun _ => 1 / 2⟩ := by
  refine ⟨fun _ _ => ?_, fun _ _ _ => ?_, fun _ _ _ => ?_, fun _ => ?_, fun _ => ?_⟩ <;> norm_num

end Hooke
