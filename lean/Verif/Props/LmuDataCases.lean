import Verif.Props.LmuData

/-!
# C131: success of a generation, assembled data sets, violations
-/

noncomputable section

namespace Hooke

open Spec

variable {α : Type}

/-! ### Success -/

/-- C131c: a generation with accepted numbers of samples, run as a script with an existing base
directory, succeeds for every sorted grid of admissible temperatures and compositions, if for every
sample one of the first ten strain paths does not fail. -/
theorem C131_succeeds {env : LmuEnv α} (hu : LmuUnitDraws env) {temps comps : List ℝ}
    (ht : temps.Pairwise (· ≤ ·)) (hc : comps.Pairwise (· ≤ ·))
    (hta : ∀ T ∈ temps, 25 ≤ T ∧ T ≤ 625) (hca : ∀ C ∈ comps, 0 ≤ C ∧ C ≤ 1)
    {counts : KDict Text ℕ} {ratio : KDict Text ℝ} (hr : lmuRatios counts ratio = .ok ratio)
    (hb : env.baseDir = some true)
    (ha : ∀ rnd params p ty i, ∃ k < 10, (∃ r, env.attempt rnd params p ty i k = .ok (r, false)) ∧
      ∀ j < k, ∃ r, env.attempt rnd params p ty i j = .ok (r, true)) :
    ∃ fs, lmuGenerate env "von_mises" temps comps counts ratio = .ok fs := by
  obtain ⟨vs, hv⟩ : ∃ vs, (temps.product comps).zipIdx.mapM
      (lmuPass env "von_mises" temps comps counts ratio) = .ok vs := by
    refine mapM_exists fun q hq => ?_
    obtain ⟨⟨T, C⟩, p⟩ := q
    obtain ⟨hT, hC⟩ := List.mem_product.mp (List.fst_mem_of_mem_zipIdx hq)
    unfold lmuPass
    rw [(raiseIf_ok (u := ())).mpr (by rw [hb]; simp), (raiseIf_ok (u := ())).mpr (by rw [hb]; simp)]
    change ∃ b, lmuPair env "von_mises" temps comps counts ratio p T C = .ok b
    unfold lmuPair
    refine mapM_exists fun c _ => ?_
    obtain ⟨ss, hs⟩ : ∃ ss, (List.range c.2).mapM (lmuSample env "von_mises" temps comps
        (truncInt ((c.2 : ℝ) * (ratio.get? c.1).getD 1)) p T C c.1) = .ok ss := by
      refine mapM_exists fun i _ => ?_
      generalize truncInt ((c.2 : ℝ) * (ratio.get? c.1).getD 1) = m
      unfold lmuSample
      dsimp only
      have h1 : 25 ≤ (if betweenGrid c.1 then neighbourDraw temps T (env.uT p c.1 i) else T) ∧
          (if betweenGrid c.1 then neighbourDraw temps T (env.uT p c.1 i) else T) ≤ 625 := by
        split
        · exact between_bounds (neighbourDraw_between ht hT (hu p c.1 i).1.1 (hu p c.1 i).1.2) hta
        · exact hta T hT
      have h2 : 0 ≤ (if betweenGrid c.1 then neighbourDraw comps C (env.uC p c.1 i) else C) ∧
          (if betweenGrid c.1 then neighbourDraw comps C (env.uC p c.1 i) else C) ≤ 1 := by
        split
        · exact between_bounds (neighbourDraw_between hc hC (hu p c.1 i).2.1 (hu p c.1 i).2.2) hca
        · exact hca C hC
      generalize (if betweenGrid c.1 then neighbourDraw temps T (env.uT p c.1 i) else T) = eT at *
      generalize (if betweenGrid c.1 then neighbourDraw comps C (env.uC p c.1 i) else C) = eC at *
      have h3 : ∃ params, tcParameters "von_mises" eT eC = .ok params :=
        ⟨⟨_, _, _⟩, C130_parameters.mpr ⟨rfl, ⟨h1.1, h1.2, h2.1, h2.2⟩, rfl, rfl,
          by with_reducible rfl⟩⟩
      obtain ⟨params, h3⟩ := h3
      obtain ⟨k, hk, ⟨r, h4⟩, h5⟩ := ha (decide ((i : ℤ) < m)) params p c.1 i
      rw [h3]
      refine ⟨⟨decide ((i : ℤ) < m), eT, eC, r⟩, ?_⟩
      have h6 : lmuTrials (env.attempt (decide ((i : ℤ) < m)) params p c.1 i) 10 0 = .ok r :=
        lmuTrials_ok.mpr ⟨k, hk, by rw [Nat.zero_add]; exact h4,
          fun j hj => by rw [Nat.zero_add]; exact h5 j hj⟩
      change (do let r ← lmuTrials _ 10 0; _) = _
      rw [h6]
      rfl
    rw [hs]
    exact ⟨(c.1, ss), rfl⟩
  exact ⟨_, lmuGenerate_ok.mpr ⟨hr, vs, hv, rfl⟩⟩

/-- **C131 is violated for imported functions.**  The check of the target directory reads a global
variable of the script instead of its argument: called from another module, the generation ends with a
`NameError` for every nonempty grid. -/
theorem C131_import_violated {env : LmuEnv α} (hb : env.baseDir = none) {model : String}
    {temps comps : List ℝ} (ht : temps ≠ []) (hc : comps ≠ []) {counts : KDict Text ℕ}
    {ratio : KDict Text ℝ} (hr : lmuRatios counts ratio = .ok ratio) :
    lmuGenerate env model temps comps counts ratio = .error .unboundLocal := by
  obtain ⟨T, temps', rfl⟩ := List.exists_cons_of_ne_nil ht
  obtain ⟨C, comps', rfl⟩ := List.exists_cons_of_ne_nil hc
  unfold lmuGenerate
  rw [hr]
  have : (T :: temps').product (C :: comps') = (T, C) :: ((comps'.map fun c => (T, c)) ++
      temps'.flatMap fun a => (C :: comps').map fun c => (a, c)) := rfl
  rw [this]
  generalize (comps'.map fun c => (T, c)) ++
      temps'.flatMap (fun a => (C :: comps').map fun c => (a, c)) = rest
  have hp : lmuPass env model (T :: temps') (C :: comps') counts ratio ((T, C), 0) =
      .error .unboundLocal := by
    unfold lmuPass raiseIf
    rw [if_pos hb]
    rfl
  have key : (((T, C), 0) :: rest.zipIdx 1).foldlM (fun (fs : LmuStore α) (q : (ℝ × ℝ) × ℕ) => do
      let ds ← lmuPass env model (T :: temps') (C :: comps') counts ratio q
      return fs.put (depName q.1.1 q.1.2) ds) [] = .error .unboundLocal := by
    rw [List.foldlM_cons, hp]
    rfl
  exact key

/-! ### Assembly -/

theorem pickAll_range {β : Type} (l : List β) : pickAll l (List.range l.length) = l := by
  unfold pickAll
  induction l with
  | nil => rfl
  | cons a l ih =>
    rw [List.length_cons, List.range_succ_eq_map, List.filterMap_cons, List.filterMap_map]
    simp only [List.getElem?_cons_zero]
    congr 1

theorem pickAll_perm {β : Type} {l : List β} {is : List ℕ} (h : is.Perm (List.range l.length)) :
    (pickAll l is).Perm l := by
  have h1 : (pickAll l is).Perm (pickAll l (List.range l.length)) := h.filterMap _
  rwa [pickAll_range] at h1

theorem pickAll_subperm {β : Type} {l : List β} {is : List ℕ} (hn : is.Nodup) (hl : ∀ i ∈ is, i < l.length) :
    (pickAll l is).length = is.length ∧ (pickAll l is).Subperm l := by
  constructor
  · unfold pickAll
    induction is with
    | nil => rfl
    | cons i is ih =>
      have : l[i]? = some (l[i]'(hl i (by simp))) := List.getElem?_eq_getElem _
      rw [List.filterMap_cons, this]
      simp only [List.length_cons]
      rw [ih (List.nodup_cons.mp hn).2 fun j hj => hl j (List.mem_cons_of_mem _ hj)]
  · have h1 : is.Subperm (List.range l.length) :=
      List.subperm_of_subset hn fun i hi => List.mem_range.mpr (hl i hi)
    obtain ⟨is', hp, hs⟩ := h1
    refine ⟨pickAll l is', hp.filterMap _, ?_⟩
    have h2 : (pickAll l is').Sublist (pickAll l (List.range l.length)) := hs.filterMap _
    rwa [pickAll_range] at h2

theorem trunc_fraction {n : ℕ} {f : ℝ} (h0 : 0 ≤ f) (h1 : f ≤ 1) :
    (truncInt ((n : ℝ) * f)).toNat = ⌊(n : ℝ) * f⌋₊ ∧ ⌊(n : ℝ) * f⌋₊ ≤ n := by
  have hn : (0 : ℝ) ≤ n := Nat.cast_nonneg n
  unfold truncInt
  rw [if_pos (mul_nonneg hn h0)]
  refine ⟨rfl, ?_⟩
  exact_mod_cast (Nat.floor_le (mul_nonneg hn h0)).trans (mul_le_of_le_one_right hn h1)

/-- C131d: an assembled data set without reduction holds exactly the samples of the files of its type,
each once, in a random order. -/
theorem C131_assemble {pick : LmuPick} (hp : ValidPick pick) {fs : LmuStore α}
    {red : KDict Text (Option ℝ)} {ty : Text} (hr : red.get? ty = none) (hf : lmuFiles fs ty ≠ []) :
    ∃ d, assembleType pick fs red ty = .ok d ∧ d.Perm (lmuFiles fs ty).flatten := by
  unfold assembleType
  dsimp only
  rw [hr]
  have e : (lmuFiles fs ty).zipIdx.map (fun q => reduceFile pick ty none q.2 q.1) = lmuFiles fs ty := by
    unfold reduceFile
    exact List.zipIdx_map_fst 0 _
  rw [e, (raiseIf_ok (u := ())).mpr hf]
  exact ⟨_, rfl, pickAll_perm (hp.2 _ _)⟩

/-- C131e: with a fraction `f`, every file contributes `⌊n f⌋` distinct of its `n` samples. -/
theorem C131_reduction {pick : LmuPick} (hp : ValidPick pick) {fs : LmuStore α}
    {red : KDict Text (Option ℝ)} {ty : Text} {f : ℝ} (hr : red.get? ty = some (some f)) (h0 : 0 ≤ f)
    (h1 : f ≤ 1) (hf : lmuFiles fs ty ≠ []) :
    ∃ d parts, assembleType pick fs red ty = .ok d ∧ d.Perm parts.flatten ∧
      List.Forall₂ (fun file part => part.Subperm file ∧ part.length = ⌊(file.length : ℝ) * f⌋₊)
        (lmuFiles fs ty) parts := by
  unfold assembleType
  dsimp only
  rw [hr, (raiseIf_ok (u := ())).mpr]
  · refine ⟨_, _, rfl, pickAll_perm (hp.2 _ _), ?_⟩
    rw [List.forall₂_map_right_iff]
    have : ∀ (l : List (List (LmuSample α))) (k : ℕ), List.Forall₂ (fun file (q : List (LmuSample α) × ℕ) =>
        (reduceFile pick ty (some (some f)) q.2 q.1).Subperm file ∧
          (reduceFile pick ty (some (some f)) q.2 q.1).length = ⌊(file.length : ℝ) * f⌋₊)
        l (l.zipIdx k) := by
      intro l
      induction l with
      | nil => exact fun _ => .nil
      | cons file l ih =>
        intro k
        rw [List.zipIdx_cons]
        refine .cons ?_ (ih _)
        unfold reduceFile reducedFraction
        dsimp only
        rw [if_pos ⟨h0, h1⟩, (trunc_fraction h0 h1).1]
        obtain ⟨h2, h3, h4⟩ := hp.1 ty k file.length _ (trunc_fraction (n := file.length) h0 h1).2
        obtain ⟨h5, h6⟩ := pickAll_subperm h3 h4
        exact ⟨h6, h5.trans h2⟩
    exact this _ 0
  · intro h
    rw [List.map_eq_nil_iff, List.zipIdx_eq_nil_iff] at h
    exact hf h

/-! ### Sizes -/

theorem known_prefix {ty ty' : Text} (h : ty ∈ knownTypes) (h' : ty' ∈ knownTypes) :
    (ty ++ "_dataset".toList).isPrefixOf (ty' ++ "_dataset".toList) = decide (ty' = ty) := by
  unfold knownTypes at h h'
  simp only [List.mem_cons, List.not_mem_nil, or_false] at h h'
  rcases h with rfl | rfl | rfl <;> rcases h' with rfl | rfl | rfl <;> decide

theorem filter_single {β : Type} {ds : KDict Text β} (hn : ds.keys.Nodup) {ty : Text} {v : β}
    (h : (ty, v) ∈ ds) : ds.filter (fun t => decide (t.1 = ty)) = [(ty, v)] := by
  induction ds with
  | nil => cases h
  | cons d ds ih =>
    have hn' : d.1 ∉ KDict.keys ds ∧ (KDict.keys ds).Nodup := List.nodup_cons.mp hn
    rcases List.mem_cons.mp h with rfl | h
    · rw [List.filter_cons_of_pos (by simp)]
      congr 1
      rw [List.filter_eq_nil_iff]
      intro t ht
      rw [decide_eq_true_eq]
      intro e
      have := List.mem_map_of_mem (f := Prod.fst) ht
      rw [e] at this
      exact hn'.1 this
    · rw [List.filter_cons_of_neg, ih hn'.2 h]
      rw [decide_eq_true_eq]
      intro e
      have := List.mem_map_of_mem (f := Prod.fst) h
      rw [← e] at this
      exact hn'.1 this

theorem forall₂_mem_left {β γ : Type} {R : β → γ → Prop} {l : List β} {r : List γ}
    (h : List.Forall₂ R l r) {x : β} (hx : x ∈ l) : ∃ y ∈ r, R x y := by
  induction h with
  | nil => cases hx
  | cons h1 _ ih =>
    rcases List.mem_cons.mp hx with rfl | hx
    · exact ⟨_, List.mem_cons_self .., h1⟩
    · obtain ⟨y, hy, h2⟩ := ih hx
      exact ⟨y, List.mem_cons_of_mem _ hy, h2⟩

theorem expected_files {env : LmuEnv α} {temps comps : List ℝ} {counts : KDict Text ℕ}
    {ratio : KDict Text ℝ} (hk : counts.keys.Nodup) (hkn : ∀ c ∈ counts, c.1 ∈ knownTypes) {p : ℕ}
    {T C : ℝ} {ds : KDict Text (List (LmuSample α))}
    (h : ExpectedSets env temps comps counts ratio p T C ds) {ty : Text} {n : ℕ} (hm : (ty, n) ∈ counts) :
    ∃ ss, ds.filter (fun t => (ty ++ "_dataset".toList).isPrefixOf (t.1 ++ "_dataset".toList)) =
      [(ty, ss)] ∧ ss.length = n ∧ ds.get? ty = some ss := by
  have hkeys : ds.keys = counts.keys := by
    unfold ExpectedSets at h
    unfold KDict.keys
    clear hk hkn hm
    induction h with
    | nil => rfl
    | cons h1 _ ih => rw [List.map_cons, List.map_cons, h1.1, ih]
  obtain ⟨d, hd, h1, h2, -⟩ := forall₂_mem_left h hm
  obtain ⟨ty', ss⟩ := d
  obtain rfl : ty' = ty := h1
  refine ⟨ss, ?_, h2, get?_of_mem ds (by rw [hkeys]; exact hk) _ _ hd⟩
  rw [← filter_single (by rw [hkeys]; exact hk) hd]
  apply List.filter_congr
  intro t ht
  refine known_prefix (hkn _ hm) ?_
  have : t.1 ∈ counts.keys := by
    rw [← hkeys]
    exact List.mem_map_of_mem ht
  obtain ⟨c, hc, e⟩ := List.mem_map.mp this
  rw [← e]
  exact hkn c hc

/-- C131f: after a successful generation with known data set types, the assembled data set of a type
with `n` samples for each pair holds `n` samples for each distinct directory name.  It has the size of
the preview exactly if the pairs have distinct directory names. -/
theorem C131_size {env : LmuEnv α} (hu : LmuUnitDraws env) {model : String} {temps comps : List ℝ}
    (ht : temps.Pairwise (· ≤ ·)) (hc : comps.Pairwise (· ≤ ·)) (ht0 : temps ≠ []) (hc0 : comps ≠ [])
    {counts : KDict Text ℕ} (hk : counts.keys.Nodup) (hkn : ∀ c ∈ counts, c.1 ∈ knownTypes)
    {ratio : KDict Text ℝ} {fs : LmuStore α}
    (h : lmuGenerate env model temps comps counts ratio = .ok fs) {fs' : LmuStore α} (hp : fs'.Perm fs)
    {pick : LmuPick} (hv : ValidPick pick) {ty : Text} {n : ℕ} (hm : (ty, n) ∈ counts) :
    ∃ d, assembleType pick fs' [] ty = .ok d ∧
      d.length = (pairNames temps comps).toFinset.card * n ∧
      (d.length = previewSize temps comps n ↔ (pairNames temps comps).Nodup) ∧
      ∀ s, s ∈ d ↔ ∃ name ds ss, fs.get? name = some ds ∧ ds.get? ty = some ss ∧ s ∈ ss := by
  obtain ⟨h1, h2, h3⟩ := C131_generate hu ht hc h
  have hn : 0 < n := by
    obtain ⟨hr, -⟩ := lmuGenerate_ok.mp h
    obtain ⟨x, -, h4, h5⟩ := (C131_counts.mp hr).2 _ hm
    have : (0 : ℝ) < n := by
      dsimp only at h4 h5
      linarith
    exact_mod_cast this
  have hfile : ∀ e ∈ fs, ∃ ss, e.2.filter (fun t =>
      (ty ++ "_dataset".toList).isPrefixOf (t.1 ++ "_dataset".toList)) = [(ty, ss)] ∧
        ss.length = n ∧ e.2.get? ty = some ss := by
    intro e he
    obtain ⟨p, T, C, -, -, -, h4⟩ := h3 e.1 e.2 (get?_of_mem fs h1 _ _ he)
    exact expected_files hk hkn h4 hm
  have hkeys : ∀ k, k ∈ fs.keys ↔ k ∈ pairNames temps comps := by
    intro k
    obtain ⟨-, vs, hvs, rfl⟩ := lmuGenerate_ok.mp h
    rw [(foldl_put_keys _).2, List.map_fst_zip]
    rw [← (mapM_forall₂ hvs).length_eq]
    simp [pairNames]
  have hlen : fs.length = (pairNames temps comps).toFinset.card := by
    have e : (pairNames temps comps).toFinset = fs.keys.toFinset := by
      ext k
      rw [List.mem_toFinset, List.mem_toFinset, hkeys]
    rw [e, List.toFinset_card_of_nodup h1]
    simp [KDict.keys]
  have hsize : ∀ l : LmuStore α, (∀ e ∈ l, ∃ ss, e.2.filter (fun t =>
      (ty ++ "_dataset".toList).isPrefixOf (t.1 ++ "_dataset".toList)) = [(ty, ss)] ∧
        ss.length = n ∧ e.2.get? ty = some ss) → (lmuFiles l ty).flatten.length = l.length * n ∧
        (l ≠ [] → lmuFiles l ty ≠ []) ∧
        ∀ s, s ∈ (lmuFiles l ty).flatten ↔ ∃ e ∈ l, ∃ ss, e.2.get? ty = some ss ∧ s ∈ ss := by
    intro l
    induction l with
    | nil => intro _; exact ⟨by simp [lmuFiles], fun h => absurd rfl h, by simp [lmuFiles]⟩
    | cons e l ih =>
      intro hl
      obtain ⟨i1, -, i3⟩ := ih fun e he => hl e (List.mem_cons_of_mem _ he)
      obtain ⟨ss, g1, g2, g3⟩ := hl e (List.mem_cons_self ..)
      have e1 : lmuFiles (e :: l) ty = ss :: lmuFiles l ty := by
        unfold lmuFiles
        rw [List.flatMap_cons, g1]
        rfl
      rw [e1, List.flatten_cons, List.length_append, i1, g2, List.length_cons]
      refine ⟨by ring, fun _ => by simp, fun s => ?_⟩
      rw [List.mem_append, i3]
      constructor
      · rintro (h5 | ⟨e', h5, h6⟩)
        · exact ⟨e, List.mem_cons_self .., ss, g3, h5⟩
        · exact ⟨e', List.mem_cons_of_mem _ h5, h6⟩
      · rintro ⟨e', h5, ss', h6, h7⟩
        rcases List.mem_cons.mp h5 with rfl | h5
        · rw [g3] at h6
          cases h6
          exact Or.inl h7
        · exact Or.inr ⟨e', h5, ss', h6, h7⟩
  obtain ⟨s1, s2, s3⟩ := hsize fs' fun e he => hfile e (hp.mem_iff.mp he)
  have hne : fs' ≠ [] := by
    obtain ⟨T, hT⟩ := List.exists_mem_of_ne_nil _ ht0
    obtain ⟨C, hC⟩ := List.exists_mem_of_ne_nil _ hc0
    rintro rfl
    have := h2 T hT C hC
    rw [List.nil_perm.mp hp] at this
    cases this
  obtain ⟨d, hd, hdp⟩ := C131_assemble hv (red := []) (by rfl : KDict.get? [] ty = none) (s2 hne)
  have hdl : d.length = (pairNames temps comps).toFinset.card * n := by
    rw [hdp.length_eq, s1, hp.length_eq, hlen]
  refine ⟨d, hd, hdl, ?_, fun s => ?_⟩
  · rw [hdl]
    unfold previewSize
    have hl : (pairNames temps comps).length = temps.length * comps.length := by
      unfold pairNames
      rw [List.length_map]
      exact List.length_product ..
    rw [← hl, Nat.mul_left_inj (by omega)]
    exact Multiset.toFinset_card_eq_card_iff_nodup (m := (pairNames temps comps : Multiset DepName))
  · rw [hdp.mem_iff, s3]
    constructor
    · rintro ⟨e, he, ss, h5, h6⟩
      exact ⟨e.1, e.2, ss, get?_of_mem fs h1 _ _ (hp.mem_iff.mp he), h5, h6⟩
    · rintro ⟨name, ds, ss, h5, h6, h7⟩
      exact ⟨(name, ds), hp.mem_iff.mpr (mem_of_get? h5), ss, h6, h7⟩

/-! ### Violations -/

theorem fixed2_close : fixed2 25 = fixed2 25.001 := by
  unfold fixed2
  have e1 : roundEven (100 * |(25 : ℝ)|) = 2500 := by
    rw [abs_of_pos (by norm_num)]
    have : ⌊(100 * 25 : ℝ)⌋₊ = 2500 := by
      rw [Nat.floor_eq_iff (by norm_num)]
      norm_num
    unfold roundEven
    rw [this]
    norm_num
  have e2 : roundEven (100 * |(25.001 : ℝ)|) = 2500 := by
    rw [abs_of_pos (by norm_num)]
    have : ⌊(100 * 25.001 : ℝ)⌋₊ = 2500 := by
      rw [Nat.floor_eq_iff (by norm_num)]
      norm_num
    unfold roundEven
    rw [this]
    norm_num
  rw [e1, e2]
  norm_num

/-- **C131 is violated for close grid values.**  The directories of two temperatures that agree to two
decimals have the same name: the data of the first are overwritten, and no sample of that temperature
is assembled for training. -/
theorem C131_overwritten_violated {env : LmuEnv α} (hu : LmuUnitDraws env) {C : ℝ}
    {counts : KDict Text ℕ} (hk : counts.keys.Nodup) (hkn : ∀ c ∈ counts, c.1 ∈ knownTypes)
    {ratio : KDict Text ℝ} {fs : LmuStore α}
    (h : lmuGenerate env "von_mises" [25, 25.001] [C] counts ratio = .ok fs)
    {pick : LmuPick} (hv : ValidPick pick) {n : ℕ} (hm : ("training".toList, n) ∈ counts) :
    ∃ d, assembleType pick fs [] "training".toList = .ok d ∧ d.length = n ∧
      previewSize [25, 25.001] [C] n = 2 * n ∧ ∀ s ∈ d, s.temperature = 25.001 := by
  have ht : ([25, 25.001] : List ℝ).Pairwise (· ≤ ·) := by
    rw [List.pairwise_cons]
    refine ⟨fun b hb => ?_, List.pairwise_singleton _ _⟩
    rw [List.mem_singleton.mp hb]
    norm_num
  obtain ⟨d, h1, h2, -, h4⟩ := C131_size hu ht (List.pairwise_singleton _ C) (by simp) (by simp) hk hkn h
    (List.Perm.refl _) hv hm
  have hprod : ([25, 25.001] : List ℝ).product [C] = [(25, C), (25.001, C)] := rfl
  have hnames : pairNames [25, 25.001] [C] = [(fixed2 25, fixed2 C), (fixed2 25, fixed2 C)] := by
    unfold pairNames
    rw [hprod]
    simp only [List.map_cons, List.map_nil, fixed2_close]
  rw [hnames] at h2
  refine ⟨d, h1, by simpa using h2, by unfold previewSize; simp, fun s hs => ?_⟩
  obtain ⟨name, ds, ss, h5, h6, h7⟩ := (h4 s).mp hs
  obtain ⟨-, -, h8⟩ := C131_generate hu ht (List.pairwise_singleton _ C) h
  obtain ⟨p, T, C', g1, g2, g3, g4⟩ := h8 name ds h5
  rw [hprod] at g1 g3
  have hp : T = 25.001 := by
    rcases p with _ | _ | p
    · exfalso
      cases g1
      refine g3 1 (by omega) 25.001 C rfl ?_
      rw [← g2]
      rw [fixed2_close]
    · cases g1
      rfl
    · cases g1
  obtain ⟨i, hi, rfl⟩ := List.mem_iff_getElem.mp h7
  have hds := mem_of_get? h6
  obtain ⟨j, hj, e⟩ := List.mem_iff_getElem.mp hds
  have hf := g4.get (by rw [List.Forall₂.length_eq g4]; exact hj) hj
  simp only [List.get_eq_getElem] at hf
  rw [e] at hf
  obtain ⟨f1, -, x, -, f2⟩ := hf
  have := (f2 i _ (List.getElem?_eq_getElem hi)).temperature
  rw [if_neg] at this
  · rw [this, hp]
  · rw [← f1]
    exact (by decide : ¬("training".toList = "validation".toList ∨ "training".toList = "testing_id".toList))

/-- **C131 is violated for another data set type.**  A type without its own directory is saved in the
directory of the type assembled before it: the assembled training data are replaced by the others. -/
theorem C131_stale_violated {pick : LmuPick} {fs : LmuStore α} {d d' : List (LmuSample α)}
    (h : assembleType pick fs [] "training".toList = .ok d)
    (h' : assembleType pick fs [] "testing_od".toList = .ok d') :
    lmuAssemble pick fs [] ["training".toList, "testing_od".toList] =
      .ok [("1_training_dataset".toList, d')] := by
  unfold lmuAssemble
  rw [List.foldlM_cons, h]
  have key : (["testing_od".toList].foldlM (fun (s : KDict Text (List (LmuSample α)) × Option Text) ty => do
      let d ← assembleType pick fs [] ty
      let name := assembledDir s.2 ty
      let n ← orRaise name .unboundLocal
      return (s.1.put n d, name))
    ([("1_training_dataset".toList, d)], some "1_training_dataset".toList) : Py _) =
      .ok ([("1_training_dataset".toList, d')], some "1_training_dataset".toList) := by
    rw [List.foldlM_cons, h']
    rfl
  change (do
    let r ← (["testing_od".toList].foldlM (fun (s : KDict Text (List (LmuSample α)) × Option Text) ty => do
      let d ← assembleType pick fs [] ty
      let name := assembledDir s.2 ty
      let n ← orRaise name .unboundLocal
      return (s.1.put n d, name))
    ([("1_training_dataset".toList, d)], some "1_training_dataset".toList) : Py _)
    return r.1) = _
  rw [key]
  rfl

/-- **C131 is violated for another data set type alone.**  It is not assembled at all: the name of its
directory was never set. -/
theorem C131_unknown_violated {pick : LmuPick} {fs : LmuStore α} {d : List (LmuSample α)}
    (h : assembleType pick fs [] "testing_od".toList = .ok d) :
    lmuAssemble pick fs [] ["testing_od".toList] = .error .unboundLocal := by
  unfold lmuAssemble
  rw [List.foldlM_cons, h]
  rfl

/-! ### Examples -/

/-- Every strain path succeeds. -/
def fairEnv : LmuEnv ℕ :=
  ⟨fun _ _ _ => 0, fun _ _ _ => 1, fun _ _ _ _ i _ => .ok (i, false), some true⟩

theorem fairEnv_draws : LmuUnitDraws fairEnv := by
  intro p ty i
  unfold fairEnv
  norm_num

/-- Four training samples, half of them random, and two validation samples. -/
def fairCounts : KDict Text ℕ := [("training".toList, 4), ("validation".toList, 2)]

/-- Ratios of random strain paths. -/
def fairRatio : KDict Text ℝ := [("training".toList, 1 / 2), ("validation".toList, 1 / 2)]

theorem fair_ratios : lmuRatios fairCounts fairRatio = .ok fairRatio := by
  rw [C131_counts]
  refine ⟨rfl, fun c hc => ⟨1 / 2, ?_⟩⟩
  unfold fairCounts at hc
  simp only [List.mem_cons, List.not_mem_nil, or_false] at hc
  rcases hc with rfl | rfl
  · exact ⟨rfl, by norm_num, by norm_num⟩
  · exact ⟨rfl, by norm_num, by norm_num⟩

theorem fair_generates {temps comps : List ℝ} (ht : temps.Pairwise (· ≤ ·)) (hc : comps.Pairwise (· ≤ ·))
    (hta : ∀ T ∈ temps, 25 ≤ T ∧ T ≤ 625) (hca : ∀ C ∈ comps, 0 ≤ C ∧ C ≤ 1) :
    ∃ fs, lmuGenerate fairEnv "von_mises" temps comps fairCounts fairRatio = .ok fs :=
  C131_succeeds fairEnv_draws ht hc hta hca fair_ratios rfl
    fun _ _ _ _ i => ⟨0, by omega, ⟨i, rfl⟩, fun j hj => by omega⟩

/-- A generation for two temperatures and two compositions. -/
example : ∃ fs, lmuGenerate fairEnv "von_mises" [25, 625] [0, 1] fairCounts fairRatio = .ok fs := by
  refine fair_generates ?_ ?_ ?_ ?_ <;> norm_num

/-- A generation whose first temperature is overwritten. -/
example : ∃ fs, lmuGenerate fairEnv "von_mises" [25, 25.001] [0] fairCounts fairRatio = .ok fs := by
  refine fair_generates ?_ ?_ ?_ ?_ <;> norm_num

example : fairCounts.keys.Nodup ∧ (∀ c ∈ fairCounts, c.1 ∈ knownTypes) ∧
    ("training".toList, 4) ∈ fairCounts := by
  decide

/-- Random choices: the first samples, in order. -/
def plainPick : LmuPick := ⟨fun _ _ _ m => List.range m, fun _ n => List.range n⟩

example : ValidPick plainPick :=
  ⟨fun _ _ n m h => ⟨List.length_range, List.nodup_range, fun i hi => by
      have := List.mem_range.mp hi
      omega⟩, fun _ _ => List.Perm.refl _⟩

/-- A store with data of a type without a directory. -/
example : ∃ d d', assembleType plainPick
      [(depName 25 0, [("training".toList, [(⟨true, 25, 0, 7⟩ : LmuSample ℕ)]),
        ("testing_od".toList, [⟨true, 25, 0, 8⟩])])] [] "training".toList = .ok d ∧
    assembleType plainPick
      [(depName 25 0, [("training".toList, [(⟨true, 25, 0, 7⟩ : LmuSample ℕ)]),
        ("testing_od".toList, [⟨true, 25, 0, 8⟩])])] [] "testing_od".toList = .ok d' ∧ d ≠ d' :=
  ⟨[⟨true, 25, 0, 7⟩], [⟨true, 25, 0, 8⟩], rfl, rfl, by simp⟩

end Hooke
