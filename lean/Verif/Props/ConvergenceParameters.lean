import Verif.Props.ConvergenceDataCases

/-!
# Convergence analyses: parameters, labels of the models, analyses of patches
-/

noncomputable section

namespace Hooke

open Spec

/-! ### Parameters -/

theorem map_fst_of_forall₂ {α β γ : Type} {g : α → β} {l : List α} {m : List (β × γ)}
    (h : List.Forall₂ (fun (a : α) (b : β × γ) => b.1 = g a) l m) : m.map Prod.fst = l.map g := by
  induction h with
  | nil => rfl
  | cons h1 _ ih => rw [List.map_cons, List.map_cons, ih, h1]

/-- C134f: the convergence plot of a parameter shows for each model the size of its training data set and
its own best value of that parameter, whatever the order of the parameters. -/
theorem C134_parameters {sizes : List ℕ} {models : List (KDict Text ℝ)}
    {out : List (Text × List (ℕ × ℝ))} (h : bestConvergence sizes models = .ok out) :
    ∃ first, models.head? = some first ∧ out.map Prod.fst = first.keys ∧
      ∀ param pts, (param, pts) ∈ out → pts.length = sizes.length ∧
        ∀ (i : ℕ) (q : ℕ × ℝ), pts[i]? = some q → sizes[i]? = some q.1 ∧
          ∃ m, models[i]? = some m ∧ m.get? param = some q.2 := by
  unfold bestConvergence at h
  obtain ⟨first, hf, h⟩ := bind_ok h
  have hm := mapM_forall₂ h
  refine ⟨first, orRaise_ok.mp hf, ?_, ?_⟩
  · have : List.Forall₂ (fun (a : Text) (b : Text × List (ℕ × ℝ)) => b.1 = a) first.keys out := by
      refine hm.imp fun a b hb => ?_
      obtain ⟨pts, -, hb⟩ := bind_ok hb
      cases hb
      rfl
    exact map_fst_of_forall₂ (g := id) this |>.trans (List.map_id _)
  · intro param pts hmem
    obtain ⟨a, -, ha⟩ := forall₂_mem_left hm.flip hmem
    obtain ⟨pts', hp, ha⟩ := bind_ok ha
    cases ha
    have hp := mapM_forall₂ hp
    refine ⟨by rw [← hp.length_eq, List.length_zipIdx], fun i q hq => ?_⟩
    obtain ⟨hi, rfl⟩ := List.getElem?_eq_some_iff.mp hq
    have hi' : i < sizes.length := by rw [← hp.length_eq, List.length_zipIdx] at hi; exact hi
    have := hp.get (by simpa using hi') hi
    simp only [List.get_eq_getElem, List.getElem_zipIdx, zero_add] at this
    obtain ⟨m, h1, this⟩ := bind_ok this
    obtain ⟨v, h2, this⟩ := bind_ok this
    have e := (Except.ok.inj this).symm
    rw [e]
    exact ⟨List.getElem?_eq_getElem hi', m, orRaise_ok.mp h1, orRaise_ok.mp h2⟩

/-- C134g: if all realizations list the same parameters in the same order, the stored table has the value of
each parameter of each realization under its name. -/
theorem C134_table {samples : List (KDict Text ℝ)} {names : List Text} (hne : samples ≠ [])
    (hn : names.Nodup) (hk : ∀ s ∈ samples, s.keys = names) :
    ∃ rows, bestParametersUq samples = .ok (names, rows) ∧ rows.length = samples.length ∧
      ∀ (i j : ℕ) s name, samples[i]? = some s → names[j]? = some name →
        ∃ row v, rows[i]? = some row ∧ row[j]? = some v ∧ s.get? name = some v := by
  obtain ⟨first, rest, rfl⟩ := List.exists_cons_of_ne_nil hne
  have hl : ∀ s ∈ first :: rest, s.length = names.length := by
    intro s hs
    rw [← hk s hs]
    simp [KDict.keys]
  refine ⟨(first :: rest).map fun s => s.map Prod.snd, ?_, by simp, ?_⟩
  · have hm : (first :: rest).mapM (fun s : KDict Text ℝ => do
        raiseIf (first.length < s.length) .indexError
        pure (s.map Prod.snd ++ List.replicate (first.length - s.length) (0 : ℝ))) =
        Except.ok (ε := PyErr) ((first :: rest).map fun s => s.map Prod.snd) := by
      refine mapM_of_forall (g := fun s : KDict Text ℝ => s.map Prod.snd) fun s hs => ?_
      rw [hl s hs, hl first (by simp)]
      simp [raiseIf, bind, Except.bind, pure, Except.pure]
    unfold bestParametersUq
    simp only [List.head?_cons, orRaise, bind, Except.bind] at hm ⊢
    rw [hm, hk first (by simp)]
    rfl
  · intro i j s name hs hj
    obtain ⟨hi, rfl⟩ := List.getElem?_eq_some_iff.mp hs
    have hsm := List.getElem_mem hi
    obtain ⟨hj', rfl⟩ := List.getElem?_eq_some_iff.mp hj
    have hjs : j < ((first :: rest)[i]).length := by rw [hl _ hsm]; exact hj'
    refine ⟨_, (((first :: rest)[i])[j]).2, by rw [List.getElem?_map, hs]; rfl, ?_, ?_⟩
    · rw [List.getElem?_map, List.getElem?_eq_getElem hjs]
      rfl
    · have hkeys := hk _ hsm
      have e : names[j] = (((first :: rest)[i])[j]).1 := by
        have : names[j]? = (((first :: rest)[i]).keys)[j]? := by rw [hkeys]
        rw [KDict.keys, List.getElem?_map, List.getElem?_eq_getElem hjs, List.getElem?_eq_getElem hj'] at this
        exact Option.some.inj this
      rw [e]
      exact get?_of_mem _ (by rw [hkeys]; exact hn) _ _ (List.getElem_mem hjs)

/-- **C134 is violated for another order of the parameters.**  The values of a realization that lists the same
parameters in another order are stored under the wrong names. -/
theorem C134_order_violated {a b : Text} (hab : a ≠ b) (x y u v : ℝ) (hu : u ≠ v) :
    ∃ s : KDict Text ℝ, s.get? a = some v ∧ s.get? b = some u ∧
      bestParametersUq [[(a, x), (b, y)], s] = .ok ([a, b], [[x, y], [u, v]]) := by
  refine ⟨[(b, u), (a, v)], ?_, ?_, ?_⟩
  · simp [KDict.get?, hab.symm]
  · simp [KDict.get?]
  · simp [bestParametersUq, orRaise, raiseIf, KDict.keys, bind, Except.bind, pure, Except.pure]

/-- **C134 is violated for missing parameters.**  A parameter that a realization does not have is stored as
zero. -/
theorem C134_missing_violated {a b : Text} (hab : a ≠ b) (x y u : ℝ) :
    KDict.get? (K := Text) (β := ℝ) [(a, u)] b = none ∧
      bestParametersUq [[(a, x), (b, y)], [(a, u)]] = .ok ([a, b], [[x, y], [u, 0]]) := by
  constructor
  · simp [KDict.get?, hab]
  · simp [bestParametersUq, orRaise, raiseIf, KDict.keys, bind, Except.bind, pure, Except.pure]

/-- C134h: the box plots of a parameter show for each model the column of its table with the number of the
parameter in the table of the first model, if all tables have as many rows. -/
theorem C134_boxplots {sizes : List ℕ} {models : List (List Text × List (List ℝ))}
    (hr : ∀ m ∈ models, ∀ m' ∈ models, m.2.length = m'.2.length) {out : List (Text × List (ℕ × List ℝ))}
    (h : bestConvergenceUq sizes models = .ok out) :
    ∃ first, models.head? = some first ∧ out.map Prod.fst = first.1 ∧
      ∀ (j : ℕ) param cols, out[j]? = some (param, cols) → cols.length = sizes.length ∧
        ∀ (i : ℕ) (q : ℕ × List ℝ), cols[i]? = some q → sizes[i]? = some q.1 ∧
          ∃ m, models[i]? = some m ∧ List.Forall₂ (fun (row : List ℝ) v => row[j]? = some v) m.2 q.2 := by
  unfold bestConvergenceUq at h
  obtain ⟨first, hf, h⟩ := bind_ok h
  have hm := mapM_forall₂ h
  have hf := orRaise_ok.mp hf
  have hfm : first ∈ models := List.mem_of_mem_head? hf
  refine ⟨first, hf, ?_, ?_⟩
  · have : List.Forall₂ (fun (a : Text × ℕ) (b : Text × List (ℕ × List ℝ)) => b.1 = a.1) first.1.zipIdx out := by
      refine hm.imp fun a b hb => ?_
      obtain ⟨pts, -, hb⟩ := bind_ok hb
      cases hb
      rfl
    exact map_fst_of_forall₂ this |>.trans (List.zipIdx_map_fst 0 first.1)
  · intro j param cols hj
    obtain ⟨hjl, hje⟩ := List.getElem?_eq_some_iff.mp hj
    have := hm.get (by rw [hm.length_eq]; exact hjl) hjl
    simp only [List.get_eq_getElem, List.getElem_zipIdx, zero_add, hje] at this
    obtain ⟨cols', hp, this⟩ := bind_ok this
    cases this
    have hp := mapM_forall₂ hp
    refine ⟨by rw [← hp.length_eq, List.length_zipIdx], fun i q hq => ?_⟩
    obtain ⟨hi, rfl⟩ := List.getElem?_eq_some_iff.mp hq
    have hi' : i < sizes.length := by rw [← hp.length_eq, List.length_zipIdx] at hi; exact hi
    have := hp.get (by simpa using hi') hi
    simp only [List.get_eq_getElem, List.getElem_zipIdx, zero_add] at this
    obtain ⟨m, h1, this⟩ := bind_ok this
    obtain ⟨col, h2, this⟩ := bind_ok this
    obtain ⟨col', h3, this⟩ := bind_ok this
    have e := (Except.ok.inj this).symm
    rw [e]
    have h1 := orRaise_ok.mp h1
    have h2 := mapM_forall₂ h2
    have hcl : col.length = first.2.length := by
      rw [← h2.length_eq]
      exact hr m (List.mem_of_getElem? h1) first hfm
    unfold assignLossRow at h3
    rw [if_pos hcl] at h3
    cases h3
    exact ⟨List.getElem?_eq_getElem hi', m, h1, h2.imp fun _ _ hrow => orRaise_ok.mp hrow⟩

/-! ### Labels -/

theorem sets_prefix {α : Type} {sizes : List ℕ} {data : List α} {start : KDict Text α} :
    ∀ n : ℕ, n ≤ sizes.length → n ≤ data.length →
      convergenceSets n sizes data start = .ok (((sizes.zip data).take n).foldl
        (fun (d : KDict Text α) p => d.put ("N = ".toList ++ strNat p.1) p.2) start) := by
  intro n
  induction n with
  | zero => intro _ _; rfl
  | succ n ih =>
    intro h1 h2
    have ih' := ih (by omega) (by omega)
    unfold convergenceSets at ih' ⊢
    rw [foldlM_range_succ, ih']
    have hz : n < (sizes.zip data).length := by rw [List.length_zip]; omega
    rw [List.take_succ_eq_append_getElem hz, List.foldl_append]
    simp [orRaise, bind, Except.bind, pure, Except.pure, List.getElem?_eq_getElem (by omega : n < sizes.length),
      List.getElem?_eq_getElem (by omega : n < data.length)]

theorem label_inj {m n : ℕ} (h : "N = ".toList ++ strNat m = "N = ".toList ++ strNat n) : m = n := by
  have h1 := List.append_cancel_left h
  have := congrArg parseInt h1
  rw [parseInt_strNat, parseInt_strNat] at this
  exact Option.some.inj this

/-- C134i: if the training data sets have different sizes, every model is shown under the label of its own
size. -/
theorem C134_labels {α : Type} {sizes : List ℕ} {data : List α} (hn : sizes.Nodup)
    (hl : sizes.length = data.length) {start : KDict Text α} :
    ∃ sets, convergenceSets sizes.length sizes data start = .ok sets ∧
      ∀ (i : ℕ) s x, sizes[i]? = some s → data[i]? = some x →
        sets.get? ("N = ".toList ++ strNat s) = some x := by
  refine ⟨_, sets_prefix _ le_rfl (by omega), fun i s x hs hx => ?_⟩
  have e : (sizes.zip data).take sizes.length = sizes.zip data :=
    List.take_of_length_le (by rw [List.length_zip]; omega)
  rw [e]
  have key : ∀ (l : List (ℕ × α)) (d : KDict Text α), (l.map Prod.fst).Nodup → (s, x) ∈ l →
      (l.foldl (fun (d : KDict Text α) p => d.put ("N = ".toList ++ strNat p.1) p.2) d).get?
        ("N = ".toList ++ strNat s) = some x := by
    intro l
    induction l with
    | nil => intro d _ h; cases h
    | cons p l ih =>
      intro d hnd hmem
      rw [List.map_cons, List.nodup_cons] at hnd
      rw [List.foldl_cons]
      rcases List.mem_cons.mp hmem with rfl | hmem
      · have keep : ∀ (l : List (ℕ × α)) (d : KDict Text α), s ∉ l.map Prod.fst →
            (l.foldl (fun (d : KDict Text α) p => d.put ("N = ".toList ++ strNat p.1) p.2) d).get?
              ("N = ".toList ++ strNat s) = d.get? ("N = ".toList ++ strNat s) := by
          intro l
          induction l with
          | nil => intro d _; rfl
          | cons q l ih =>
            intro d hq
            rw [List.map_cons, List.mem_cons, not_or] at hq
            rw [List.foldl_cons, ih _ hq.2, KDict.get?_put_ne]
            intro hcon
            exact hq.1 (label_inj hcon)
        rw [keep l _ hnd.1, KDict.get?_put_self]
      · exact ih _ hnd.2 hmem
  refine key _ start ?_ ?_
  · rw [List.map_fst_zip (by omega)]
    exact hn
  · rw [List.mem_iff_getElem?]
    exact ⟨i, by rw [List.getElem?_zip_eq_some]; exact ⟨hs, hx⟩⟩

/-- **C134 is violated for equal sizes.**  Of two models trained with data sets of the same size only the
second one is shown. -/
theorem C134_label_violated {α : Type} (s : ℕ) (x y truth : α) :
    convergenceSets 2 [s, s] [x, y] [("Ground-Truth".toList, truth)] =
      .ok [("Ground-Truth".toList, truth), ("N = ".toList ++ strNat s, y)] := by
  have hne : "Ground-Truth".toList ≠ "N = ".toList ++ strNat s := by
    intro h
    have := congrArg List.head? h
    revert this
    simp
  rw [sets_prefix 2 (by simp) (by simp)]
  simp only [List.zip_cons_cons, List.zip_nil_right, List.take_succ_cons, List.take_zero, List.foldl_cons,
    List.foldl_nil]
  generalize "N = ".toList ++ strNat s = k at hne ⊢
  generalize "Ground-Truth".toList = g at hne ⊢
  simp [KDict.put, hne]

/-! ### Analyses of patches -/

theorem isPatchDir_iff {name dir : Text} : isPatchDir name dir = true ↔ ∃ w : Text, w ≠ [] ∧
    (∀ x ∈ w, x.isDigit = true) ∧ (dir = name ++ '_' :: w ∨ dir = name ++ '_' :: w ++ ['\n']) := by
  unfold isPatchDir
  constructor
  · intro h
    cases hp : afterPrefix (name ++ ['_']) dir with
    | none => rw [hp] at h; cases h
    | some r =>
      rw [hp] at h
      obtain ⟨k, hk⟩ := Option.isSome_iff_exists.mp h
      obtain ⟨hw, hd⟩ := parseInt_some hk
      refine ⟨beforeEnd r, hw, hd, ?_⟩
      rw [afterPrefix_eq.mp hp]
      unfold beforeEnd
      split_ifs with hl
      · right
        have := List.dropLast_append_getLast? _ hl
        conv_lhs => rw [← this]
        simp
      · left
        simp
  · rintro ⟨w, hw, hd, rfl | rfl⟩
    · have e : name ++ '_' :: w = (name ++ ['_']) ++ w := by simp
      have hb : beforeEnd w = w := by
        unfold beforeEnd
        rw [if_neg]
        intro hcon
        have := hd _ (List.mem_of_getLast? hcon)
        revert this
        decide
      rw [e, afterPrefix_append]
      simp only
      rw [hb, parseInt, if_pos ⟨hw, List.all_eq_true.mpr hd⟩]
      rfl
    · have e : name ++ '_' :: w ++ ['\n'] = (name ++ ['_']) ++ (w ++ ['\n']) := by simp
      rw [e, afterPrefix_append]
      simp only
      rw [beforeEnd, if_pos (by simp), List.dropLast_concat, parseInt, if_pos ⟨hw, List.all_eq_true.mpr hd⟩]
      rfl

/-- C134j: the data set of the analyses of patches has the paths of every analysis, in the order of the
numbers of the analyses, whatever the order of the listing. -/
theorem C134_patches {α : Type} {root name : Text} {names : List Text} {ids : List ℕ}
    (h : PatchListing name names ids) (hne : ids ≠ []) {paths : Text → Py (List α)} {parts : List (List α)}
    (hp : List.Forall₂ (fun k part => paths (name ++ '_' :: strNat k) = .ok part) ids parts) :
    patchesDataset root name (some names) paths = .ok parts.flatten := by
  obtain ⟨ha, others, hperm, ho⟩ := h
  have hfil : (names.filter (isPatchDir name)).Perm (ids.map fun k => name ++ '_' :: strNat k) := by
    refine (hperm.filter _).trans ?_
    rw [List.filter_append]
    have e1 : (ids.map fun k => name ++ '_' :: strNat k).filter (isPatchDir name) =
        ids.map fun k => name ++ '_' :: strNat k := by
      rw [List.filter_eq_self]
      intro q hq
      obtain ⟨k, -, rfl⟩ := List.mem_map.mp hq
      rw [isPatchDir_iff]
      exact ⟨strNat k, strNat_ne_nil k, fun x hx => isDigit_of_mem_strNat hx, Or.inl rfl⟩
    have e2 : others.filter (isPatchDir name) = [] := by
      rw [List.filter_eq_nil_iff]
      intro o hm hcon
      exact ho o hm (isPatchDir_iff.mp hcon)
    rw [e1, e2, List.append_nil]
  have hn1 : names ≠ [] := by
    rintro rfl
    have := hperm.length_eq
    simp only [List.length_nil, List.length_append, List.length_map] at this
    exact hne (List.eq_nil_of_length_eq_zero (by omega))
  have hn2 : names.filter (isPatchDir name) ≠ [] := by
    intro hcon
    rw [hcon] at hfil
    have := hfil.length_eq
    simp only [List.length_nil, List.length_map] at this
    exact hne (List.eq_nil_of_length_eq_zero this.symm)
  have hsort := sortFiles_perm (root := root) (l := ids.map fun k => (k, name ++ '_' :: strNat k))
    (files := names.filter (isPatchDir name)) (by
      rw [List.map_map]
      have : (Prod.fst ∘ fun k : ℕ => (k, name ++ '_' :: strNat k)) = id := rfl
      rw [this, List.map_id]
      exact ha) (by
      intro p hp
      obtain ⟨k, -, rfl⟩ := List.mem_map.mp hp
      have := lastNumber_of (p := root ++ '/' :: name) (c := '_') (w := strNat k) (s := []) (by decide)
        (strNat_ne_nil k) (fun x hx => isDigit_of_mem_strNat hx) (by simp)
      rw [List.append_nil, parseInt_strNat] at this
      simpa using this) (by
      rw [List.map_map]
      exact hfil)
  have hdirs : patchDirs root name (some names) = .ok (ids.map fun k => name ++ '_' :: strNat k) := by
    unfold patchDirs
    rw [List.map_map] at hsort
    simp only [orRaise, bind, Except.bind, raiseIf, if_neg hn1, if_neg hn2]
    exact hsort
  unfold patchesDataset
  rw [hdirs]
  have := mapM_ok_of_forall₂ (f := paths) (List.forall₂_map_left_iff.mpr hp)
  simp only [bind, Except.bind, this]
  rfl

/-! ### Concrete cases -/

/-- Parameters written before the loss. -/
def summaryBefore : List (Text × SummaryVal) :=
  [("device_type".toList, .other "cpu".toList), ("Testing data set size".toList, .other "16".toList)]

theorem summaryOf_example (x : ℝ) : SummaryOf (some x) (predictionSummary summaryBefore [] (some x)) := by
  refine ⟨summaryBefore, [], rfl, ?_⟩
  have : ∀ l ∈ fileLines (summaryText (some "Summary: Model prediction".toList) summaryBefore),
      ¬lossPhrase <:+: l := by
    unfold lossPhrase
    decide +kernel
  exact this

theorem summaryName_example : SummaryName "summary.dat".toList := ⟨'.', by decide, Or.inl (by decide)⟩

/-- Directory of a prediction. -/
def predictionDir (x : ℝ) : KDict Text Text :=
  [("prediction_sample_0.pkl".toList, []), ("summary.dat".toList, predictionSummary summaryBefore [] (some x))]

theorem notSummary_example : ¬SummaryName "prediction_sample_0.pkl".toList := by
  rintro ⟨c, -, h | h⟩
  · have := congrArg List.head? h
    revert this
    simp
  · have := congrArg List.head? h
    revert this
    simp

theorem predictedWith_example (x : ℝ) : PredictedWith (some x) (predictionDir x) := by
  refine ⟨_, summaryOf_example x, "summary.dat".toList, summaryName_example, ?_, ?_⟩
  · unfold predictionDir
    rw [KDict.get?, if_neg (by decide), KDict.get?, if_pos rfl]
  · intro g hg hs
    have hk : (predictionDir x).keys = ["prediction_sample_0.pkl".toList, "summary.dat".toList] := rfl
    rw [hk] at hg
    rcases List.mem_cons.mp hg with rfl | hg
    · exact absurd hs notSummary_example
    · exact List.mem_singleton.mp hg

theorem datasetName_example : DatasetName "ss_paths_dataset_n10.pkl".toList :=
  ⟨"10".toList, '.', by decide, by decide, by decide, Or.inl (by decide)⟩

theorem holdsOne_example : HoldsOne DatasetName [("ss_paths_dataset_n10.pkl".toList, 10)] 10 :=
  ⟨_, datasetName_example, rfl, fun g hg _ => List.mem_singleton.mp hg⟩

/-- C134: the hypotheses of `C134_loss` are met by a model with a loss of 0.25. -/
example : ∃ pts, lossConvergence 1 [some [("ss_paths_dataset_n10.pkl".toList, 10)]]
    [some (predictionDir 0.25)] = .ok pts := by
  obtain ⟨pts, h, -⟩ := C134_loss (n := 1) (sizes := [10]) (losses := [0.25])
    (.cons ⟨_, rfl, holdsOne_example⟩ .nil)
    (.cons ⟨by norm_num, _, rfl, predictedWith_example 0.25⟩ .nil) le_rfl le_rfl
  exact ⟨pts, h⟩

/-- C134: an uncertainty quantification with the realizations 2 and 10, listed in the order of text. -/
example {α : Type} (a b c : α) : UqListing
    [("model_10".toList, b), ("model_2".toList, a), ("plots".toList, c)] [(2, a), (10, b)] := by
  refine ⟨by simp, [("plots".toList, c)], ?_, ?_⟩
  · have e1 : realizationName 2 = "model_2".toList := by decide
    have e2 : realizationName 10 = "model_10".toList := by decide
    rw [List.map_cons, List.map_cons, List.map_nil, e1, e2]
    exact List.Perm.swap _ _ _
  · intro o ho
    rw [List.mem_singleton.mp ho]
    rintro ⟨d, r, -, h⟩
    have := congrArg List.head? h
    revert this
    simp

/-- C134: analyses of patches 2 and 10, listed in the order of text. -/
example : PatchListing "patch".toList ["patch_10".toList, "patch_2".toList, "plots".toList] [2, 10] := by
  refine ⟨by simp, ["plots".toList], ?_, ?_⟩
  · have e1 : "patch".toList ++ '_' :: strNat 2 = "patch_2".toList := by decide
    have e2 : "patch".toList ++ '_' :: strNat 10 = "patch_10".toList := by decide
    rw [List.map_cons, List.map_cons, List.map_nil, e1, e2]
    exact List.Perm.swap _ _ _
  · intro o ho
    rw [List.mem_singleton.mp ho]
    rintro ⟨w, -, -, h | h⟩
    · have := congrArg (fun l : Text => l[1]?) h
      revert this
      simp
    · have := congrArg (fun l : Text => l[1]?) h
      revert this
      simp

/-- C134: tables of two realizations with the same parameters. -/
example : ∃ rows, bestParametersUq [[("E".toList, 110), ("v".toList, 0.3)], [("E".toList, 120), ("v".toList, 0.32)]] =
    .ok (["E".toList, "v".toList], rows) := by
  obtain ⟨rows, h, -⟩ := C134_table (names := ["E".toList, "v".toList])
    (samples := [[("E".toList, 110), ("v".toList, 0.3)], [("E".toList, 120), ("v".toList, 0.32)]])
    (by simp) (by decide) (by intro s hs; rcases List.mem_cons.mp hs with rfl | hs
                              · rfl
                              · rw [List.mem_singleton.mp hs]; rfl)
  exact ⟨rows, h⟩

end Hooke
