import Verif.Props.ConvergenceData
import Verif.Props.LmuDataCases

/-!
# Convergence analyses and uncertainty quantifications: plotted data
-/

noncomputable section

namespace Hooke

open Spec

theorem forall₂_choose {α β γ : Type} {R : α → γ → Prop} {S : β → γ → Prop} {l : List α} {m : List β}
    (h : List.Forall₂ (fun a b => ∃ c, R a c ∧ S b c) l m) :
    ∃ cs, List.Forall₂ R l cs ∧ List.Forall₂ S m cs := by
  induction h with
  | nil => exact ⟨[], .nil, .nil⟩
  | cons h _ ih =>
    obtain ⟨c, h1, h2⟩ := h
    obtain ⟨cs, g1, g2⟩ := ih
    exact ⟨c :: cs, .cons h1 g1, .cons h2 g2⟩

/-- C134c: the convergence plot shows for each model the size of its training data set and the loss of its
prediction, to nine significant digits. -/
theorem C134_loss {n : ℕ} {train : List (Option (KDict Text ℕ))} {pred : List (Option (KDict Text Text))}
    {sizes : List ℕ} {losses : List ℝ}
    (ht : List.Forall₂ (fun d s => ∃ k, d = some k ∧ HoldsOne DatasetName k s) train sizes)
    (hp : List.Forall₂ (fun d x => x ≠ 0 ∧ ∃ k, d = some k ∧ PredictedWith (some x) k) pred losses)
    (hn1 : n ≤ train.length) (hn2 : n ≤ pred.length) :
    ∃ pts, lossConvergence n train pred = .ok pts ∧ pts.length = n ∧
      ∀ (i : ℕ) (q : ℕ × ℝ), pts[i]? = some q → sizes[i]? = some q.1 ∧
        ∃ x, losses[i]? = some x ∧ NineDigits x q.2 := by
  have hp' : List.Forall₂ (fun d x => ∃ y, summaryLoss d = .ok y ∧ NineDigits x y) pred losses := by
    refine hp.imp fun d x h => ?_
    obtain ⟨hx, k, rfl, hk⟩ := h
    exact summaryLoss_eq hx hk
  obtain ⟨ys, h1, h2⟩ := forall₂_choose hp'
  have hs := trainingSizes_eq ht
  have hl := mapM_ok_of_forall₂ h1
  have hlen1 : n ≤ sizes.length := by rw [← ht.length_eq]; exact hn1
  have hlen2 : n ≤ ys.length := by rw [← h1.length_eq]; exact hn2
  have hr : (List.range n).mapM (fun i : ℕ => do
      let s ← orRaise sizes[i]? .indexError
      let l ← orRaise ys[i]? .indexError
      pure (s, l)) = Except.ok (ε := PyErr) ((List.range n).map fun i : ℕ => (sizes.getD i 0, ys.getD i 0)) := by
    refine mapM_of_forall (g := fun i : ℕ => (sizes.getD i 0, ys.getD i 0)) fun i hi => ?_
    have hi' := List.mem_range.mp hi
    rw [List.getElem?_eq_getElem (by omega : i < sizes.length),
      List.getElem?_eq_getElem (by omega : i < ys.length)]
    simp [orRaise, bind, Except.bind, pure, Except.pure, List.getD,
      List.getElem?_eq_getElem (by omega : i < sizes.length),
      List.getElem?_eq_getElem (by omega : i < ys.length)]
  refine ⟨(List.range n).map fun i : ℕ => (sizes.getD i 0, ys.getD i 0), ?_, by simp, ?_⟩
  · unfold lossConvergence
    rw [hs]
    simp only [bind, Except.bind, hl] at hr ⊢
    exact hr
  · intro i q hq
    rw [List.getElem?_map, Option.map_eq_some_iff] at hq
    obtain ⟨j, hj, rfl⟩ := hq
    obtain ⟨hlt, rfl⟩ := List.getElem?_eq_some_iff.mp hj
    rw [List.length_range] at hlt
    rw [List.getElem_range]
    refine ⟨by simp [List.getD, List.getElem?_eq_getElem (by omega : i < sizes.length)], ?_⟩
    have hli : i < losses.length := by rw [h2.length_eq]; omega
    refine ⟨losses[i], List.getElem?_eq_getElem hli, ?_⟩
    have := h2.get hli (by omega)
    simpa [List.getD, List.getElem?_eq_getElem (by omega : i < ys.length)] using this

/-- **C134 is violated for exact models.**  If one of the models predicts exactly, there is no convergence
plot. -/
theorem C134_exact_violated {n : ℕ} {train : List (Option (KDict Text ℕ))}
    {pred : List (Option (KDict Text Text))} {k : KDict Text Text} (hk : PredictedWith (some 0) k)
    (hm : some k ∈ pred) : ∀ pts, lossConvergence n train pred ≠ .ok pts := by
  intro pts h
  unfold lossConvergence at h
  obtain ⟨sizes, -, h⟩ := bind_ok h
  obtain ⟨ls, hl, -⟩ := bind_ok h
  obtain ⟨y, -, hy⟩ := forall₂_mem_left (mapM_forall₂ hl) hm
  rw [summaryLoss_zero (Or.inr rfl) hk] at hy
  cases hy

/-! ### Realizations -/

theorem isModelDir_iff {name : Text} :
    isModelDir name = true ↔ ∃ (c : Char) (r : Text), c.isDigit = true ∧ name = "model_".toList ++ c :: r := by
  unfold isModelDir
  constructor
  · intro h
    cases hp : afterPrefix "model_".toList name with
    | none => rw [hp] at h; cases h
    | some r =>
      rw [hp] at h
      cases r with
      | nil => cases h
      | cons c r => exact ⟨c, r, h, afterPrefix_eq.mp hp⟩
  · rintro ⟨c, r, hc, rfl⟩
    rw [afterPrefix_append]
    exact hc

theorem lastNumber_realization (k : ℕ) : lastNumber (realizationName k) = some k := by
  have := lastNumber_of (p := "model".toList) (c := '_') (w := strNat k) (s := []) (by decide)
    (strNat_ne_nil k) (fun x hx => isDigit_of_mem_strNat hx) (by simp)
  rw [List.append_nil, parseInt_strNat] at this
  exact this

theorem isModelDir_realization (k : ℕ) : isModelDir (realizationName k) = true := by
  rw [isModelDir_iff]
  obtain ⟨c, r, h⟩ := List.exists_cons_of_ne_nil (strNat_ne_nil k)
  exact ⟨c, r, isDigit_of_mem_strNat (n := k) (by rw [h]; simp), by rw [realizationName, h]⟩

/-- C134d: the realizations of an uncertainty quantification are taken in the order of their numbers,
whatever the order of the listing. -/
theorem C134_realizations {α : Type} {dirs : List (Text × α)} {samples : List (ℕ × α)}
    (h : UqListing dirs samples) : uqSamples dirs = samples.map Prod.snd := by
  obtain ⟨ha, others, hp, ho⟩ := h
  unfold uqSamples
  refine sortByKey_perm ha ?_
  have h1 : (dirs.filter fun p => isModelDir p.1).Perm (samples.map fun p => (realizationName p.1, p.2)) := by
    refine (hp.filter _).trans ?_
    rw [List.filter_append]
    have e1 : (samples.map fun p => (realizationName p.1, p.2)).filter (fun p => isModelDir p.1) =
        samples.map fun p => (realizationName p.1, p.2) := by
      rw [List.filter_eq_self]
      intro q hq
      obtain ⟨p, -, rfl⟩ := List.mem_map.mp hq
      exact isModelDir_realization p.1
    have e2 : others.filter (fun p => isModelDir p.1) = [] := by
      rw [List.filter_eq_nil_iff]
      intro o hm hcon
      exact ho o hm (isModelDir_iff.mp hcon)
    rw [e1, e2, List.append_nil]
  refine (h1.map _).trans ?_
  rw [List.map_map]
  have : samples.map ((fun p : Text × α => ((lastNumber p.1).getD 0, p.2)) ∘
      fun p => (realizationName p.1, p.2)) = samples := by
    conv_rhs => rw [← List.map_id samples]
    refine List.map_congr_left fun p _ => ?_
    simp [lastNumber_realization]
  rw [this]

theorem uqLosses_eq {type : Text} {dirs : List (Text × Realization)} {samples : List (ℕ × Realization)}
    (h : UqListing dirs samples) {losses : List ℝ}
    (hp : List.Forall₂ (fun (s : ℕ × Realization) x => x ≠ 0 ∧ ∃ k, s.2.get? type = some k ∧
      PredictedWith (some x) k) samples losses) :
    ∃ ys, uqLosses type dirs = .ok ys ∧ List.Forall₂ NineDigits losses ys := by
  have hp' : List.Forall₂ (fun (s : ℕ × Realization) x => ∃ y, summaryLoss (s.2.get? type) = .ok y ∧
      NineDigits x y) samples losses := by
    refine hp.imp fun s x h => ?_
    obtain ⟨hx, k, hk, hk'⟩ := h
    rw [hk]
    exact summaryLoss_eq hx hk'
  obtain ⟨ys, h1, h2⟩ := forall₂_choose hp'
  refine ⟨ys, ?_, h2⟩
  unfold uqLosses
  rw [C134_realizations h]
  exact mapM_ok_of_forall₂ (List.forall₂_map_left_iff.mpr h1)

theorem uq_losses {types : List Text} {models : List (Option (List (Text × Realization)))}
    {losses : List (List ℝ)} (hlt : models.length ≤ types.length)
    (hm : ∀ (i : ℕ) m l type, models[i]? = some m → losses[i]? = some l → types[i]? = some type →
      UqModel type m l) (hlen : models.length = losses.length) :
    ∃ yss, models.zipIdx.mapM (fun q => do
      let type ← orRaise types[q.2]? .indexError
      let dirs ← orRaise q.1 .osError
      uqLosses type dirs) = Except.ok (ε := PyErr) yss ∧ List.Forall₂ (List.Forall₂ NineDigits) losses yss := by
  have key : List.Forall₂ (fun (q : Option (List (Text × Realization)) × ℕ) l => ∃ ys, (do
      let type ← orRaise types[q.2]? .indexError
      let dirs ← orRaise q.1 .osError
      uqLosses type dirs) = Except.ok (ε := PyErr) ys ∧ List.Forall₂ NineDigits l ys) models.zipIdx losses := by
    refine List.forall₂_iff_get.mpr ⟨by simp [hlen], fun i h1 h2 => ?_⟩
    have hi : i < models.length := by simpa using h1
    simp only [List.get_eq_getElem, List.getElem_zipIdx, zero_add]
    obtain ⟨dirs, samples, hd, hu, hf⟩ := hm i _ _ _ (List.getElem?_eq_getElem hi)
      (List.getElem?_eq_getElem h2) (List.getElem?_eq_getElem (by omega : i < types.length))
    obtain ⟨ys, hy, hn⟩ := uqLosses_eq hu hf
    refine ⟨ys, ?_, hn⟩
    rw [List.getElem?_eq_getElem (by omega : i < types.length), hd]
    exact hy
  obtain ⟨yss, h1, h2⟩ := forall₂_choose key
  exact ⟨yss, mapM_ok_of_forall₂ h1, h2⟩

theorem getLast?_of_forall {α : Type} {P : α → Prop} {l : List α} (hne : l ≠ []) (h : ∀ x ∈ l, P x) :
    ∃ x, l.getLast? = some x ∧ P x :=
  ⟨l.getLast hne, List.getLast?_eq_some_getLast hne, h _ (List.getLast_mem hne)⟩

/-- C134e: if all models have the same number of realizations, the convergence plot shows for each model
the size of its training data set with the loss of each realization, in the order of their numbers. -/
theorem C134_uncertainty {train : List (Option (KDict Text ℕ))} {types : List Text}
    {models : List (Option (List (Text × Realization)))} {sizes : List ℕ} {losses : List (List ℝ)} {r : ℕ}
    (hne : models ≠ [])
    (ht : List.Forall₂ (fun d s => ∃ k, d = some k ∧ HoldsOne DatasetName k s) train sizes)
    (hlt : models.length ≤ types.length) (hls : models.length ≤ sizes.length)
    (hlen : models.length = losses.length)
    (hm : ∀ (i : ℕ) m l type, models[i]? = some m → losses[i]? = some l → types[i]? = some type →
      UqModel type m l) (hr : ∀ l ∈ losses, l.length = r) :
    ∃ rows, lossConvergenceUq train types models = .ok rows ∧ rows.length = models.length ∧
      ∀ (i : ℕ) (row : List (ℕ × ℝ)), rows[i]? = some row → ∃ s l, sizes[i]? = some s ∧ losses[i]? = some l ∧
        List.Forall₂ (fun x (q : ℕ × ℝ) => q.1 = s ∧ NineDigits x q.2) l row := by
  obtain ⟨yss, h1, h2⟩ := uq_losses hlt hm hlen
  have hl : ∀ ys ∈ yss, ys.length = r := by
    intro ys hy
    obtain ⟨l, hl, h3⟩ := forall₂_mem_left h2.flip hy
    rw [← h3.length_eq, hr l hl]
  have hyl : yss.length = models.length := by rw [hlen, h2.length_eq]
  obtain ⟨last, hlast, hlr⟩ := getLast?_of_forall (P := fun x : List ℝ => x.length = r) (l := yss) (by
    intro h
    rw [h] at hyl
    exact hne (List.eq_nil_of_length_eq_zero hyl.symm)) hl
  refine ⟨yss.zipIdx.map fun q => q.1.map fun x => (sizes.getD q.2 0, x), ?_, by simp [hyl], ?_⟩
  · unfold lossConvergenceUq
    rw [trainingSizes_eq ht]
    have h3 : yss.zipIdx.mapM (fun q => do
        let s ← orRaise sizes[q.2]? .indexError
        let row ← assignLossRow last.length q.1
        pure (row.map fun x => (s, x))) =
        Except.ok (ε := PyErr) (yss.zipIdx.map fun q => q.1.map fun x => (sizes.getD q.2 0, x)) := by
      refine mapM_of_forall (g := fun q : List ℝ × ℕ => q.1.map fun x => (sizes.getD q.2 0, x))
        fun q hq => ?_
      obtain ⟨hq1, hq2, hq3⟩ := List.mem_zipIdx hq
      have hi : q.2 < sizes.length := by omega
      have hql : q.1.length = last.length := by
        rw [hlr, hq3]
        exact hl _ (List.getElem_mem _)
      simp [orRaise, List.getElem?_eq_getElem hi, assignLossRow, hql, bind, Except.bind, pure, Except.pure,
        List.getD]
    simp only [bind, Except.bind] at h1 h3 ⊢
    rw [h1]
    simp only [hlast, orRaise]
    exact h3
  · intro i row hrow
    rw [List.getElem?_map, Option.map_eq_some_iff] at hrow
    obtain ⟨q, hq, rfl⟩ := hrow
    rw [List.getElem?_zipIdx, Option.map_eq_some_iff] at hq
    obtain ⟨ys, hys, rfl⟩ := hq
    obtain ⟨hi, rfl⟩ := List.getElem?_eq_some_iff.mp hys
    have hil : i < losses.length := by omega
    refine ⟨sizes[i]'(by omega), losses[i], List.getElem?_eq_getElem _, List.getElem?_eq_getElem hil, ?_⟩
    rw [List.forall₂_map_right_iff]
    have := h2.get hil hi
    refine this.imp fun x y hxy => ⟨?_, hxy⟩
    simp [List.getD, List.getElem?_eq_getElem (by omega : i < sizes.length)]

/-- **C134 is violated for a single realization.**  If the last model has several realizations and another
one only one, the single loss is shown once for each realization of the last model. -/
theorem C134_repeated_violated {k1 k2 : KDict Text ℕ} {s1 s2 : ℕ} (h1 : HoldsOne DatasetName k1 s1)
    (h2 : HoldsOne DatasetName k2 s2) {type : Text} {m1 m2 : Option (List (Text × Realization))} {x : ℝ}
    {l : List ℝ} (hm1 : UqModel type m1 [x]) (hm2 : UqModel type m2 l) :
    ∃ y ys, lossConvergenceUq [some k1, some k2] [type, type] [m1, m2] =
      .ok [List.replicate l.length (s1, y), ys.map fun z => (s2, z)] ∧ NineDigits x y ∧
      List.Forall₂ NineDigits l ys := by
  obtain ⟨yss, g1, g2⟩ := uq_losses (types := [type, type]) (models := [m1, m2]) (losses := [[x], l]) (by simp)
    (by
      intro i m l' t hi hl ht
      rcases i with _ | _ | i
      · cases hi; cases hl; cases ht; exact hm1
      · cases hi; cases hl; cases ht; exact hm2
      · cases hi) rfl
  cases g2 with
  | cons ga gb =>
    cases gb with
    | cons gc gd =>
      cases gd
      cases ga with
      | cons gx gy =>
        cases gy
        rename_i ys y
        refine ⟨y, ys, ?_, gx, gc⟩
        unfold lossConvergenceUq
        rw [trainingSizes_eq (sizes := [s1, s2]) (.cons ⟨k1, rfl, h1⟩ (.cons ⟨k2, rfl, h2⟩ .nil))]
        simp only [bind, Except.bind] at g1 ⊢
        rw [g1]
        have e1 : assignLossRow ys.length [y] = .ok (List.replicate ys.length y) := by
          unfold assignLossRow
          split_ifs with h
          · rw [← h]
            rfl
          · rfl
        have e2 : assignLossRow ys.length ys = .ok ys := by simp [assignLossRow]
        simp [orRaise, e1, e2, pure, Except.pure, bind, Except.bind, gc.length_eq]

/-- **C134 is violated for different numbers of realizations.**  If a model has several realizations but
not as many as the last one, there is no convergence plot. -/
theorem C134_counts_violated {train : List (Option (KDict Text ℕ))} {type : Text}
    {m1 m2 : Option (List (Text × Realization))} {l1 l2 : List ℝ} (hm1 : UqModel type m1 l1)
    (hm2 : UqModel type m2 l2) (h1 : l1.length ≠ 1) (h2 : l1.length ≠ l2.length) :
    ∀ rows, lossConvergenceUq train [type, type] [m1, m2] ≠ .ok rows := by
  obtain ⟨yss, g1, g2⟩ := uq_losses (types := [type, type]) (models := [m1, m2]) (losses := [l1, l2]) (by simp)
    (by
      intro i m l' t hi hl ht
      rcases i with _ | _ | i
      · cases hi; cases hl; cases ht; exact hm1
      · cases hi; cases hl; cases ht; exact hm2
      · cases hi) rfl
  cases g2 with
  | cons ga gb =>
    cases gb with
    | cons gc gd =>
      cases gd
      rename_i y1 y2
      intro rows h
      unfold lossConvergenceUq at h
      obtain ⟨sizes, -, h⟩ := bind_ok h
      rw [g1] at h
      obtain ⟨yss', h3, h⟩ := bind_ok h
      cases h3
      obtain ⟨last, h4, h⟩ := bind_ok h
      have hl : last = y2 := by
        have := orRaise_ok.mp h4
        simpa using this.symm
      subst hl
      obtain ⟨row, -, hr⟩ := forall₂_mem_left (mapM_forall₂ h) (x := (y1, 0)) (by simp)
      obtain ⟨s, -, hr⟩ := bind_ok hr
      obtain ⟨row', hr, -⟩ := bind_ok hr
      unfold assignLossRow at hr
      rw [if_neg (by rw [← ga.length_eq, ← gc.length_eq]; exact h2)] at hr
      have e1 := ga.length_eq
      cases y1 with
      | nil => cases hr
      | cons a t =>
        cases t with
        | nil => exact h1 (by rw [e1]; rfl)
        | cons b t => cases hr

/-- **C134 is violated for other directories beginning with `model_`.**  A copy of a realization, such as
`model_0_old`, counts as a realization. -/
theorem C134_stray_violated {α : Type} (a b : α) :
    uqSamples [("model_0_old".toList, a), (realizationName 1, b)] = [a, b] := by
  have h1 : isModelDir "model_0_old".toList = true := by decide
  have h2 : lastNumber "model_0_old".toList = some 0 := by decide
  unfold uqSamples
  generalize "model_0_old".toList = w at h1 h2
  simp [h1, h2, isModelDir_realization, lastNumber_realization, sortByKey, List.insertionSort]

/-- **C134 is violated for other numbers of realizations.**  The losses of the realizations are shown only if
the number asked for is that of the realizations found: not for fewer. -/
theorem C134_fewer_violated {n : ℕ} {type : Text} {dirs : List (Text × Realization)} {ls : List ℝ}
    (h : uqPlotLosses n type dirs = .ok ls) : (uqSamples dirs).length = n ∧ ls.length = n := by
  unfold uqPlotLosses at h
  obtain ⟨_, _, h⟩ := bind_ok h
  obtain ⟨preds, hp, h⟩ := bind_ok h
  have hf := mapM_forall₂ hp
  have hpl : preds.length = n := by rw [← hf.length_eq, List.length_range]
  have hg := mapM_forall₂ h
  have hll : ls.length = (uqSamples dirs).length := by rw [← hg.length_eq, List.length_range]
  have h1 : n ≤ (uqSamples dirs).length := by
    by_contra hcon
    obtain ⟨d, -, hd⟩ := forall₂_mem_left hf (x := (uqSamples dirs).length) (List.mem_range.mpr (by omega))
    have := orRaise_ok.mp hd
    rw [List.getElem?_eq_none (le_refl _)] at this
    cases this
  have h2 : (uqSamples dirs).length ≤ n := by
    by_contra hcon
    obtain ⟨d, -, hd⟩ := forall₂_mem_left hg (x := n) (List.mem_range.mpr (by omega))
    obtain ⟨d', hd, -⟩ := bind_ok hd
    have := orRaise_ok.mp hd
    rw [List.getElem?_eq_none (by omega)] at this
    cases this
  omega

end Hooke
