import Verif.Spec.ReferencePaths
import Verif.Lemmas.PyDict
import Verif.Lemmas.MapM
import Verif.Lemmas.StrainPath
import Verif.Lemmas.TextFile

/-!
# C164: reference stress paths at temperatures and compositions
-/

noncomputable section

namespace Hooke

open Spec

theorem percentOf_whole {c : ℝ} (h : 0 ≤ c) : WholePercent c (percentOf c) := by
  unfold percentOf truncInt WholePercent
  rw [if_pos (by positivity), mul_comm 100 c]
  exact ⟨Int.floor_le _, Int.lt_floor_add_one _⟩

theorem percentOf_eq {c : ℝ} (h : 0 ≤ c) {p : ℤ} (hp : WholePercent c p) : percentOf c = p := by
  unfold percentOf truncInt
  rw [if_pos (by positivity), mul_comm c 100]
  exact Int.floor_eq_iff.mpr hp

theorem percentOf_apart {comps : List ℝ} (h : PercentApart comps) {c c' : ℝ} (hc : c ∈ comps)
    (hc' : c' ∈ comps) (he : percentOf c = percentOf c') : c = c' := by
  by_contra hne
  have h1 := h.2 c hc c' hc' hne
  have h2 := percentOf_whole (h.1 c hc)
  have h3 := percentOf_whole (h.1 c' hc')
  rw [← he] at h3
  obtain ⟨a1, a2⟩ := h2
  obtain ⟨b1, b2⟩ := h3
  have : |c - c'| < 1 / 100 := by
    rw [abs_lt]
    constructor <;> linarith
  linarith

theorem textOfInt_inj164 {a b : ℤ} (h : textOfInt a = textOfInt b) : a = b := by
  have h1 := intOfText_word a
  rw [h, intOfText_word b] at h1
  cases h1
  rfl

theorem textOfInt_no_underscore {z : ℤ} : '_' ∉ textOfInt z := by
  unfold textOfInt
  intro h
  split_ifs at h
  · rcases List.mem_cons.mp h with h | h
    · exact absurd h (by decide)
    · exact absurd (isDigit_of_mem_strNat h) (by decide)
  · exact absurd (isDigit_of_mem_strNat h) (by decide)

theorem append_underscore_inj {a b r s : List Char} (ha : '_' ∉ a) (hb : '_' ∉ b)
    (h : a ++ '_' :: r = b ++ '_' :: s) : a = b ∧ r = s := by
  induction a generalizing b with
  | nil =>
    cases b with
    | nil => exact ⟨rfl, (List.cons.inj h).2⟩
    | cons x b => exact absurd (List.mem_cons.mpr (Or.inl (List.cons.inj h).1)) hb
  | cons y a ih =>
    cases b with
    | nil => exact absurd (List.mem_cons.mpr (Or.inl (List.cons.inj h).1.symm)) ha
    | cons x b =>
      obtain ⟨h1, h2⟩ := List.cons.inj h
      obtain ⟨h3, h4⟩ := ih (fun h => ha (List.mem_cons_of_mem _ h))
        (fun h => hb (List.mem_cons_of_mem _ h)) h2
      exact ⟨by rw [h1, h3], h4⟩

theorem entryName_inj {T T' p p' : ℤ} (h : entryName T p = entryName T' p') : T = T' ∧ p = p' := by
  unfold entryName at h
  rw [List.append_assoc, List.append_assoc] at h
  have h1 : textOfInt T ++ '_' :: ('C' :: '_' :: textOfInt p) =
      textOfInt T' ++ '_' :: ('C' :: '_' :: textOfInt p') := List.append_cancel_left h
  obtain ⟨h2, h3⟩ := append_underscore_inj textOfInt_no_underscore textOfInt_no_underscore h1
  exact ⟨textOfInt_inj164 h2, textOfInt_inj164 (List.cons.inj (List.cons.inj h3).2).2⟩

theorem conditionKey_eq (T : ℤ) (c : ℝ) : conditionKey T c = entryName T (percentOf c) := by
  unfold conditionKey entryName
  rw [List.append_assoc]

theorem foldlM_puts_get {K β ι : Type} [DecidableEq K] {key : ι → K} {f : ι → Py β} {l : List ι}
    {d : KDict K β}
    (h : l.foldlM (fun (d : KDict K β) q => do let v ← f q; return d.put (key q) v) [] = .ok d) :
    (∀ k v, d.get? k = some v → ∃ q ∈ l, key q = k ∧ f q = .ok v) ∧
      ∀ q ∈ l, (∀ q' ∈ l, key q' = key q → f q' = f q) → ∃ v, f q = .ok v ∧ d.get? (key q) = some v := by
  induction l using List.reverseRecOn generalizing d with
  | nil =>
    cases h
    exact ⟨fun k v h => (by cases h), fun q hq => (by cases hq)⟩
  | append_singleton l x ih =>
    rw [List.foldlM_append] at h
    obtain ⟨d1, h1, h⟩ := bind_ok h
    rw [List.foldlM_cons] at h
    obtain ⟨d2, h2, h⟩ := bind_ok h
    cases h
    obtain ⟨v, hv, h2⟩ := bind_ok h2
    cases h2
    obtain ⟨i1, i2⟩ := ih h1
    constructor
    · intro k w hw
      by_cases hk : k = key x
      · subst hk
        rw [KDict.get?_put_self] at hw
        cases hw
        exact ⟨x, by simp, rfl, hv⟩
      · rw [KDict.get?_put_ne _ _ hk] at hw
        obtain ⟨q, hq, h3⟩ := i1 k w hw
        exact ⟨q, List.mem_append_left _ hq, h3⟩
    · intro q hq hs
      by_cases hk : key q = key x
      · refine ⟨v, ?_, ?_⟩
        · rw [← hs x (by simp) hk.symm]
          exact hv
        · rw [hk, KDict.get?_put_self]
      · rcases List.mem_append.mp hq with hq | hq
        · obtain ⟨w, h3, h4⟩ := i2 q hq fun q' hq' => hs q' (List.mem_append_left _ hq')
          exact ⟨w, h3, by rw [KDict.get?_put_ne _ _ hk]; exact h4⟩
        · rw [List.mem_singleton] at hq
          exact absurd (by rw [hq]) hk

theorem mem_grid {temps : List ℤ} {comps : List ℝ} {q : ℤ × ℝ} :
    q ∈ (temps.flatMap fun T => comps.map fun c => (T, c)) ↔ q.1 ∈ temps ∧ q.2 ∈ comps := by
  rw [List.mem_flatMap]
  constructor
  · rintro ⟨T, hT, h⟩
    obtain ⟨c, hc, rfl⟩ := List.mem_map.mp h
    exact ⟨hT, hc⟩
  · rintro ⟨hT, hc⟩
    exact ⟨q.1, hT, List.mem_map.mpr ⟨q.2, hc, rfl⟩⟩

/-- **C164 (data set).** For compositions one percent or more apart, the data set of reference paths has,
for each temperature and composition, an entry named by the temperature and the composition in whole
percent, which is the path computed for this temperature and this composition, and it has no other
entries. -/
theorem C164_dataset {vm : ℤ → ℝ → Py PathModel} {prescribed : List ℝ} {temps : List ℤ} {comps : List ℝ}
    {d : KDict Text PathPair} (hc : PercentApart comps)
    (h : buildReference vm prescribed temps comps = .ok d) :
    (∀ T ∈ temps, ∀ c ∈ comps, ∀ p, WholePercent c p →
      ∃ m v, vm T c = .ok m ∧ uniaxialPath "von_mises" m T c (1 / 10 ^ 8) 30 prescribed = .ok v ∧
        d.get? (entryName T p) = some v) ∧
    ∀ k v, d.get? k = some v → ∃ T ∈ temps, ∃ c ∈ comps, ∃ p, WholePercent c p ∧ k = entryName T p := by
  unfold buildReference at h
  obtain ⟨h1, h2⟩ := foldlM_puts_get (key := fun q : ℤ × ℝ => conditionKey q.1 q.2)
    (f := fun q : ℤ × ℝ => referencePath vm prescribed q.1 q.2) h
  constructor
  · intro T hT c hcm p hp
    obtain ⟨v, hv, hg⟩ := h2 (T, c) (mem_grid.mpr ⟨hT, hcm⟩) (by
      intro q hq he
      obtain ⟨-, hqc⟩ := mem_grid.mp hq
      dsimp only at he ⊢
      rw [conditionKey_eq, conditionKey_eq] at he
      obtain ⟨e1, e2⟩ := entryName_inj he
      rw [e1, percentOf_apart hc hqc hcm e2])
    dsimp only at hv hg
    unfold referencePath at hv
    obtain ⟨m, hm, hv⟩ := bind_ok hv
    refine ⟨m, v, hm, hv, ?_⟩
    rw [← percentOf_eq (hc.1 c hcm) hp, ← conditionKey_eq]
    exact hg
  · intro k v hk
    obtain ⟨q, hq, rfl, -⟩ := h1 k v hk
    obtain ⟨a, b⟩ := mem_grid.mp hq
    exact ⟨q.1, a, q.2, b, _, percentOf_whole (hc.1 _ b), conditionKey_eq _ _⟩

theorem forall₂_imp_mem164 {α β : Type} {R S : α → β → Prop} {l : List α} {r : List β}
    (hi : ∀ x ∈ l, ∀ y, R x y → S x y) (h : List.Forall₂ R l r) : List.Forall₂ S l r := by
  induction h with
  | nil => exact .nil
  | cons h1 _ ih =>
    exact .cons (hi _ (by simp) _ h1) (ih fun x hx => hi x (List.mem_cons_of_mem _ hx))

theorem axialColumn_ok {path : List (List ℝ)} {x : List ℝ} (h : axialColumn path = .ok x) :
    List.Forall₂ (fun x (r : List ℝ) => r[2]? = some x) x path := by
  unfold axialColumn at h
  refine (mapM_forall₂ h).flip.imp fun a b hab => ?_
  cases hr : b[2]? with
  | none => rw [hr] at hab; cases hab
  | some y => rw [hr] at hab; cases hab; rfl

theorem conditionCurves_ok {name : String} {getModel : ℤ → ℝ → Py PathModel} {data : KDict Text PathPair}
    {label : Text} {T : ℤ} {c : ℝ} {cs : List PathCurve}
    (h : conditionCurves name getModel data label T c = .ok cs) :
    ∃ v m stress q q', data.get? (conditionKey T c) = some v ∧ getModel T c = .ok m ∧
      forwardMaterial name m T c v.1 = .ok stress ∧ cs = [q, q'] ∧
      ShowsAxial q label v.1 stress ∧ ShowsAxial q' (label ++ " (J2)".toList) v.1 v.2 := by
  unfold conditionCurves at h
  obtain ⟨v, hv, h⟩ := bind_ok h
  obtain ⟨m, hm, h⟩ := bind_ok h
  obtain ⟨stress, hs, h⟩ := bind_ok h
  obtain ⟨x, hx, h⟩ := bind_ok h
  obtain ⟨y, hy, h⟩ := bind_ok h
  obtain ⟨r, hr, h⟩ := bind_ok h
  cases h
  refine ⟨v, m, stress, _, _, ?_, hm, hs, rfl, ⟨rfl, axialColumn_ok hx, axialColumn_ok hy⟩,
    rfl, axialColumn_ok hx, axialColumn_ok hr⟩
  cases hd : data.get? (conditionKey T c) with
  | none => rw [hd] at hv; cases hv
  | some w => rw [hd] at hv; cases hv; rfl

theorem inPairs_flatten {α : Type} {l : List α} {parts : List (List PathCurve)}
    {R : α → PathCurve → PathCurve → Prop}
    (h : List.Forall₂ (fun x part => ∃ q q', part = [q, q'] ∧ R x q q') l parts) :
    InPairs parts.flatten l.length fun j q q' => ∃ x, l[j]? = some x ∧ R x q q' := by
  induction h with
  | nil => exact ⟨rfl, fun j hj => (by cases hj)⟩
  | @cons x part l parts hx h ih =>
    obtain ⟨q, q', rfl, hr⟩ := hx
    obtain ⟨h1, h2⟩ := ih
    constructor
    · rw [List.flatten_cons, List.length_append, h1, List.length_cons]
      simp only [List.length_cons, List.length_nil]
      omega
    · intro j hj
      cases j with
      | zero => exact ⟨q, q', rfl, rfl, x, rfl, hr⟩
      | succ j =>
        obtain ⟨a, b, ha, hb, hp⟩ := h2 j (by rw [List.length_cons] at hj; omega)
        exact ⟨a, b, ha, hb, hp⟩

theorem inPairs_mono {curves : List PathCurve} {n : ℕ} {P Q : ℕ → PathCurve → PathCurve → Prop}
    (h : InPairs curves n P) (hi : ∀ j q q', P j q q' → Q j q q') : InPairs curves n Q :=
  ⟨h.1, fun j hj => by
    obtain ⟨q, q', h1, h2, h3⟩ := h.2 j hj
    exact ⟨q, q', h1, h2, hi j q q' h3⟩⟩

theorem curves_compare {vm : ℤ → ℝ → Py PathModel} {prescribed : List ℝ} {temps : List ℤ} {comps : List ℝ}
    {d : KDict Text PathPair} (hc : PercentApart comps)
    (hd : buildReference vm prescribed temps comps = .ok d) {name : String}
    {getModel : ℤ → ℝ → Py PathModel} {label : Text} {T : ℤ} (hT : T ∈ temps) {c : ℝ} (hcm : c ∈ comps)
    {cs : List PathCurve} (h : conditionCurves name getModel d label T c = .ok cs) :
    ∃ q q', cs = [q, q'] ∧ ComparesWith vm prescribed name getModel label T c q q' := by
  obtain ⟨v, m, stress, q, q', hv, hm, hs, rfl, h1, h2⟩ := conditionCurves_ok h
  obtain ⟨ref, w, hr, hw, hg⟩ := (C164_dataset hc hd).1 T hT c hcm _ (percentOf_whole (hc.1 c hcm))
  rw [← conditionKey_eq, hv] at hg
  cases hg
  exact ⟨q, q', rfl, ref, v, m, stress, hr, hw, hm, hs, h1, h2⟩

/-- **C164 (figures of temperatures).** With the data set built for the same temperatures and
compositions, there is a figure for each temperature, in order; its curves are a pair for each
composition, in order: the stresses of the evaluated model for the reference strain path of this
temperature and composition, and the reference stresses, labelled with the whole percent. -/
theorem C164_by_temperature {vm : ℤ → ℝ → Py PathModel} {prescribed : List ℝ} {temps : List ℤ}
    {comps : List ℝ} {d : KDict Text PathPair} (hc : PercentApart comps)
    (hd : buildReference vm prescribed temps comps = .ok d) {name : String}
    {getModel : ℤ → ℝ → Py PathModel} {figs : List PathFigure}
    (h : figuresByTemperature name getModel d temps comps = .ok figs) :
    List.Forall₂ (fun T (f : PathFigure) => f.file = "stress_vs_strain_T_".toList ++ textOfInt T ∧
      f.title = "T = ".toList ++ textOfInt T ++ " °C".toList ∧
      InPairs f.curves comps.length fun j q q' => ∃ c p, comps[j]? = some c ∧ WholePercent c p ∧
        ComparesWith vm prescribed name getModel (textOfInt p ++ "\\%".toList) T c q q') temps figs := by
  unfold figuresByTemperature at h
  refine forall₂_imp_mem164 (fun T hT f hf => ?_) (mapM_forall₂ h)
  obtain ⟨cs, hcs, hf⟩ := bind_ok hf
  cases hf
  refine ⟨rfl, rfl, ?_⟩
  have h1 := forall₂_imp_mem164 (S := fun c part => ∃ q q', part = [q, q'] ∧
    (c ∈ comps ∧ ComparesWith vm prescribed name getModel (textOfInt (percentOf c) ++ "\\%".toList) T c q q'))
    (fun c hcm part hp => by
      obtain ⟨q, q', e, h2⟩ := curves_compare hc hd hT hcm hp
      exact ⟨q, q', e, hcm, h2⟩) (mapM_forall₂ hcs)
  refine inPairs_mono (inPairs_flatten h1) ?_
  rintro j q q' ⟨c, hj, hcm, h2⟩
  exact ⟨c, _, hj, percentOf_whole (hc.1 c hcm), h2⟩

/-- **C164 (figures of compositions).** Likewise with a figure for each composition, whose curves are a
pair for each temperature. -/
theorem C164_by_composition {vm : ℤ → ℝ → Py PathModel} {prescribed : List ℝ} {temps : List ℤ}
    {comps : List ℝ} {d : KDict Text PathPair} (hc : PercentApart comps)
    (hd : buildReference vm prescribed temps comps = .ok d) {name : String}
    {getModel : ℤ → ℝ → Py PathModel} {figs : List PathFigure}
    (h : figuresByComposition name getModel d temps comps = .ok figs) :
    List.Forall₂ (fun c (f : PathFigure) => (∃ p, WholePercent c p ∧
        f.file = "stress_vs_strain_C_".toList ++ textOfInt p ∧
        f.title = "C = ".toList ++ textOfInt p ++ "\\%".toList) ∧
      InPairs f.curves temps.length fun j q q' => ∃ T, temps[j]? = some T ∧
        ComparesWith vm prescribed name getModel (textOfInt T ++ "°C".toList) T c q q') comps figs := by
  unfold figuresByComposition at h
  refine forall₂_imp_mem164 (fun c hcm f hf => ?_) (mapM_forall₂ h)
  obtain ⟨cs, hcs, hf⟩ := bind_ok hf
  cases hf
  refine ⟨⟨_, percentOf_whole (hc.1 c hcm), rfl, rfl⟩, ?_⟩
  have h1 := forall₂_imp_mem164 (S := fun T part => ∃ q q', part = [q, q'] ∧
    ComparesWith vm prescribed name getModel (textOfInt T ++ "°C".toList) T c q q')
    (fun T hT part hp => curves_compare hc hd hT hcm hp) (mapM_forall₂ hcs)
  exact inPairs_flatten h1

theorem column_unique {x y : List ℝ} {rows : List (List ℝ)}
    (hx : List.Forall₂ (fun x (r : List ℝ) => r[2]? = some x) x rows)
    (hy : List.Forall₂ (fun x (r : List ℝ) => r[2]? = some x) y rows) : x = y := by
  induction hx generalizing y with
  | nil => cases hy; rfl
  | cons h1 _ ih =>
    cases hy with
    | cons h2 h3 =>
      rw [ih h3]
      rw [h1] at h2
      cases h2
      rfl

/-- **C164 (von Mises).** Evaluated with the models that the data set was built with, each pair of curves
coincides. -/
theorem C164_same {vm : ℤ → ℝ → Py PathModel} {prescribed : List ℝ} {label : List Char} {T : ℤ} {c : ℝ}
    {q q' : PathCurve} (h : ComparesWith vm prescribed "von_mises" vm label T c q q') :
    q.strain = q'.strain ∧ q.stress = q'.stress := by
  obtain ⟨ref, v, m, stress, hr, hv, hm, hs, h1, h2⟩ := h
  rw [hr] at hm
  cases hm
  unfold uniaxialPath at hv
  obtain ⟨strain, hst, hv⟩ := bind_ok hv
  obtain ⟨stress', hs', hv⟩ := bind_ok hv
  cases hv
  rw [hs'] at hs
  cases hs
  exact ⟨column_unique h1.2.1 h2.2.1, column_unique h1.2.2 h2.2.2⟩

/-- **C164 (test cases).** The two test cases have compositions one percent or more apart, the first one
has a figure for each temperature and the second one for each composition; other test cases are
refused, and so is a data set without one of the entries. -/
theorem C164_cases (name : String) (getModel : ℤ → ℝ → Py PathModel) (data : KDict Text PathPair) :
    (∃ temps comps, testCaseGrid 1 = .ok (temps, comps) ∧ temps = [25, 325, 625] ∧
      comps = [0, 1 / 4, 1 / 2, 3 / 4, 1] ∧ PercentApart comps ∧
      evaluateReference 1 name getModel data = figuresByTemperature name getModel data temps comps) ∧
    (∃ temps comps, testCaseGrid 2 = .ok (temps, comps) ∧ temps = [25, 125, 225, 325, 425, 525, 625] ∧
      comps = [0, 1 / 2, 1] ∧ PercentApart comps ∧
      evaluateReference 2 name getModel data = figuresByComposition name getModel data temps comps) ∧
    (∀ k, k ≠ 1 → k ≠ 2 → evaluateReference k name getModel data = .error .valueError) ∧
    ∀ label T c p, 0 ≤ c → WholePercent c p → data.get? (entryName T p) = none →
      conditionCurves name getModel data label T c = .error .keyError := by
  refine ⟨⟨_, _, rfl, rfl, by norm_num, ?_, rfl⟩, ⟨_, _, rfl, rfl, by norm_num, ?_, rfl⟩, ?_, ?_⟩
  · constructor
    · intro c hc
      fin_cases hc <;> norm_num
    · intro c hc c' hc' hne
      fin_cases hc <;> fin_cases hc' <;> first | exact absurd rfl hne | norm_num [abs_le, le_abs]
  · constructor
    · intro c hc
      fin_cases hc <;> norm_num
    · intro c hc c' hc' hne
      fin_cases hc <;> fin_cases hc' <;> first | exact absurd rfl hne | norm_num [abs_le, le_abs]
  · intro k h1 h2
    unfold evaluateReference testCaseGrid
    rw [if_neg h1, if_neg h2]
    rfl
  · intro label T c p hc hp hn
    unfold conditionCurves
    rw [conditionKey_eq, percentOf_eq hc hp, hn]
    rfl

/-- **C164 is violated for compositions of the same whole percent.** Of two compositions with the same
whole percent, the data set keeps one entry, the path of the second one, and the figures of the first
one show it as the reference. -/
theorem C164_same_percent_violated {vm : ℤ → ℝ → Py PathModel} {prescribed : List ℝ} {T p : ℤ}
    {c c' : ℝ} (hc : 0 ≤ c) (hc' : 0 ≤ c') (hp : WholePercent c p) (hp' : WholePercent c' p)
    {d : KDict Text PathPair} (h : buildReference vm prescribed [T] [c, c'] = .ok d) :
    ∃ m v, vm T c' = .ok m ∧ uniaxialPath "von_mises" m T c' (1 / 10 ^ 8) 30 prescribed = .ok v ∧
      d = [(entryName T p, v)] ∧
      ∀ {name getModel figs}, figuresByTemperature name getModel d [T] [c] = .ok figs →
        ∃ f q q', figs = [f] ∧ f.curves = [q, q'] ∧
          ShowsAxial q' (textOfInt p ++ "\\% (J2)".toList) v.1 v.2 := by
  have hk : conditionKey T c = entryName T p := by rw [conditionKey_eq, percentOf_eq hc hp]
  have hk' : conditionKey T c' = entryName T p := by rw [conditionKey_eq, percentOf_eq hc' hp']
  unfold buildReference at h
  simp only [List.flatMap_cons, List.flatMap_nil, List.map_cons, List.map_nil, List.append_nil] at h
  rw [List.foldlM_cons] at h
  obtain ⟨d1, h1, h⟩ := bind_ok h
  rw [List.foldlM_cons] at h
  obtain ⟨d2, h2, h⟩ := bind_ok h
  cases h
  obtain ⟨v, hv, h1⟩ := bind_ok h1
  cases h1
  obtain ⟨w, hw, h2⟩ := bind_ok h2
  cases h2
  unfold referencePath at hw
  obtain ⟨m, hm, hw⟩ := bind_ok hw
  have hd : KDict.put (KDict.put ([] : KDict Text PathPair) (conditionKey T c) v) (conditionKey T c') w =
      [(entryName T p, w)] := by
    rw [hk, hk']
    simp [KDict.put]
  refine ⟨m, w, hm, hw, hd, ?_⟩
  intro name getModel figs hf
  change figuresByTemperature name getModel
    (KDict.put (KDict.put ([] : KDict Text PathPair) (conditionKey T c) v) (conditionKey T c') w) [T] [c] =
      .ok figs at hf
  rw [hd] at hf
  unfold figuresByTemperature at hf
  rw [List.mapM_cons] at hf
  obtain ⟨f, hf1, hf⟩ := bind_ok hf
  rw [List.mapM_nil] at hf
  cases hf
  obtain ⟨cs, hcs, hf1⟩ := bind_ok hf1
  cases hf1
  rw [List.mapM_cons] at hcs
  obtain ⟨part, hp1, hcs⟩ := bind_ok hcs
  rw [List.mapM_nil] at hcs
  cases hcs
  obtain ⟨u, m', stress, q, q', hu, -, -, rfl, -, h4⟩ := conditionCurves_ok hp1
  rw [hk] at hu
  simp only [KDict.get?, if_true] at hu
  cases hu
  refine ⟨_, q, q', rfl, rfl, ?_⟩
  rw [percentOf_eq hc hp, List.append_assoc] at h4
  exact h4

/-- **C164 is violated for the composition 29 %.** The double that is written 0.29 is less than 29 %, so
that its entry and its labels say 28 %, where the entry of 28 % is too. -/
theorem C164_double_violated :
    |(5224175567749775 / 2 ^ 54 : ℝ) - 29 / 100| ≤ 1 / 2 ^ 55 ∧
      ∀ T, conditionKey T (5224175567749775 / 2 ^ 54) = entryName T 28 := by
  constructor
  · rw [abs_le]
    constructor <;> norm_num
  · intro T
    rw [conditionKey_eq, percentOf_eq (p := 28) (by positivity) (by constructor <;> norm_num)]

/-- The compositions 0.25 and 0.255 have the same whole percent. -/
example : WholePercent (1 / 4) 25 ∧ WholePercent (51 / 200) 25 := by
  constructor <;> constructor <;> norm_num

/-- A material whose stresses are the strains, without lateral stress only for the zero path: a data set
of the zero path is built. -/
example : ∃ d, buildReference (fun _ _ => .ok (.vonMises id)) [0] [25, 325] [0, 1 / 4] = .ok d ∧
    d.keys = [entryName 25 0, entryName 25 25, entryName 325 0, entryName 325 25] := by
  have hp : ∀ T c, referencePath (fun _ _ => .ok (.vonMises id)) [0] T c =
      .ok ([[0, 0, 0, 0, 0, 0]], [[0, 0, 0, 0, 0, 0]]) := by
    intro T c
    simp [referencePath, uniaxialPath, trialStrain, forwardMaterial, callMaterial, raiseIf, sameShape, bind,
      Except.bind, pure, Except.pure]
  have h0 : percentOf 0 = 0 := percentOf_eq le_rfl (by constructor <;> norm_num)
  have h25 : percentOf (1 / 4) = 25 := percentOf_eq (by norm_num) (by constructor <;> norm_num)
  unfold buildReference
  simp only [hp, conditionKey_eq, List.flatMap_cons, List.flatMap_nil, List.map_cons, List.map_nil,
    List.append_nil, List.cons_append, List.nil_append, List.foldlM_cons, List.foldlM_nil, bind, Except.bind,
    pure, Except.pure, h0, h25]
  refine ⟨_, rfl, ?_⟩
  have a : entryName 25 0 ≠ entryName 25 25 := fun h => by simpa using (entryName_inj h).2
  have b : entryName 25 0 ≠ entryName 325 0 := fun h => by simpa using (entryName_inj h).1
  have c : entryName 25 0 ≠ entryName 325 25 := fun h => by simpa using (entryName_inj h).1
  have e : entryName 25 25 ≠ entryName 325 0 := fun h => by simpa using (entryName_inj h).1
  have f : entryName 25 25 ≠ entryName 325 25 := fun h => by simpa using (entryName_inj h).1
  have g : entryName 325 0 ≠ entryName 325 25 := fun h => by simpa using (entryName_inj h).2
  simp [KDict.put, KDict.keys, a, b, c, e, f, g]

/-- Figures of a data set of this material. -/
example : ∃ figs figs', figuresByTemperature "von_mises" (fun _ _ => .ok (.vonMises id))
      [(entryName 25 0, ([[0, 0, 0, 0, 0, 0]], [[0, 0, 0, 0, 0, 0]]))] [25] [0] = .ok figs ∧
    figs.length = 1 ∧ figuresByComposition "von_mises" (fun _ _ => .ok (.vonMises id))
      [(entryName 25 0, ([[0, 0, 0, 0, 0, 0]], [[0, 0, 0, 0, 0, 0]]))] [25] [0] = .ok figs' ∧
    figs'.length = 1 := by
  have h0 : percentOf 0 = 0 := percentOf_eq le_rfl (by constructor <;> norm_num)
  have hf : ∀ label, ∃ cs, conditionCurves "von_mises" (fun _ _ => .ok (.vonMises id))
      [(entryName 25 0, ([[0, 0, 0, 0, 0, 0]], [[0, 0, 0, 0, 0, 0]]))] label 25 0 = .ok cs := by
    intro label
    refine ⟨[⟨label, [0], [0]⟩, ⟨label ++ " (J2)".toList, [0], [0]⟩], ?_⟩
    unfold conditionCurves
    rw [conditionKey_eq, h0]
    simp [KDict.get?, orRaise, forwardMaterial, callMaterial, raiseIf, sameShape, axialColumn, bind,
      Except.bind, pure, Except.pure]
  obtain ⟨cs, h1⟩ := hf (textOfInt (percentOf 0) ++ "\\%".toList)
  obtain ⟨cs', h2⟩ := hf (textOfInt 25 ++ "°C".toList)
  have e1 : ∃ f, figuresByTemperature "von_mises" (fun _ _ => .ok (.vonMises id))
      [(entryName 25 0, ([[0, 0, 0, 0, 0, 0]], [[0, 0, 0, 0, 0, 0]]))] [25] [0] = .ok [f] := by
    refine ⟨⟨"T = ".toList ++ textOfInt 25 ++ " °C".toList, "stress_vs_strain_T_".toList ++ textOfInt 25,
      [cs].flatten⟩, ?_⟩
    unfold figuresByTemperature
    simp only [List.mapM_cons, List.mapM_nil, h1, bind, Except.bind, pure, Except.pure]
  have e2 : ∃ f, figuresByComposition "von_mises" (fun _ _ => .ok (.vonMises id))
      [(entryName 25 0, ([[0, 0, 0, 0, 0, 0]], [[0, 0, 0, 0, 0, 0]]))] [25] [0] = .ok [f] := by
    refine ⟨⟨"C = ".toList ++ textOfInt (percentOf 0) ++ "\\%".toList,
      "stress_vs_strain_C_".toList ++ textOfInt (percentOf 0), [cs'].flatten⟩, ?_⟩
    unfold figuresByComposition
    simp only [List.mapM_cons, List.mapM_nil, h2, bind, Except.bind, pure, Except.pure]
  obtain ⟨f, hf1⟩ := e1
  obtain ⟨f', hf2⟩ := e2
  exact ⟨[f], [f'], hf1, rfl, hf2, rfl⟩

end Hooke
