import Verif.Spec.LmuData
import Verif.Props.LmuParameters
import Verif.Lemmas.PyDict
import Verif.Lemmas.MapM
import Verif.Lemmas.StrainPath
import Verif.Props.TimeSeriesBatch
import Verif.Props.PatchCorners
import Verif.Props.SpecimenHistory
import Verif.Props.LearnableParameters

/-!
# C131: data of the local model updating pipeline
-/

noncomputable section

namespace Hooke

open Spec

variable {α : Type}

/-! ### Numbers of samples -/

theorem truncInt_check {n : ℕ} {x : ℝ} :
    (¬ truncInt ((n : ℝ) * x) < 1 ∧ ¬ (n : ℤ) - truncInt ((n : ℝ) * x) < 1) ↔
      1 ≤ (n : ℝ) * x ∧ (n : ℝ) * x < n := by
  unfold truncInt
  generalize (n : ℝ) * x = y
  split
  · rw [not_lt, not_lt, Int.le_floor]
    constructor
    · rintro ⟨h1, h2⟩
      refine ⟨by exact_mod_cast h1, ?_⟩
      have : ⌊y⌋ < (n : ℤ) := by omega
      exact_mod_cast Int.floor_lt.mp this
    · rintro ⟨h1, h2⟩
      refine ⟨by exact_mod_cast h1, ?_⟩
      have : ⌊y⌋ < (n : ℤ) := Int.floor_lt.mpr (by exact_mod_cast h2)
      omega
  · rename_i h
    constructor
    · rintro ⟨h1, -⟩
      have : ⌈y⌉ ≤ 0 := Int.ceil_le.mpr (by push_cast; linarith)
      omega
    · rintro ⟨h1, -⟩
      linarith

theorem ratioStep_ok {c : Text × ℕ} {ratio r : KDict Text ℝ} :
    ratioStep ratio c = .ok r ↔ r = ratio ∧
      ∃ x, ratio.get? c.1 = some x ∧ 1 ≤ (c.2 : ℝ) * x ∧ (c.2 : ℝ) * x < c.2 := by
  unfold ratioStep
  constructor
  · intro h
    dsimp only at h
    obtain ⟨_, e1, h⟩ := bind_ok h
    obtain ⟨_, e2, h⟩ := bind_ok h
    rw [raiseIf_ok] at e1 e2
    have := truncInt_check.mp ⟨e1, e2⟩
    cases h
    cases hg : ratio.get? c.1 with
    | some x =>
      have hh : ratio.has c.1 = true := by simp [KDict.has, hg]
      rw [if_pos hh] at this ⊢
      rw [hg] at this
      exact ⟨rfl, x, rfl, this⟩
    | none =>
      have hh : ¬ ratio.has c.1 = true := by simp [KDict.has, hg]
      rw [if_neg hh, KDict.get?_put_self] at this
      simp only [Option.getD_some, mul_one] at this
      exact absurd this.2 (lt_irrefl _)
  · rintro ⟨rfl, x, hx, h1, h2⟩
    have hh : r.has c.1 = true := by simp [KDict.has, hx]
    obtain ⟨h3, h4⟩ := truncInt_check.mpr ⟨h1, h2⟩
    simp only [hh, if_true, hx, Option.getD_some]
    rw [(raiseIf_ok (u := ())).mpr h3, (raiseIf_ok (u := ())).mpr h4]
    rfl

/-- C131a: the numbers of samples are accepted exactly if every data set type has its ratio of random
strain paths, and the ratio gives at least one random and one proportional strain path; the ratios are
then left as they are. -/
theorem C131_counts {counts : KDict Text ℕ} {ratio r : KDict Text ℝ} :
    lmuRatios counts ratio = .ok r ↔ r = ratio ∧
      ∀ c ∈ counts, ∃ x, ratio.get? c.1 = some x ∧ 1 ≤ (c.2 : ℝ) * x ∧ (c.2 : ℝ) * x < c.2 := by
  unfold lmuRatios
  induction counts generalizing r with
  | nil => simp [List.foldlM, pure, Except.pure, eq_comm]
  | cons c l ih =>
    rw [List.foldlM_cons]
    by_cases hc : ∃ x, ratio.get? c.1 = some x ∧ 1 ≤ (c.2 : ℝ) * x ∧ (c.2 : ℝ) * x < c.2
    · rw [ratioStep_ok.mpr ⟨rfl, hc⟩]
      change (l.foldlM _ ratio = _) ↔ _
      rw [ih]
      constructor
      · rintro ⟨rfl, h⟩
        exact ⟨rfl, fun c' hc' => (List.mem_cons.mp hc').elim (by rintro rfl; exact hc) (h c')⟩
      · rintro ⟨rfl, h⟩
        exact ⟨rfl, fun c' hc' => h c' (List.mem_cons_of_mem _ hc')⟩
    · constructor
      · intro h
        obtain ⟨r1, hr1, -⟩ := bind_ok h
        exact absurd (ratioStep_ok.mp hr1).2 hc
      · rintro ⟨-, h⟩
        exact absurd (h c (List.mem_cons_self ..)) hc

theorem lmuRatios_error {counts : KDict Text ℕ} {ratio : KDict Text ℝ} {e : PyErr}
    (h : lmuRatios counts ratio = .error e) : e = .runtimeError := by
  unfold lmuRatios at h
  induction counts generalizing ratio with
  | nil => cases h
  | cons c l ih =>
    rw [List.foldlM_cons] at h
    cases hs : ratioStep ratio c with
    | ok r =>
      rw [hs] at h
      exact ih h
    | error e' =>
      rw [hs] at h
      cases h
      unfold ratioStep raiseIf at hs
      dsimp only at hs
      generalize (if ratio.has c.1 = true then ratio else ratio.put c.1 1) = r' at hs
      by_cases h1 : truncInt ((c.2 : ℝ) * (r'.get? c.1).getD 1) < 1
      · rw [if_pos h1] at hs
        cases hs
        rfl
      · rw [if_neg h1] at hs
        by_cases h2 : (c.2 : ℤ) - truncInt ((c.2 : ℝ) * (r'.get? c.1).getD 1) < 1
        · rw [if_pos h2] at hs
          cases hs
          rfl
        · rw [if_neg h2] at hs
          cases hs

/-- **C131 is violated for the default ratio.**  A data set type without a ratio of random strain paths
is documented to use random strain paths only; it is always refused. -/
theorem C131_default_violated {env : LmuEnv α} {model : String} {temps comps : List ℝ}
    {counts : KDict Text ℕ} {ratio : KDict Text ℝ} {ty : Text} {n : ℕ} (h : (ty, n) ∈ counts)
    (hr : ratio.get? ty = none) :
    lmuGenerate env model temps comps counts ratio = .error .runtimeError := by
  unfold lmuGenerate
  cases hx : lmuRatios counts ratio with
  | error e => rw [lmuRatios_error hx]; rfl
  | ok r =>
    obtain ⟨x, h1, -⟩ := (C131_counts.mp hx).2 _ h
    rw [hr] at h1
    cases h1

/-! ### Samples -/

theorem lmuTrials_ok {att : ℕ → Py (α × Bool)} {m k : ℕ} {r : α} :
    lmuTrials att m k = .ok r ↔
      ∃ j < m, att (k + j) = .ok (r, false) ∧ ∀ j' < j, ∃ r', att (k + j') = .ok (r', true) := by
  induction m generalizing k with
  | zero =>
    constructor
    · intro h
      obtain ⟨_, -, h⟩ := bind_ok h
      cases h
    · rintro ⟨j, hj, -⟩
      omega
  | succ m ih =>
    constructor
    · intro h
      obtain ⟨⟨r0, f⟩, h0, h⟩ := bind_ok h
      cases f with
      | false =>
        cases h
        exact ⟨0, by omega, h0, fun j' h => by omega⟩
      | true =>
        obtain ⟨j, hj, h1, h2⟩ := ih.mp h
        refine ⟨j + 1, by omega, by rw [← h1]; congr 1; omega, fun j' hj' => ?_⟩
        cases j' with
        | zero => exact ⟨r0, h0⟩
        | succ j' =>
          obtain ⟨r', h3⟩ := h2 j' (by omega)
          exact ⟨r', by rw [← h3]; congr 1; omega⟩
    · rintro ⟨j, hj, h1, h2⟩
      unfold lmuTrials
      cases j with
      | zero =>
        rw [Nat.add_zero] at h1
        rw [h1]
        rfl
      | succ j =>
        obtain ⟨r0, h0⟩ := h2 0 (by omega)
        rw [Nat.add_zero] at h0
        rw [h0]
        change lmuTrials att m (k + 1) = _
        rw [ih]
        refine ⟨j, by omega, by rw [← h1]; congr 1; omega, fun j' hj' => ?_⟩
        obtain ⟨r', h3⟩ := h2 (j' + 1) (by omega)
        exact ⟨r', by rw [← h3]; congr 1; omega⟩

theorem closestIdx_of_mem {l : List ℝ} {x : ℝ} (h : x ∈ l) :
    ∃ hi : closestIdx l x < l.length, l[closestIdx l x] = x := by
  classical
  have hi : closestIdx l x < l.length := by
    unfold closestIdx
    rw [List.findIdx_lt_length]
    exact ⟨x, h, by simp⟩
  refine ⟨hi, ?_⟩
  have : ∀ z ∈ l, |l[closestIdx l x] - x| ≤ |z - x| := by
    have := List.findIdx_getElem (p := fun y => decide (∀ z ∈ l, |y - x| ≤ |z - x|)) (w := hi)
    exact of_decide_eq_true this
  have := this x h
  rw [sub_self, abs_zero, abs_nonpos_iff, sub_eq_zero] at this
  exact this

theorem npUniform_mem {a b u : ℝ} (h : a ≤ b) (h0 : 0 ≤ u) (h1 : u ≤ 1) :
    a ≤ npUniform a b u ∧ npUniform a b u ≤ b := by
  unfold npUniform
  constructor <;> nlinarith

theorem neighbourDraw_between {l : List ℝ} (hs : l.Pairwise (· ≤ ·)) {x u : ℝ} (h : x ∈ l) (h0 : 0 ≤ u)
    (h1 : u ≤ 1) : BetweenNeighbours l x (neighbourDraw l x u) := by
  obtain ⟨hi, hx⟩ := closestIdx_of_mem h
  unfold neighbourDraw
  dsimp only
  generalize closestIdx l x = i at *
  have hj : min (i + 1) (l.length - 1) < l.length := by omega
  have hm : ∀ a b : ℕ, ∀ (ha : a < l.length) (hb : b < l.length), a ≤ b → l[a] ≤ l[b] := by
    intro a b ha hb hab
    rcases hab.lt_or_eq with hab | rfl
    · exact List.pairwise_iff_getElem.mp hs a b ha hb hab
    · exact le_rfl
  have e1 : l.getD (i - 1) 0 = l[i - 1] := by simp [List.getD, (by omega : i - 1 < l.length)]
  have e2 : l.getD (min (i + 1) (l.length - 1)) 0 = l[min (i + 1) (l.length - 1)] := by
    rw [List.getD, List.getElem?_eq_getElem hj, Option.getD_some]
  rw [e1, e2]
  have l1 := hm (i - 1) i (by omega) hi (by omega)
  have l2 := hm i (min (i + 1) (l.length - 1)) hi hj (by omega)
  rw [hx] at l1 l2
  refine ⟨_, List.getElem_mem _, _, List.getElem_mem _, l1, l2, ?_, ?_,
    npUniform_mem (l1.trans l2) h0 h1⟩
  · rintro z hz ⟨h3, h4⟩
    obtain ⟨k, hk, rfl⟩ := List.mem_iff_getElem.mp hz
    rcases Nat.lt_or_ge k i with hki | hki
    · exact absurd (hm k (i - 1) hk (by omega) (by omega)) (by linarith)
    · have := hm i k hi hk hki
      rw [hx] at this
      linarith
  · rintro z hz ⟨h3, h4⟩
    obtain ⟨k, hk, rfl⟩ := List.mem_iff_getElem.mp hz
    rcases Nat.lt_or_ge i k with hki | hki
    · exact absurd (hm _ k hj hk (by omega : min (i + 1) (l.length - 1) ≤ k)) (by linarith)
    · have := hm k i hk hi hki
      rw [hx] at this
      linarith

theorem between_bounds {l : List ℝ} {x y a b : ℝ} (h : BetweenNeighbours l x y)
    (hl : ∀ z ∈ l, a ≤ z ∧ z ≤ b) : a ≤ y ∧ y ≤ b := by
  obtain ⟨lo, hlo, hi, hhi, -, -, -, -, h1, h2⟩ := h
  exact ⟨(hl lo hlo).1.trans h1, h2.trans (hl hi hhi).2⟩

theorem tc_model {name : String} {T C : ℝ} {q : TcParams} (h : tcParameters name T C = .ok q) :
    name = "von_mises" ∧ TcAdmissible T C :=
  ⟨(C130_parameters.mp h).1, (C130_parameters.mp h).2.1⟩

theorem lmuSample_expected {env : LmuEnv α} (hu : LmuUnitDraws env) {model : String} {temps comps : List ℝ}
    (ht : temps.Pairwise (· ≤ ·)) (hc : comps.Pairwise (· ≤ ·)) {n : ℕ} {x : ℝ} (hx : 0 ≤ (n : ℝ) * x)
    {p : ℕ} {T C : ℝ} (hT : T ∈ temps) (hC : C ∈ comps) {ty : Text} {i : ℕ} {s : LmuSample α}
    (h : lmuSample env model temps comps (truncInt ((n : ℝ) * x)) p T C ty i = .ok s) :
    Expected env temps comps x p T C ty n i s := by
  unfold lmuSample at h
  dsimp only at h
  obtain ⟨q, hq, h⟩ := bind_ok h
  obtain ⟨r, hr, h⟩ := bind_ok h
  cases h
  obtain ⟨rfl, ha⟩ := tc_model hq
  obtain ⟨k, hk, h1, h2⟩ := lmuTrials_ok.mp hr
  simp only [Nat.zero_add] at h1 h2
  have hb : betweenGrid ty = true ↔ ty = "validation".toList ∨ ty = "testing_id".toList := by
    unfold betweenGrid
    rw [Bool.or_eq_true, decide_eq_true_eq, decide_eq_true_eq]
  refine ⟨?_, ?_, ?_, ha, q, hq, k, hk, h1, h2⟩
  · dsimp only
    rw [decide_eq_true_eq]
    unfold truncInt
    rw [if_pos hx]
  · dsimp only
    by_cases h3 : betweenGrid ty = true
    · rw [if_pos (hb.mp h3), if_pos h3]
      exact neighbourDraw_between ht hT (hu p ty i).1.1 (hu p ty i).1.2
    · rw [if_neg (fun h4 => h3 (hb.mpr h4)), if_neg h3]
  · dsimp only
    by_cases h3 : betweenGrid ty = true
    · rw [if_pos (hb.mp h3), if_pos h3]
      exact neighbourDraw_between hc hC (hu p ty i).2.1 (hu p ty i).2.2
    · rw [if_neg (fun h4 => h3 (hb.mpr h4)), if_neg h3]

/-! ### Generation -/

theorem foldlM_put {K β ι : Type} [DecidableEq K] {key : ι → K} {f : ι → Py β} {l : List ι}
    {d0 d : KDict K β} :
    l.foldlM (fun (d : KDict K β) q => do let v ← f q; return d.put (key q) v) d0 = .ok d ↔
      ∃ vs, l.mapM f = .ok vs ∧
        d = ((l.map key).zip vs).foldl (fun (d : KDict K β) (kv : K × β) => d.put kv.1 kv.2) d0 := by
  induction l generalizing d0 with
  | nil =>
    constructor
    · intro h
      cases h
      exact ⟨[], rfl, rfl⟩
    · rintro ⟨vs, h, rfl⟩
      rfl
  | cons q l ih =>
    rw [List.foldlM_cons]
    constructor
    · intro h
      obtain ⟨d1, h1, h⟩ := bind_ok h
      obtain ⟨v, hv, h1⟩ := bind_ok h1
      cases h1
      obtain ⟨vs, h2, rfl⟩ := ih.mp h
      refine ⟨v :: vs, ?_, rfl⟩
      rw [List.mapM_cons, hv, h2]
      rfl
    · rintro ⟨vs, h, rfl⟩
      rw [List.mapM_cons] at h
      obtain ⟨v, hv, h⟩ := bind_ok h
      obtain ⟨vs', h2, h⟩ := bind_ok h
      cases h
      rw [hv]
      exact ih.mpr ⟨vs', h2, rfl⟩

theorem foldl_puts_get? {K β : Type} [DecidableEq K] (l : List (K × β)) (k : K) (v : β) :
    (l.foldl (fun (d : KDict K β) (kv : K × β) => d.put kv.1 kv.2) []).get? k = some v ↔
      ∃ i : ℕ, l[i]? = some (k, v) ∧ ∀ j > i, ∀ kv, l[j]? = some kv → kv.1 ≠ k := by
  induction l using List.reverseRecOn with
  | nil => simp [KDict.get?]
  | append_singleton l x ih =>
    rw [List.foldl_append, List.foldl_cons, List.foldl_nil, KDict.get?_put]
    by_cases hk : k = x.1
    · rw [if_pos hk]
      constructor
      · intro h
        cases h
        refine ⟨l.length, by rw [hk]; simp, fun j hj kv h => ?_⟩
        rw [List.getElem?_eq_none (by simp; omega)] at h
        cases h
      · rintro ⟨i, h1, h2⟩
        rcases Nat.lt_trichotomy i l.length with h | h | h
        · exact absurd hk.symm (h2 l.length h x (by simp))
        · rw [h] at h1
          simp only [List.getElem?_append_right (le_refl _), Nat.sub_self, List.getElem?_cons_zero,
            Option.some.injEq] at h1
          rw [h1]
        · rw [List.getElem?_eq_none (by simp; omega)] at h1
          cases h1
    · rw [if_neg hk, ih]
      constructor
      · rintro ⟨i, h1, h2⟩
        have hi : i < l.length := (List.getElem?_eq_some_iff.mp h1).1
        refine ⟨i, by rw [List.getElem?_append_left hi]; exact h1, fun j hj kv h => ?_⟩
        rcases Nat.lt_trichotomy j l.length with h3 | h3 | h3
        · rw [List.getElem?_append_left h3] at h
          exact h2 j hj kv h
        · rw [h3] at h
          simp only [List.getElem?_append_right (le_refl _), Nat.sub_self, List.getElem?_cons_zero,
            Option.some.injEq] at h
          rw [← h]
          exact fun h4 => hk h4.symm
        · rw [List.getElem?_eq_none (by simp; omega)] at h
          cases h
      · rintro ⟨i, h1, h2⟩
        rcases Nat.lt_trichotomy i l.length with h3 | h3 | h3
        · rw [List.getElem?_append_left h3] at h1
          refine ⟨i, h1, fun j hj kv h => h2 j hj kv ?_⟩
          rw [List.getElem?_append_left (List.getElem?_eq_some_iff.mp h).1]
          exact h
        · rw [h3] at h1
          simp only [List.getElem?_append_right (le_refl _), Nat.sub_self, List.getElem?_cons_zero,
            Option.some.injEq] at h1
          rw [h1] at hk
          exact absurd rfl hk
        · rw [List.getElem?_eq_none (by simp; omega)] at h1
          cases h1

theorem foldl_put_keys {K β : Type} [DecidableEq K] (l : List (K × β)) :
    (l.foldl (fun (d : KDict K β) (kv : K × β) => d.put kv.1 kv.2) []).keys.Nodup ∧
      ∀ k, k ∈ (l.foldl (fun (d : KDict K β) (kv : K × β) => d.put kv.1 kv.2) []).keys ↔
        k ∈ l.map Prod.fst := by
  induction l using List.reverseRecOn with
  | nil => exact ⟨List.nodup_nil, fun k => Iff.rfl⟩
  | append_singleton l x ih =>
    rw [List.foldl_append, List.foldl_cons, List.foldl_nil]
    refine ⟨KDict.nodup_put ih.1 _ _, fun k => ?_⟩
    rw [KDict.keys_put, List.map_append, List.mem_append]
    split_ifs with h
    · rw [ih.2]
      constructor
      · exact Or.inl
      · rintro (h1 | h1)
        · exact h1
        · rw [List.map_singleton, List.mem_singleton] at h1
          rw [h1, ← ih.2]
          first | exact h | exact KDict.has_iff.mp h
    · rw [List.mem_append, ih.2]
      simp

theorem foldl_put_of_nodup {K β : Type} [DecidableEq K] {l : List (K × β)} (h : (l.map Prod.fst).Nodup) :
    l.foldl (fun (d : KDict K β) (kv : K × β) => d.put kv.1 kv.2) [] = l := by
  induction l using List.reverseRecOn with
  | nil => rfl
  | append_singleton l x ih =>
    rw [List.map_append, List.nodup_append] at h
    rw [List.foldl_append, List.foldl_cons, List.foldl_nil, ih h.1, put_of_notMem]
    exact fun h1 => h.2.2 _ h1 _ (List.mem_singleton_self _) rfl

theorem forall₂_imp_mem {β γ : Type} {R S : β → γ → Prop} {l : List β} {r : List γ}
    (h : ∀ a ∈ l, ∀ b, R a b → S a b) (hr : List.Forall₂ R l r) : List.Forall₂ S l r := by
  induction hr with
  | nil => exact .nil
  | cons h1 _ ih => exact .cons (h _ (by simp) _ h1) (ih fun a ha => h a (List.mem_cons_of_mem _ ha))

theorem lmuGenerate_ok {env : LmuEnv α} {model : String} {temps comps : List ℝ}
    {counts : KDict Text ℕ} {ratio : KDict Text ℝ} {fs : LmuStore α} :
    lmuGenerate env model temps comps counts ratio = .ok fs ↔
      lmuRatios counts ratio = .ok ratio ∧ ∃ vs,
        (temps.product comps).zipIdx.mapM (lmuPass env model temps comps counts ratio) = .ok vs ∧
        fs = ((pairNames temps comps).zip vs).foldl
          (fun (d : LmuStore α) kv => d.put kv.1 kv.2) [] := by
  have hn : (temps.product comps).zipIdx.map (fun q => depName q.1.1 q.1.2) = pairNames temps comps := by
    unfold pairNames
    rw [← List.zipIdx_map_fst 0 (temps.product comps), List.map_map]
    rw [List.zipIdx_map_fst]
    rfl
  unfold lmuGenerate
  rw [bind_ok_iff]
  constructor
  · rintro ⟨r, hr, h⟩
    obtain rfl := (C131_counts.mp hr).1
    refine ⟨hr, ?_⟩
    rw [← hn]
    exact foldlM_put.mp h
  · rintro ⟨hr, h⟩
    refine ⟨ratio, hr, ?_⟩
    rw [← hn] at h
    exact foldlM_put.mpr h

theorem lmuPair_expected {env : LmuEnv α} (hu : LmuUnitDraws env) {model : String} {temps comps : List ℝ}
    (ht : temps.Pairwise (· ≤ ·)) (hc : comps.Pairwise (· ≤ ·)) {counts : KDict Text ℕ}
    {ratio : KDict Text ℝ} (hr : lmuRatios counts ratio = .ok ratio) {p : ℕ} {T C : ℝ} (hT : T ∈ temps)
    (hC : C ∈ comps) {ds : KDict Text (List (LmuSample α))}
    (h : lmuPair env model temps comps counts ratio p T C = .ok ds) :
    ExpectedSets env temps comps counts ratio p T C ds := by
  unfold lmuPair at h
  refine forall₂_imp_mem (fun c hcm d h1 => ?_) (mapM_forall₂ h)
  obtain ⟨ss, hs, h1⟩ := bind_ok h1
  cases h1
  obtain ⟨x, hx, h2, -⟩ := (C131_counts.mp hr).2 c hcm
  refine ⟨rfl, by rw [← (mapM_forall₂ hs).length_eq, List.length_range], x, hx, fun i s h3 => ?_⟩
  rw [hx, Option.getD_some] at hs
  have hf := mapM_forall₂ hs
  have hi : i < c.2 := by
    have := (List.getElem?_eq_some_iff.mp h3).1
    rwa [← hf.length_eq, List.length_range] at this
  obtain ⟨hi', rfl⟩ := List.getElem?_eq_some_iff.mp h3
  have := hf.get (by simpa using hi) hi'
  simp only [List.get_eq_getElem, List.getElem_range] at this
  exact lmuSample_expected hu ht hc (by linarith) hT hC this

/-- C131b: a successful generation leaves one directory for each name of a pair of temperature and
composition of the grid.  The directory holds, for the last pair of that name, one data set of each
type with the number of samples asked for, each as expected. -/
theorem C131_generate {env : LmuEnv α} (hu : LmuUnitDraws env) {model : String} {temps comps : List ℝ}
    (ht : temps.Pairwise (· ≤ ·)) (hc : comps.Pairwise (· ≤ ·)) {counts : KDict Text ℕ}
    {ratio : KDict Text ℝ} {fs : LmuStore α}
    (h : lmuGenerate env model temps comps counts ratio = .ok fs) :
    fs.keys.Nodup ∧ (∀ T ∈ temps, ∀ C ∈ comps, (fixed2 T, fixed2 C) ∈ fs.keys) ∧
    ∀ name ds, fs.get? name = some ds → ∃ (p : ℕ) (T C : ℝ), (temps.product comps)[p]? = some (T, C) ∧
      (fixed2 T, fixed2 C) = name ∧
      (∀ q > p, ∀ T' C', (temps.product comps)[q]? = some (T', C') → (fixed2 T', fixed2 C') ≠ name) ∧
      ExpectedSets env temps comps counts ratio p T C ds := by
  obtain ⟨hr, vs, hv, rfl⟩ := lmuGenerate_ok.mp h
  have hlen : vs.length = (temps.product comps).length := by
    rw [← (mapM_forall₂ hv).length_eq, List.length_zipIdx]
  have hnl : (pairNames temps comps).length = vs.length := by rw [hlen]; simp [pairNames]
  refine ⟨(foldl_put_keys _).1, fun T hT C hC => ?_, fun name ds hg => ?_⟩
  · rw [(foldl_put_keys _).2, List.map_fst_zip (by omega)]
    unfold pairNames
    exact List.mem_map.mpr ⟨(T, C), List.mem_product.mpr ⟨hT, hC⟩, rfl⟩
  · obtain ⟨i, h1, h2⟩ := (foldl_puts_get? _ _ _).mp hg
    rw [List.getElem?_zip_eq_some] at h1
    obtain ⟨h3, h4⟩ := h1
    unfold pairNames at h3
    rw [List.getElem?_map, Option.map_eq_some_iff] at h3
    obtain ⟨⟨T, C⟩, h5, h6⟩ := h3
    refine ⟨i, T, C, h5, h6, fun q hq T' C' h7 h8 => ?_, ?_⟩
    · have hql := (List.getElem?_eq_some_iff.mp h7).1
      refine h2 q hq ((fixed2 T', fixed2 C'), vs[q]'(by omega)) ?_ h8
      rw [List.getElem?_zip_eq_some]
      refine ⟨?_, List.getElem?_eq_getElem _⟩
      unfold pairNames
      rw [List.getElem?_map, h7]
      rfl
    · obtain ⟨hT, hC⟩ := List.mem_product.mp (List.mem_of_getElem? h5)
      have hf := mapM_forall₂ hv
      obtain ⟨hi, rfl⟩ := List.getElem?_eq_some_iff.mp h4
      have := hf.get (by rw [hf.length_eq]; exact hi) hi
      simp only [List.get_eq_getElem, List.getElem_zipIdx, Nat.zero_add] at this
      rw [(List.getElem?_eq_some_iff.mp h5).2] at this
      unfold lmuPass at this
      obtain ⟨_, -, this⟩ := bind_ok this
      obtain ⟨_, -, this⟩ := bind_ok this
      exact lmuPair_expected hu ht hc hr hT hC this

end Hooke
