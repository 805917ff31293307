import Verif.Model.Voigt
import Verif.Spec.Kelvin
import Mathlib.Data.Sym.Card
import Mathlib.Algebra.BigOperators.Group.Finset.Basic
import Mathlib.Algebra.BigOperators.Ring.Finset
import Verif.Lemmas.Tactics

namespace Hooke

open Spec

/-! ### Folds of item assignments -/

/-- Perform a list of item assignments. -/
def Tensor.writes (t : Tensor) (ws : List (List ℕ × ℝ)) : Tensor :=
  ws.foldl (fun t w => t.set w.1 w.2) t

theorem Tensor.writes_append (t : Tensor) (a b) :
    t.writes (a ++ b) = (t.writes a).writes b := by simp [Tensor.writes]

@[simp] theorem Tensor.writes_shape (t : Tensor) (ws) : (t.writes ws).shape = t.shape := by
  induction ws generalizing t with
  | nil => rfl
  | cons w ws ih => simp only [Tensor.writes, List.foldl_cons] at *; rw [ih]; rfl

theorem Tensor.writes_other (t : Tensor) (ws) (j : List ℕ) (h : ∀ w ∈ ws, w.1 ≠ j) :
    (t.writes ws).val j = t.val j := by
  induction ws generalizing t with
  | nil => rfl
  | cons w ws ih =>
    simp only [Tensor.writes, List.foldl_cons] at *
    rw [ih _ (fun w' hw' => h w' (by simp [hw']))]
    have := h w (by simp)
    simp [Tensor.set, Ne.symm this]

theorem Tensor.writes_val (t : Tensor) (ws) (j : List ℕ) (c : ℝ)
    (h : ∀ w ∈ ws, w.1 = j → w.2 = c) (he : ∃ w ∈ ws, w.1 = j) :
    (t.writes ws).val j = c := by
  induction ws using List.reverseRecOn generalizing t with
  | nil => simp at he
  | append_singleton ws w ih =>
    rw [Tensor.writes_append]
    by_cases hw : w.1 = j
    · have := h w (by simp) hw
      simp [Tensor.writes, Tensor.set, hw, this]
    · have h2 : ((t.writes ws).writes [w]).val j = (t.writes ws).val j := by
        simp [Tensor.writes, Tensor.set, Ne.symm hw]
      rw [h2]
      apply ih
      · intro w' hw'; exact h w' (by simp [hw'])
      · obtain ⟨w', hw', e⟩ := he
        rcases List.mem_append.1 hw' with h' | h'
        · exact ⟨w', h', e⟩
        · simp at h'; subst h'; exact absurd e hw

theorem foldl_eq_writes {α} (f : Tensor → α → Tensor) (g : α → List (List ℕ × ℝ))
    (h : ∀ t a, f t a = t.writes (g a)) (l : List α) (t : Tensor) :
    l.foldl f t = t.writes (l.flatMap g) := by
  induction l generalizing t with
  | nil => rfl
  | cons a l ih => rw [List.foldl_cons, ih, h, List.flatMap_cons, Tensor.writes_append]

/-! ### Orders -/

theorem Spec.ValidPairs.ij {n : ℕ} {co : List Comp} (h : ValidPairs n co) {c : Comp} (hc : c ∈ co) :
    c.i < n ∧ c.j < n ∧ c = [c.i + 1, c.j + 1] := by
  obtain ⟨a, b, h1, h2, h3, h4, rfl⟩ := h.pair c hc
  simp [Comp.i, Comp.j]; omega

theorem Spec.ValidPairs.ext {n : ℕ} {co : List Comp} (h : ValidPairs n co) {c d : Comp} (hc : c ∈ co) (hd : d ∈ co)
    (h1 : c.i = d.i) (h2 : c.j = d.j) : c = d := by
  rw [(h.ij hc).2.2, (h.ij hd).2.2, h1, h2]

theorem Spec.ValidPairs.not_badDigit {n : ℕ} {co : List Comp} (h : ValidPairs n co) : badDigit n co = false := by
  simp only [badDigit, List.any_eq_false, List.mem_flatten, forall_exists_index, and_imp]
  intro x c hc hx
  obtain ⟨a, b, h1, h2, h3, h4, rfl⟩ := h.pair c hc
  simp at hx
  simp; omega

theorem Spec.ValidPairs.not_badLength {n : ℕ} {co : List Comp} (h : ValidPairs n co) : badLength co = false := by
  simp only [badLength, List.any_eq_false]
  intro c hc
  obtain ⟨a, b, h1, h2, h3, h4, rfl⟩ := h.pair c hc
  simp

theorem hasDuplicate_eq_false {co : List Comp} : hasDuplicate co = false ↔ co.Nodup := by
  simp only [hasDuplicate, ne_eq, decide_not, Bool.not_eq_eq_eq_not, Bool.not_false,
    decide_eq_true_eq]
  constructor
  · intro h
    have : co.dedup = co := (List.dedup_sublist co).eq_of_length h
    rw [← this]; exact List.nodup_dedup co
  · intro h; rw [h.dedup]

theorem Spec.ValidPairs.checks {n : ℕ} {co : List Comp} (h : ValidPairs n co) :
    badDigit n co = false ∧ badLength co = false ∧ hasDuplicate co = false :=
  ⟨h.not_badDigit, h.not_badLength, hasDuplicate_eq_false.2 h.nodup⟩

theorem validPairs_of_checks {n : ℕ} {co : List Comp} (h1 : badDigit n co = false) (h2 : badLength co = false)
    (h3 : hasDuplicate co = false) : ValidPairs n co := by
  refine ⟨?_, hasDuplicate_eq_false.1 h3⟩
  intro c hc
  simp only [badLength, List.any_eq_false] at h2
  have hl := h2 c hc
  simp at hl
  obtain ⟨a, b, rfl⟩ := List.length_eq_two.1 hl
  simp only [badDigit, List.any_eq_false, List.mem_flatten, forall_exists_index, and_imp] at h1
  have ha := h1 a _ hc (by simp)
  have hb := h1 b _ hc (by simp)
  simp at ha hb
  exact ⟨a, b, by omega, by omega, by omega, by omega, rfl⟩

theorem sum_range_eq_choose (n : ℕ) : (List.range (n + 1)).sum = (n + 1).choose 2 := by
  induction n with
  | zero => rfl
  | succ n ih =>
    rw [List.range_succ, List.sum_append, ih, Nat.choose_succ_succ' (n + 1) 1]
    simp; omega

theorem Spec.CompleteFull.length_eq {n : ℕ} {co : List Comp} (h : CompleteFull n co) : co.length = n ^ 2 := by
  classical
  have e : co.toFinset = (Finset.range n ×ˢ Finset.range n).image (fun p => [p.1 + 1, p.2 + 1]) := by
    ext c
    simp only [List.mem_toFinset, Finset.mem_image, Finset.mem_product, Finset.mem_range]
    constructor
    · intro hc
      have := h.toValidPairs.ij hc
      exact ⟨(c.i, c.j), ⟨this.1, this.2.1⟩, this.2.2.symm⟩
    · rintro ⟨p, ⟨h1, h2⟩, rfl⟩
      exact h.covers _ _ (by omega) (by omega) (by omega) (by omega)
  have hl : co.length = co.toFinset.card := by
    rw [List.toFinset_card_of_nodup h.nodup]
  rw [hl, e, Finset.card_image_of_injective]
  · simp [sq]
  · rintro ⟨a, b⟩ ⟨c, d⟩ hh; simpa using hh

theorem Spec.CompleteSym.length_eq {n : ℕ} {co : List Comp} (h : CompleteSym n co) :
    co.length = (List.range (n + 1)).sum := by
  classical
  rw [sum_range_eq_choose]
  have hv := h.toValidPairs
  let f : Comp → Sym2 ℕ := fun c => s(c.i, c.j)
  have hl : co.length = (co.toFinset.image f).card := by
    rw [Finset.card_image_of_injOn, List.toFinset_card_of_nodup h.nodup]
    intro c hc d hd hcd
    simp only [List.coe_toFinset, Set.mem_ofPred_eq] at hc hd
    simp only [f, Sym2.eq_iff] at hcd
    rcases hcd with ⟨h1, h2⟩ | ⟨h1, h2⟩
    · exact hv.ext hc hd h1 h2
    · by_cases he : c.i = c.j
      · exact hv.ext hc hd (by omega) (by omega)
      · exfalso
        have e1 := (hv.ij hc).2.2
        have e2 := (hv.ij hd).2.2
        rw [← h1, ← h2] at e2
        refine h.once (c.i + 1) (c.j + 1) (by omega) (e1 ▸ hc) (e2 ▸ hd)
  have e : co.toFinset.image f = (Finset.range n).sym2 := by
    ext z
    induction z using Sym2.ind with
    | _ a b =>
    simp only [Finset.mem_image, List.mem_toFinset, Finset.mk_mem_sym2_iff, Finset.mem_range, f]
    constructor
    · rintro ⟨c, hc, hz⟩
      have := hv.ij hc
      rw [Sym2.eq_iff] at hz
      omega
    · rintro ⟨h1, h2⟩
      rcases h.covers (a + 1) (b + 1) (by omega) (by omega) (by omega) (by omega) with hc | hc
      · exact ⟨_, hc, by simp [Comp.i, Comp.j]⟩
      · exact ⟨_, hc, by simp [Comp.i, Comp.j, Sym2.eq_swap]⟩
  rw [hl, e, Finset.card_sym2]
  simp

/-! ### The Kelvin flag -/

theorem kelvinFlag_full {n : ℕ} {co : List Comp} (h : CompleteFull n co) (k : Bool) :
    kelvinFlag n co k = .ok false := by
  simp [kelvinFlag, h.length_eq]

theorem kelvinFlag_sym {n : ℕ} {co : List Comp} (h : CompleteSym n co) (k : Bool) :
    ∃ k', kelvinFlag n co k = .ok k' ∧ ∀ c ∈ co, c.i ≠ c.j → k' = k := by
  unfold kelvinFlag
  by_cases h1 : co.length = n ^ 2
  · refine ⟨false, by simp [h1], ?_⟩
    intro c hc hne
    exfalso
    have hl := h.length_eq
    rw [sum_range_eq_choose, h1, Nat.choose_two_right] at hl
    have hb := h.toValidPairs.ij hc
    have h2 : 2 ≤ n := by have := hb.1; have := hb.2.1; omega
    have h3 : (n + 1) * (n + 1 - 1) < 2 * n ^ 2 := by
      simp only [Nat.add_sub_cancel]; nlinarith
    omega
  · refine ⟨k, by rw [if_neg h1, if_pos h.length_eq], fun _ _ _ => rfl⟩

theorem kFactor_congr {k k' : Bool} {c : Comp} (h : c.i ≠ c.j → k' = k) :
    kFactor k' c = kFactor k c := by
  unfold kFactor
  by_cases e : c.i = c.j
  · simp [e]
  · rw [h e]

theorem kFactor_pos (k : Bool) (c : Comp) : 0 < kFactor k c := by
  unfold kFactor; split
  · positivity
  · norm_num

theorem kFactor4_eq (k : Bool) (a b : Comp) :
    kFactor4 k a b = kFactor k a * kFactor k b := by
  unfold kFactor4 kFactor
  cases k <;> by_cases h1 : a.i = a.j <;> by_cases h2 : b.i = b.j <;> simp [h1, h2]

theorem idxOf_getElem {co : List Comp} (h : co.Nodup) {p : ℕ} (hp : p < co.length) :
    co.idxOf co[p] = p := h.idxOf_getElem p hp

/-! ### Characterisation of the conversions -/

theorem getTensorMf_two {n : ℕ} {co : List Comp} (h : ValidPairs n co) {k k'} (hk : kelvinFlag n co k = .ok k')
    {t : Tensor} (ht : t.shape = [n, n]) :
    ∃ m, getTensorMf t n co k = .ok m ∧ m.shape = [co.length] ∧
      ∀ c ∈ co, m.val [co.idxOf c] = kFactor k' c * t.val [c.i, c.j] := by
  obtain ⟨h1, h2, h3⟩ := h.checks
  let g : Comp → List (List ℕ × ℝ) := fun c => [([co.idxOf c], kFactor k' c * t.val [c.i, c.j])]
  refine ⟨(Tensor.zeros [co.length]).writes (co.flatMap g), ?_, by simp [Tensor.zeros], ?_⟩
  · have e := foldl_eq_writes (fun (mf : Tensor) (c : Comp) =>
      mf.set [co.idxOf c] (kFactor k' c * t.val [c.i, c.j])) g (fun t a => rfl) co
      (Tensor.zeros [co.length])
    simp [getTensorMf, ht, h1, h2, h3, hk, pure, Except.pure, bind, Except.bind, e]
  · intro c hc
    apply Tensor.writes_val
    · intro w hw
      simp only [List.mem_flatMap, g, List.mem_singleton] at hw
      obtain ⟨d, hd, rfl⟩ := hw
      intro e
      simp only [List.cons.injEq, and_true] at e
      rw [List.idxOf_inj hd] at e
      rw [e]
    · exact ⟨([co.idxOf c], kFactor k' c * t.val [c.i, c.j]), by
        simp only [List.mem_flatMap]; exact ⟨c, hc, by simp [g]⟩, rfl⟩

theorem getTensorMf_four {n : ℕ} {co : List Comp} (h : ValidPairs n co) {k k'} (hk : kelvinFlag n co k = .ok k')
    {t : Tensor} (ht : t.shape = [n, n, n, n]) :
    ∃ m, getTensorMf t n co k = .ok m ∧ m.shape = [co.length, co.length] ∧
      ∀ a ∈ co, ∀ b ∈ co, m.val [co.idxOf a, co.idxOf b] =
        kFactor k' a * kFactor k' b * t.val [a.i, a.j, b.i, b.j] := by
  obtain ⟨h1, h2, h3⟩ := h.checks
  let g : Comp × Comp → List (List ℕ × ℝ) := fun ab => [([co.idxOf ab.1, co.idxOf ab.2],
    kFactor4 k' ab.1 ab.2 * t.val [ab.1.i, ab.1.j, ab.2.i, ab.2.j])]
  refine ⟨(Tensor.zeros [co.length, co.length]).writes ((co ×ˢ co).flatMap g), ?_,
    by simp [Tensor.zeros], ?_⟩
  · have e := foldl_eq_writes (fun (mf : Tensor) (ab : Comp × Comp) =>
      mf.set [co.idxOf ab.1, co.idxOf ab.2]
        (kFactor4 k' ab.1 ab.2 * t.val [ab.1.i, ab.1.j, ab.2.i, ab.2.j])) g (fun t a => rfl)
      (co ×ˢ co) (Tensor.zeros [co.length, co.length])
    simp [getTensorMf, ht, h1, h2, h3, hk, pure, Except.pure, bind, Except.bind, e]
  · intro a ha b hb
    rw [← kFactor4_eq]
    apply Tensor.writes_val
    · intro w hw
      simp only [List.mem_flatMap, g, List.mem_singleton] at hw
      obtain ⟨⟨a', b'⟩, hd, rfl⟩ := hw
      rw [List.mem_product] at hd
      intro e
      simp only [List.cons.injEq, and_true] at e
      rw [List.idxOf_inj hd.1, List.idxOf_inj hd.2] at e
      rw [e.1, e.2]
    · exact ⟨([co.idxOf a, co.idxOf b], kFactor4 k' a b * t.val [a.i, a.j, b.i, b.j]), by
        simp only [List.mem_flatMap]
        exact ⟨(a, b), List.mem_product.2 ⟨ha, hb⟩, by simp [g]⟩, rfl⟩

/-- Assignments performed by one step of the second-order loop. -/
noncomputable def fromMfWrites (mf : Tensor) (co : List Comp) (kelvin : Bool) (c : Comp) :
    List (List ℕ × ℝ) :=
  let v := (1 / kFactor kelvin c) * mf.val [co.idxOf c]
  (if kelvin && !(c.i == c.j) then [([c.j, c.i], v)] else []) ++ [([c.i, c.j], v)]

theorem fromMfStep_eq (mf co k) (t : Tensor) (c : Comp) :
    fromMfStep mf co k t c = t.writes (fromMfWrites mf co k c) := by
  unfold fromMfStep fromMfWrites
  cases k <;> by_cases h : c.i = c.j <;> simp [h, Tensor.writes]

theorem mem_fromMfWrites {mf co k} {c : Comp} {w : List ℕ × ℝ} (h : w ∈ fromMfWrites mf co k c) :
    w.2 = (1 / kFactor k c) * mf.val [co.idxOf c] ∧
    (w.1 = [c.i, c.j] ∨ (w.1 = [c.j, c.i] ∧ k = true ∧ c.i ≠ c.j)) := by
  unfold fromMfWrites at h
  cases k <;> by_cases e : c.i = c.j <;> simp [e] at h <;> aesop

theorem getTensorFromMf_two {n : ℕ} {co : List Comp} (h : ValidPairs n co) {k k'}
    (hk : kelvinFlag n co k = .ok k') {m : Tensor} (hm : m.shape = [co.length]) :
    ∃ t, getTensorFromMf m n co k = .ok t ∧ t.shape = [n, n] ∧
      t = (Tensor.zeros [n, n]).writes (co.flatMap (fromMfWrites m co k')) := by
  obtain ⟨h1, h2, h3⟩ := h.checks
  refine ⟨_, ?_, ?_, rfl⟩
  · have ho : mfOrder m n = .ok 2 := by
      simp only [mfOrder, hm]
      unfold kelvinFlag at hk
      split at hk
      · simp [*]
      · split at hk
        · simp [*]
        · simp at hk
    have e := foldl_eq_writes _ _ (fromMfStep_eq m co k') co (Tensor.zeros [n, n])
    simp [getTensorFromMf, ho, h1, h2, h3, hk, pure, Except.pure, bind, Except.bind, hm, e]
  · simp [Tensor.zeros]

theorem getTensorFromMf_full {n : ℕ} {co : List Comp} (h : CompleteFull n co) {k}
    {m : Tensor} (hm : m.shape = [co.length]) :
    ∃ t, getTensorFromMf m n co k = .ok t ∧ t.shape = [n, n] ∧
      ∀ c ∈ co, t.val [c.i, c.j] = m.val [co.idxOf c] := by
  obtain ⟨t, h1, h2, h3⟩ := getTensorFromMf_two h.toValidPairs (kelvinFlag_full h k) hm
  refine ⟨t, h1, h2, ?_⟩
  intro c hc
  rw [h3]
  apply Tensor.writes_val
  · intro w hw e
    obtain ⟨d, hd, hw⟩ := List.mem_flatMap.1 hw
    obtain ⟨hv, hi⟩ := mem_fromMfWrites hw
    simp at hi
    rw [e] at hi
    simp at hi
    rw [h.toValidPairs.ext hc hd hi.1 hi.2, hv]
    simp [kFactor]
  · refine ⟨([c.i, c.j], (1 / kFactor false c) * m.val [co.idxOf c]), ?_, rfl⟩
    exact List.mem_flatMap.2 ⟨c, hc, by simp [fromMfWrites]⟩

/-- Off-diagonal components of a complete symmetric order are determined by their
unordered pair. -/
theorem Spec.CompleteSym.ext' {n : ℕ} {co : List Comp} (h : CompleteSym n co) {c d : Comp} (hc : c ∈ co)
    (hd : d ∈ co) (h1 : c.i = d.j) (h2 : c.j = d.i) : c = d := by
  by_cases he : c.i = c.j
  · exact h.toValidPairs.ext hc hd (by omega) (by omega)
  · exfalso
    have e1 := (h.toValidPairs.ij hc).2.2
    have e2 := (h.toValidPairs.ij hd).2.2
    rw [← h1, ← h2] at e2
    exact h.once (c.i + 1) (c.j + 1) (by omega) (e1 ▸ hc) (e2 ▸ hd)

theorem getTensorFromMf_sym {n : ℕ} {co : List Comp} (h : CompleteSym n co)
    {m : Tensor} (hm : m.shape = [co.length]) :
    ∃ t, getTensorFromMf m n co true = .ok t ∧ t.shape = [n, n] ∧
      ∀ c ∈ co, t.val [c.i, c.j] = (1 / kFactor true c) * m.val [co.idxOf c] ∧
        t.val [c.j, c.i] = (1 / kFactor true c) * m.val [co.idxOf c] := by
  obtain ⟨k', hk, hk'⟩ := kelvinFlag_sym h true
  obtain ⟨t, h1, h2, h3⟩ := getTensorFromMf_two h.toValidPairs hk hm
  refine ⟨t, h1, h2, ?_⟩
  intro c hc
  have hf : ∀ w ∈ co.flatMap (fromMfWrites m co k'), w.1 = [c.i, c.j] ∨ w.1 = [c.j, c.i] →
      w.2 = (1 / kFactor true c) * m.val [co.idxOf c] := by
    intro w hw e
    obtain ⟨d, hd, hw⟩ := List.mem_flatMap.1 hw
    obtain ⟨hv, hi⟩ := mem_fromMfWrites hw
    have hcd : c = d := by
      rcases e with e | e <;> rcases hi with hi | hi <;> simp [e] at hi
      · exact h.toValidPairs.ext hc hd hi.1 hi.2
      · exact h.ext' hc hd hi.1.1 hi.1.2
      · exact h.ext' hc hd hi.2 hi.1
      · exact h.toValidPairs.ext hc hd hi.1.2 hi.1.1
    rw [hv, ← hcd, kFactor_congr (hk' c hc)]
  constructor
  · rw [h3]
    apply Tensor.writes_val
    · intro w hw e; exact hf w hw (Or.inl e)
    · exact ⟨([c.i, c.j], (1 / kFactor k' c) * m.val [co.idxOf c]),
        List.mem_flatMap.2 ⟨c, hc, by simp [fromMfWrites]⟩, rfl⟩
  · rw [h3]
    apply Tensor.writes_val
    · intro w hw e; exact hf w hw (Or.inr e)
    · refine ⟨([c.j, c.i], (1 / kFactor k' c) * m.val [co.idxOf c]),
        List.mem_flatMap.2 ⟨c, hc, ?_⟩, rfl⟩
      by_cases e : c.i = c.j
      · simp [fromMfWrites, e]
      · simp [fromMfWrites, e, hk' c hc e]

/-! ### Fourth order -/

/-- Assignments performed by one step of the fourth-order loop. -/
noncomputable def fromMfWrites4 (mf : Tensor) (co : List Comp) (kelvin : Bool)
    (ab : Comp × Comp) : List (List ℕ × ℝ) :=
  let a := ab.1
  let b := ab.2
  let v := (1 / kFactor4 kelvin a b) * mf.val [co.idxOf a, co.idxOf b]
  (if kelvin && !(a.i == a.j && b.i == b.j) then
      if a.i ≠ a.j ∧ b.i ≠ b.j then
        [([a.j, a.i, b.i, b.j], v), ([a.i, a.j, b.j, b.i], v), ([a.j, a.i, b.j, b.i], v)]
      else if a.i ≠ a.j then [([a.j, a.i, b.i, b.j], v)]
      else if b.i ≠ b.j then [([a.i, a.j, b.j, b.i], v)]
      else []
    else []) ++ [([a.i, a.j, b.i, b.j], v)]

theorem fromMfStep4_eq (mf co k) (t : Tensor) (ab : Comp × Comp) :
    fromMfStep4 mf co k t ab = t.writes (fromMfWrites4 mf co k ab) := by
  unfold fromMfStep4 fromMfWrites4
  cases k <;> by_cases h : ab.1.i = ab.1.j <;> by_cases h' : ab.2.i = ab.2.j <;>
    simp [h, h', Tensor.writes]

theorem mem_fromMfWrites4 {mf co k} {a b : Comp} {w : List ℕ × ℝ}
    (h : w ∈ fromMfWrites4 mf co k (a, b)) :
    w.2 = (1 / (kFactor k a * kFactor k b)) * mf.val [co.idxOf a, co.idxOf b] ∧
    (w.1 = [a.i, a.j, b.i, b.j] ∨
      (k = true ∧ (w.1 = [a.j, a.i, b.i, b.j] ∨ w.1 = [a.i, a.j, b.j, b.i] ∨
        w.1 = [a.j, a.i, b.j, b.i]))) := by
  rw [← kFactor4_eq]
  unfold fromMfWrites4 at h
  cases k <;> by_cases e : a.i = a.j <;> by_cases e' : b.i = b.j <;> simp [e, e'] at h <;> aesop

theorem getTensorFromMf_four {n : ℕ} {co : List Comp} (h : ValidPairs n co) {k k'}
    (hk : kelvinFlag n co k = .ok k') {m : Tensor} (hm : m.shape = [co.length, co.length]) :
    ∃ t, getTensorFromMf m n co k = .ok t ∧ t.shape = [n, n, n, n] ∧
      t = (Tensor.zeros [n, n, n, n]).writes ((co ×ˢ co).flatMap (fromMfWrites4 m co k')) := by
  obtain ⟨h1, h2, h3⟩ := h.checks
  refine ⟨_, ?_, ?_, rfl⟩
  · have ho : mfOrder m n = .ok 4 := by
      simp only [mfOrder, hm]
      unfold kelvinFlag at hk
      split at hk
      · simp [*]
      · split at hk
        · simp [*]
        · simp at hk
    have e := foldl_eq_writes _ _ (fromMfStep4_eq m co k') (co ×ˢ co) (Tensor.zeros [n, n, n, n])
    simp [getTensorFromMf, ho, h1, h2, h3, hk, pure, Except.pure, bind, Except.bind, hm, e]
  · simp [Tensor.zeros]

theorem getTensorFromMf_full4 {n : ℕ} {co : List Comp} (h : CompleteFull n co) {k}
    {m : Tensor} (hm : m.shape = [co.length, co.length]) :
    ∃ t, getTensorFromMf m n co k = .ok t ∧ t.shape = [n, n, n, n] ∧
      ∀ a ∈ co, ∀ b ∈ co, t.val [a.i, a.j, b.i, b.j] = m.val [co.idxOf a, co.idxOf b] := by
  obtain ⟨t, h1, h2, h3⟩ := getTensorFromMf_four h.toValidPairs (kelvinFlag_full h k) hm
  refine ⟨t, h1, h2, ?_⟩
  intro a ha b hb
  rw [h3]
  apply Tensor.writes_val
  · intro w hw e
    obtain ⟨⟨a', b'⟩, hd, hw⟩ := List.mem_flatMap.1 hw
    rw [List.mem_product] at hd
    obtain ⟨hv, hi⟩ := mem_fromMfWrites4 hw
    simp at hi
    rw [e] at hi
    simp at hi
    rw [h.toValidPairs.ext ha hd.1 hi.1 hi.2.1, h.toValidPairs.ext hb hd.2 hi.2.2.1 hi.2.2.2, hv]
    simp [kFactor]
  · refine ⟨([a.i, a.j, b.i, b.j], (1 / kFactor4 false a b) * m.val [co.idxOf a, co.idxOf b]),
      ?_, rfl⟩
    exact List.mem_flatMap.2 ⟨(a, b), List.mem_product.2 ⟨ha, hb⟩, by simp [fromMfWrites4]⟩

/-- Any of the index pairs represented by component `c`. -/
def Comp.Rep (c : Comp) (i j : ℕ) : Prop := (c.i = i ∧ c.j = j) ∨ (c.i = j ∧ c.j = i)

theorem Spec.CompleteSym.rep_unique {n : ℕ} {co : List Comp} (h : CompleteSym n co) {c d : Comp}
    (hc : c ∈ co) (hd : d ∈ co) {i j : ℕ} (h1 : c.Rep i j) (h2 : d.Rep i j) : c = d := by
  rcases h1 with h1 | h1 <;> rcases h2 with h2 | h2
  · exact h.toValidPairs.ext hc hd (h1.1.trans h2.1.symm) (h1.2.trans h2.2.symm)
  · exact h.ext' hc hd (h1.1.trans h2.2.symm) (h1.2.trans h2.1.symm)
  · exact h.ext' hc hd (h1.1.trans h2.2.symm) (h1.2.trans h2.1.symm)
  · exact h.toValidPairs.ext hc hd (h1.1.trans h2.1.symm) (h1.2.trans h2.2.symm)

theorem Spec.CompleteSym.exists_rep {n : ℕ} {co : List Comp} (h : CompleteSym n co) {i j : ℕ}
    (hi : i < n) (hj : j < n) : ∃ c ∈ co, c.Rep i j := by
  rcases h.covers (i + 1) (j + 1) (by omega) (by omega) (by omega) (by omega) with hc | hc
  · exact ⟨_, hc, Or.inl (by simp [Comp.i, Comp.j])⟩
  · exact ⟨_, hc, Or.inr (by simp [Comp.i, Comp.j])⟩

theorem Spec.CompleteFull.exists_rep {n : ℕ} {co : List Comp} (h : CompleteFull n co) {i j : ℕ}
    (hi : i < n) (hj : j < n) : ∃ c ∈ co, c.i = i ∧ c.j = j :=
  ⟨_, h.covers (i + 1) (j + 1) (by omega) (by omega) (by omega) (by omega),
    by simp [Comp.i, Comp.j]⟩

theorem getTensorFromMf_sym' {n : ℕ} {co : List Comp} (h : CompleteSym n co)
    {m : Tensor} (hm : m.shape = [co.length]) :
    ∃ t, getTensorFromMf m n co true = .ok t ∧ t.shape = [n, n] ∧
      ∀ c ∈ co, ∀ i j, c.Rep i j →
        t.val [i, j] = (1 / kFactor true c) * m.val [co.idxOf c] := by
  obtain ⟨t, h1, h2, h3⟩ := getTensorFromMf_sym h hm
  refine ⟨t, h1, h2, ?_⟩
  rintro c hc i j (⟨rfl, rfl⟩ | ⟨rfl, rfl⟩)
  · exact (h3 c hc).1
  · exact (h3 c hc).2

theorem getTensorFromMf_sym4 {n : ℕ} {co : List Comp} (h : CompleteSym n co)
    {m : Tensor} (hm : m.shape = [co.length, co.length]) :
    ∃ t, getTensorFromMf m n co true = .ok t ∧ t.shape = [n, n, n, n] ∧
      ∀ a ∈ co, ∀ b ∈ co, ∀ i j k l, a.Rep i j → b.Rep k l →
        t.val [i, j, k, l] =
          (1 / (kFactor true a * kFactor true b)) * m.val [co.idxOf a, co.idxOf b] := by
  obtain ⟨k', hk, hk'⟩ := kelvinFlag_sym h true
  obtain ⟨t, h1, h2, h3⟩ := getTensorFromMf_four h.toValidPairs hk hm
  refine ⟨t, h1, h2, ?_⟩
  intro a ha b hb i j k l hr hs
  rw [h3]
  apply Tensor.writes_val
  · intro w hw e
    obtain ⟨⟨a', b'⟩, hd, hw⟩ := List.mem_flatMap.1 hw
    rw [List.mem_product] at hd
    obtain ⟨hv, hi⟩ := mem_fromMfWrites4 hw
    have hab : a'.Rep i j ∧ b'.Rep k l := by
      rw [e] at hi
      simp at hi
      unfold Comp.Rep
      rcases hi with hi | ⟨-, hi | hi | hi⟩ <;> simp [hi]
    have e1 : a = a' := h.rep_unique ha hd.1 hr hab.1
    have e2 : b = b' := h.rep_unique hb hd.2 hs hab.2
    rw [hv, ← e1, ← e2, kFactor_congr (hk' a ha), kFactor_congr (hk' b hb)]
  · refine ⟨([i, j, k, l], (1 / kFactor4 k' a b) * m.val [co.idxOf a, co.idxOf b]), ?_, rfl⟩
    refine List.mem_flatMap.2 ⟨(a, b), List.mem_product.2 ⟨ha, hb⟩, ?_⟩
    unfold fromMfWrites4
    have hka := hk' a ha
    have hkb := hk' b hb
    rcases hr with ⟨rfl, rfl⟩ | ⟨rfl, rfl⟩ <;> rcases hs with ⟨rfl, rfl⟩ | ⟨rfl, rfl⟩ <;>
      by_cases e : a.i = a.j <;> by_cases e' : b.i = b.j <;>
      simp_all

/-! ### Vectorised versions -/

theorem Spec.ValidPairs.vIndexOk {n : ℕ} {co : List Comp} (h : ValidPairs n co) {c : Comp}
    (hc : c ∈ co) : vIndexOk n c = true := by
  obtain ⟨a, b, h1, h2, h3, h4, rfl⟩ := h.pair c hc
  simp [Hooke.vIndexOk]; omega

theorem Spec.ValidPairs.any_vIndex {n : ℕ} {co : List Comp} (h : ValidPairs n co) :
    co.any (fun c => !(Hooke.vIndexOk n c)) = false := by
  simp only [List.any_eq_false]
  intro c hc
  simp [h.vIndexOk hc]

theorem Spec.ValidPairs.any_short {n : ℕ} {co : List Comp} (h : ValidPairs n co) :
    co.any (fun c => decide (c.length < 2)) = false := by
  simp only [List.any_eq_false]
  intro c hc
  obtain ⟨a, b, h1, h2, h3, h4, rfl⟩ := h.pair c hc
  simp

theorem vKelvin_eq {n : ℕ} {co : List Comp} (h : ValidPairs n co) {c : Comp} (hc : c ∈ co)
    (k : Bool) : vKelvin k c = kFactor k c := by
  obtain ⟨a, b, h1, h2, h3, h4, rfl⟩ := h.pair c hc
  have e : (a - 1 = b - 1) ↔ a = b := by omega
  cases k <;> simp [vKelvin, kFactor, Comp.i, Comp.j, e]

theorem vKelvinInv_eq {n : ℕ} {co : List Comp} (h : ValidPairs n co) {c : Comp} (hc : c ∈ co)
    (k : Bool) : vKelvinInv k c = 1 / kFactor k c := by
  rw [← vKelvin_eq h hc]
  unfold vKelvinInv vKelvin
  cases k <;> simp
  split <;> simp

theorem getD_idxOf {co : List Comp} {c : Comp} (hc : c ∈ co) : co.getD (co.idxOf c) [] = c := by
  have := List.idxOf_lt_length_iff.2 hc
  simp [List.getD_eq_getElem?_getD, this]

theorem vgetTensorMf_two {n : ℕ} {co : List Comp} (h : ValidPairs n co) {k k'}
    (hk : kelvinFlag n co k = .ok k') {t : Tensor} (ht : t.shape = [n, n]) :
    ∃ m, vgetTensorMf t n co k = .ok m ∧ m.shape = [co.length] ∧
      ∀ c ∈ co, m.val [co.idxOf c] = kFactor k' c * t.val [c.i, c.j] := by
  simp only [vgetTensorMf, hk, ht, bind, Except.bind, min_self, h.any_vIndex]
  refine ⟨_, rfl, rfl, ?_⟩
  intro c hc
  simp only [List.getD_cons_zero, getD_idxOf hc, vKelvin_eq h hc]
  ring

theorem vgetTensorMf_four {n : ℕ} {co : List Comp} (h : ValidPairs n co) {k k'}
    (hk : kelvinFlag n co k = .ok k') {t : Tensor} (ht : t.shape = [n, n, n, n]) :
    ∃ m, vgetTensorMf t n co k = .ok m ∧ m.shape = [co.length, co.length] ∧
      ∀ a ∈ co, ∀ b ∈ co, m.val [co.idxOf a, co.idxOf b] =
        kFactor k' a * kFactor k' b * t.val [a.i, a.j, b.i, b.j] := by
  simp only [vgetTensorMf, hk, ht, bind, Except.bind, min_self, h.any_vIndex]
  refine ⟨_, rfl, rfl, ?_⟩
  intro a ha b hb
  simp only [List.getD_cons_zero, List.getD_cons_succ, getD_idxOf ha, getD_idxOf hb,
    vKelvin_eq h ha, vKelvin_eq h hb]
  ring

theorem gatherIndex_sym {n : ℕ} {co : List Comp} (h : CompleteSym n co) {c : Comp} (hc : c ∈ co)
    {i j : ℕ} (hr : c.Rep i j) : gatherIndex co i j = some (co.idxOf c) := by
  have e := (h.toValidPairs.ij hc).2.2
  have key : ∀ d ∈ co, d = [i + 1, j + 1] ∨ d = [j + 1, i + 1] → d = c := by
    rintro d hd hde
    refine h.rep_unique hd hc (i := i) (j := j) ?_ hr
    rcases hde with rfl | rfl
    · exact Or.inl (by simp [Comp.i, Comp.j])
    · exact Or.inr (by simp [Comp.i, Comp.j])
  unfold gatherIndex
  split
  · next hm => rw [key _ hm (Or.inl rfl)]
  · split
    · next hm => rw [key _ hm (Or.inr rfl)]
    · next h1 h2 =>
      exfalso
      rcases hr with ⟨rfl, rfl⟩ | ⟨rfl, rfl⟩
      · exact h1 (e ▸ hc)
      · exact h2 (e ▸ hc)

theorem gatherIndex_full {n : ℕ} {co : List Comp} (h : CompleteFull n co) {c : Comp} (hc : c ∈ co) :
    gatherIndex co c.i c.j = some (co.idxOf c) := by
  have e := (h.toValidPairs.ij hc).2.2
  unfold gatherIndex
  rw [← e, if_pos hc]

theorem gather_sym_total {n : ℕ} {co : List Comp} (h : CompleteSym n co) :
    (List.range n ×ˢ List.range n).any (fun p => (gatherIndex co p.1 p.2).isNone) = false := by
  simp only [List.any_eq_false]
  rintro ⟨i, j⟩ hp
  simp only [List.mem_product, List.mem_range] at hp
  obtain ⟨c, hc, hr⟩ := h.exists_rep hp.1 hp.2
  simp [gatherIndex_sym h hc hr]

theorem gather_full_total {n : ℕ} {co : List Comp} (h : CompleteFull n co) :
    (List.range n ×ˢ List.range n).any (fun p => (gatherIndex co p.1 p.2).isNone) = false := by
  simp only [List.any_eq_false]
  rintro ⟨i, j⟩ hp
  simp only [List.mem_product, List.mem_range] at hp
  obtain ⟨c, hc, rfl, rfl⟩ := h.exists_rep hp.1 hp.2
  simp [gatherIndex_full h hc]

theorem vgetTensorFromMf_sym {n : ℕ} {co : List Comp} (h : CompleteSym n co) (kel : Bool)
    {m : Tensor} (hm : m.shape = [co.length]) :
    ∃ t, vgetTensorFromMf m n co kel = .ok t ∧ t.shape = [n, n] ∧
      ∀ c ∈ co, ∀ i j, c.Rep i j →
        t.val [i, j] = (1 / kFactor kel c) * m.val [co.idxOf c] := by
  obtain ⟨k', hk, hk'⟩ := kelvinFlag_sym h kel
  simp only [vgetTensorFromMf, hm, hk, bind, Except.bind, h.toValidPairs.any_short,
    gather_sym_total h, ne_eq, not_true_eq_false]
  refine ⟨_, rfl, rfl, ?_⟩
  intro c hc i j hr
  simp only [List.getD_cons_zero, List.getD_cons_succ, gatherIndex_sym h hc hr,
    Option.getD_some, getD_idxOf hc, vKelvinInv_eq h.toValidPairs hc, kFactor_congr (hk' c hc)]
  ring

theorem vgetTensorFromMf_sym4 {n : ℕ} {co : List Comp} (h : CompleteSym n co) (kel : Bool)
    {m : Tensor} (hm : m.shape = [co.length, co.length]) :
    ∃ t, vgetTensorFromMf m n co kel = .ok t ∧ t.shape = [n, n, n, n] ∧
      ∀ a ∈ co, ∀ b ∈ co, ∀ i j k l, a.Rep i j → b.Rep k l →
        t.val [i, j, k, l] =
          (1 / (kFactor kel a * kFactor kel b)) * m.val [co.idxOf a, co.idxOf b] := by
  obtain ⟨k', hk, hk'⟩ := kelvinFlag_sym h kel
  simp only [vgetTensorFromMf, hm, hk, bind, Except.bind, h.toValidPairs.any_short,
    gather_sym_total h, ne_eq, not_true_eq_false, or_self]
  refine ⟨_, rfl, rfl, ?_⟩
  intro a ha b hb i j k l hr hs
  simp only [List.getD_cons_zero, List.getD_cons_succ, gatherIndex_sym h ha hr,
    gatherIndex_sym h hb hs, Option.getD_some, getD_idxOf ha, getD_idxOf hb,
    vKelvinInv_eq h.toValidPairs ha, vKelvinInv_eq h.toValidPairs hb,
    kFactor_congr (hk' a ha), kFactor_congr (hk' b hb)]
  rw [one_div_mul_one_div]
  ring

theorem vgetTensorFromMf_full {n : ℕ} {co : List Comp} (h : CompleteFull n co) (kel : Bool)
    {m : Tensor} (hm : m.shape = [co.length]) :
    ∃ t, vgetTensorFromMf m n co kel = .ok t ∧ t.shape = [n, n] ∧
      ∀ c ∈ co, t.val [c.i, c.j] = m.val [co.idxOf c] := by
  simp only [vgetTensorFromMf, hm, kelvinFlag_full h, bind, Except.bind, h.toValidPairs.any_short,
    gather_full_total h, ne_eq, not_true_eq_false]
  refine ⟨_, rfl, rfl, ?_⟩
  intro c hc
  simp [gatherIndex_full h hc, vKelvinInv]

theorem vgetTensorFromMf_full4 {n : ℕ} {co : List Comp} (h : CompleteFull n co) (kel : Bool)
    {m : Tensor} (hm : m.shape = [co.length, co.length]) :
    ∃ t, vgetTensorFromMf m n co kel = .ok t ∧ t.shape = [n, n, n, n] ∧
      ∀ a ∈ co, ∀ b ∈ co, t.val [a.i, a.j, b.i, b.j] = m.val [co.idxOf a, co.idxOf b] := by
  simp only [vgetTensorFromMf, hm, kelvinFlag_full h, bind, Except.bind, h.toValidPairs.any_short,
    gather_full_total h, ne_eq, not_true_eq_false, or_self]
  refine ⟨_, rfl, rfl, ?_⟩
  intro a ha b hb
  simp [gatherIndex_full h ha, gatherIndex_full h hb, vKelvinInv]

/-! ### Sums -/

theorem sum_range_eq_map {co : List Comp} (h : co.Nodup) (g : ℕ → ℝ) :
    ∑ k ∈ Finset.range co.length, g k = (co.map (fun c => g (co.idxOf c))).sum := by
  have e : co.map (fun c => g (co.idxOf c)) = (List.range co.length).map g := by
    apply List.ext_getElem
    · simp
    · intro k h1 h2
      simp [h.idxOf_getElem]
  rw [e, Finset.sum_range, ← List.sum_ofFn]
  congr 1
  apply List.ext_getElem <;> simp

theorem sum_map_eq_finset {co : List Comp} (h : co.Nodup) (g : Comp → ℝ) :
    (co.map g).sum = ∑ c ∈ co.toFinset, g c := (List.sum_toFinset g h).symm

theorem sum_pairs_sym {n : ℕ} {co : List Comp} (h : CompleteSym n co) (f : ℕ → ℕ → ℝ)
    (hf : ∀ i < n, ∀ j < n, f i j = f j i) :
    ∑ i ∈ Finset.range n, ∑ j ∈ Finset.range n, f i j =
      (co.map (fun c => (if c.i = c.j then 1 else 2) * f c.i c.j)).sum := by
  classical
  have hv := h.toValidPairs
  rw [sum_map_eq_finset h.nodup, ← Finset.sum_product']
  -- split the listed pairs and the transposed off-diagonal ones
  let S := co.toFinset.image (fun c : Comp => (c.i, c.j))
  let R := (co.toFinset.filter (fun c : Comp => c.i ≠ c.j)).image (fun c : Comp => (c.j, c.i))
  have hu : Finset.range n ×ˢ Finset.range n = S ∪ R := by
    ext ⟨i, j⟩
    simp only [S, R, Finset.mem_product, Finset.mem_range, Finset.mem_union, Finset.mem_image,
      List.mem_toFinset, Finset.mem_filter, Prod.mk.injEq]
    constructor
    · rintro ⟨hi, hj⟩
      obtain ⟨c, hc, hr⟩ := h.exists_rep hi hj
      by_cases e : i = j
      · left; exact ⟨c, hc, by rcases hr with hr | hr <;> omega, by rcases hr with hr | hr <;> omega⟩
      · rcases hr with hr | hr
        · left; exact ⟨c, hc, hr⟩
        · right; exact ⟨c, ⟨hc, by omega⟩, hr.2, hr.1⟩
    · rintro (⟨c, hc, rfl, rfl⟩ | ⟨c, ⟨hc, -⟩, rfl, rfl⟩)
      · exact ⟨(hv.ij hc).1, (hv.ij hc).2.1⟩
      · exact ⟨(hv.ij hc).2.1, (hv.ij hc).1⟩
  have hd : Disjoint S R := by
    rw [Finset.disjoint_left]
    simp only [S, R, Finset.mem_image, List.mem_toFinset, Finset.mem_filter]
    rintro _ ⟨c, hc, rfl⟩ ⟨d, ⟨hd, hne⟩, hcd⟩
    simp only [Prod.mk.injEq] at hcd
    have := h.ext' hc hd hcd.1.symm hcd.2.symm
    subst this
    omega
  rw [hu, Finset.sum_union hd, Finset.sum_image, Finset.sum_image, Finset.sum_filter,
    ← Finset.sum_add_distrib]
  · apply Finset.sum_congr rfl
    intro c hc
    have hc' := hv.ij (List.mem_toFinset.1 hc)
    by_cases e : c.i = c.j
    · simp [e]
    · simp only [e, ne_eq, not_false_eq_true, if_true, if_false]
      rw [hf c.j hc'.2.1 c.i hc'.1]; ring
  · intro c hc d hd hcd
    simp only [List.mem_toFinset, Prod.mk.injEq, Finset.coe_filter,
      Set.mem_ofPred_eq] at hc hd hcd
    exact hv.ext hc.1 hd.1 hcd.2 hcd.1
  · intro c hc d hd hcd
    simp only [List.coe_toFinset, Set.mem_ofPred_eq, Prod.mk.injEq] at hc hd hcd
    exact hv.ext hc hd hcd.1 hcd.2

theorem kFactor_sq {c : Comp} : kFactor true c * kFactor true c = if c.i = c.j then 1 else 2 := by
  unfold kFactor
  by_cases e : c.i = c.j <;> simp [e]

end Hooke
