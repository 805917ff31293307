import Verif.Props.Kelvin

namespace Hooke

open Spec

/-- C06c: `get_tensor_from_mf` accepts exactly the one- and two-dimensional (square) forms
of an admissible size together with a well-formed component list that is not longer than
the form. -/
theorem C06_from_mf_accepts (m : Tensor) (n : ℕ) (co : List Comp) (k : Bool) :
    (∃ t, getTensorFromMf m n co k = .ok t) ↔
      ∃ s, (m.shape = [s] ∨ m.shape = [s, s]) ∧ (s = n ^ 2 ∨ s = n * (n + 1) / 2) ∧
        (∀ c ∈ co, c.length = 2 ∧ ∀ d ∈ c, 1 ≤ d ∧ d ≤ n) ∧ co.Nodup ∧
        (co.length = n ^ 2 ∨ co.length = n * (n + 1) / 2) ∧ co.length ≤ s := by
  have hsum : (List.range (n + 1)).sum = n * (n + 1) / 2 := by
    rw [sum_range_eq_choose, Nat.choose_two_right, Nat.add_sub_cancel, mul_comm]
  have hd : badDigit n co = false ↔ ∀ c ∈ co, ∀ d ∈ c, 1 ≤ d ∧ d ≤ n := by
    simp only [badDigit, List.any_eq_false, List.mem_flatten]
    constructor
    · intro h c hc d hd
      have := h d ⟨c, hc, hd⟩
      simp at this; omega
    · rintro h d ⟨c, hc, hd⟩
      have := h c hc d hd
      simp; omega
  have hl : badLength co = false ↔ ∀ c ∈ co, c.length = 2 := by simp [badLength]
  have hcomb : (∀ c ∈ co, c.length = 2 ∧ ∀ d ∈ c, 1 ≤ d ∧ d ≤ n) ↔
      badLength co = false ∧ badDigit n co = false := by
    rw [hd, hl]
    exact ⟨fun h => ⟨fun c hc => (h c hc).1, fun c hc => (h c hc).2⟩,
      fun h c hc => ⟨h.1 c hc, h.2 c hc⟩⟩
  simp only [hcomb, ← hasDuplicate_eq_false, ← hsum]
  unfold getTensorFromMf mfOrder kelvinFlag
  generalize badDigit n co = bd
  generalize badLength co = bl
  generalize hasDuplicate co = bn
  rcases hms : m.shape with _ | ⟨a, _ | ⟨b, _ | ⟨c, rest⟩⟩⟩
  · simp [bind, Except.bind]
  · cases bd <;> cases bl <;> cases bn <;>
      simp [bind, Except.bind, throw, throwThe, MonadExceptOf.throw, pure, Except.pure] <;>
      split_ifs <;> simp_all <;> omega
  · cases bd <;> cases bl <;> cases bn <;>
      simp [bind, Except.bind, throw, throwThe, MonadExceptOf.throw, pure, Except.pure] <;>
      split_ifs <;> simp_all <;> omega
  · simp [bind, Except.bind]

example : ∃ t, getTensorFromMf ⟨[6], fun _ => 1⟩ 3 sym3d true = .ok t :=
  (C06_from_mf_accepts _ _ _ _).2 ⟨6, Or.inl rfl, by simp, by decide, by decide, by simp [sym3d],
    by simp [sym3d]⟩

/-! ## C69 kelvin_factor -/

theorem sym_length_ne {n : ℕ} {co : List Comp} (h : CompleteSym n co) :
    co.length ≠ 4 ∧ co.length ≠ 9 := by
  have h1 := h.length_eq
  rw [sum_range_eq_choose, Nat.choose_two_right, Nat.add_sub_cancel] at h1
  have h2 : 2 * co.length = (n + 1) * n := by
    rw [h1]; exact Nat.mul_div_cancel' (by rw [mul_comm]; exact (Nat.even_mul_succ_self n).two_dvd)
  constructor <;> intro h3 <;> rw [h3] at h2
  · have : n < 3 := by nlinarith
    interval_cases n <;> omega
  · have : n < 5 := by nlinarith
    interval_cases n <;> omega

/-- C69a: `kelvin_factor(i, order)` is the factor between entry `i` of the (Kelvin) matrix
form and the tensor component, for symmetric orders of any dimension and full orders in
2D and 3D; an index outside a symmetric order raises. -/
theorem C69_single {n : ℕ} {co : List Comp}
    (h : CompleteSym n co ∨ (CompleteFull n co ∧ (n = 2 ∨ n = 3))) {t m : Tensor}
    (hm : getTensorMf t n co true = .ok m) (ht : t.shape = [n, n]) :
    (∀ i a b, co[i]? = some [a, b] → ∃ f, kelvinFactor1 i co = .ok f ∧
      m.val [i] = f * t.val [a - 1, b - 1]) ∧
    (CompleteSym n co → ∀ i, co.length ≤ i → kelvinFactor1 i co = .error .indexError) := by
  refine ⟨?_, ?_⟩
  · intro i a b hi
    obtain ⟨hlt, hge⟩ := List.getElem?_eq_some_iff.1 hi
    have hc : [a, b] ∈ co := List.mem_of_getElem? hi
    rcases h with h | ⟨h, hn⟩
    · obtain ⟨k', hk, hk'⟩ := kelvinFlag_sym h true
      obtain ⟨m', h1, h2, h3⟩ := getTensorMf_two h.toValidPairs hk ht
      rw [hm] at h1
      cases h1
      have hidx : co.idxOf [a, b] = i := by rw [← hge]; exact h.nodup.idxOf_getElem i hlt
      obtain ⟨n4, n9⟩ := sym_length_ne h
      obtain ⟨a', b', p1, p2, p3, p4, heq⟩ := h.pair _ hc
      obtain ⟨rfl, rfl⟩ : a = a' ∧ b = b' := by simpa using heq
      have h4 := h3 _ hc
      rw [hidx] at h4
      refine ⟨if a = b then 1 else Real.sqrt 2, ?_, ?_⟩
      · simp only [kelvinFactor1, n4, n9, or_self, if_false, hi, List.getD_cons_zero,
          List.getD_cons_succ]
        split_ifs <;> rfl
      · rw [h4]
        have e : (a - 1 = b - 1) ↔ a = b := by omega
        by_cases hab : a = b
        · simp [kFactor, Comp.i, Comp.j, hab]
        · have hne : Comp.i [a, b] ≠ Comp.j [a, b] := by simp [Comp.i, Comp.j, e, hab]
          have hkt : k' = true := hk' _ hc hne
          simp [kFactor, Comp.i, Comp.j, hab, e, hkt]
    · obtain ⟨m', h1, h2, h3⟩ := getTensorMf_two h.toValidPairs (kelvinFlag_full h true) ht
      rw [hm] at h1
      cases h1
      have hidx : co.idxOf [a, b] = i := by rw [← hge]; exact h.nodup.idxOf_getElem i hlt
      have h4 := h3 _ hc
      rw [hidx] at h4
      have hl : co.length = 4 ∨ co.length = 9 := by
        rw [h.length_eq]; rcases hn with rfl | rfl <;> simp
      refine ⟨1, by simp [kelvinFactor1, hl], ?_⟩
      rw [h4]
      simp [kFactor, Comp.i, Comp.j]
  · intro hs i hi
    obtain ⟨n4, n9⟩ := sym_length_ne hs
    simp [kelvinFactor1, n4, n9, List.getElem?_eq_none hi]

/-- C69b: for a symmetric order `kelvin_factor([i, j], order)` is the product of the single
factors, and a list of any other length raises. -/
theorem C69_pair {n : ℕ} {co : List Comp} (h : CompleteSym n co) :
    (∀ i j fi fj, kelvinFactor1 i co = .ok fi → kelvinFactor1 j co = .ok fj →
      kelvinFactor2 [i, j] co = .ok (fi * fj)) ∧
    ∀ l : List ℕ, l.length ≠ 2 → kelvinFactor2 l co = .error .runtimeError := by
  obtain ⟨n4, n9⟩ := sym_length_ne h
  refine ⟨?_, ?_⟩
  · intro i j fi fj hi hj
    simp only [kelvinFactor1, n4, n9, or_self, if_false] at hi hj
    cases ei : co[i]? with
    | none => rw [ei] at hi; simp at hi
    | some c =>
      cases ej : co[j]? with
      | none => rw [ej] at hj; simp at hj
      | some d =>
        rw [ei] at hi
        rw [ej] at hj
        simp only [kelvinFactor2, n4, n9, or_self, if_false, List.length_cons, List.length_nil,
          if_true, List.foldlM_cons, List.foldlM_nil, ei, ej, bind, Except.bind, pure, Except.pure]
        by_cases e1 : c.getD 0 0 = c.getD 1 0 <;> by_cases e2 : d.getD 0 0 = d.getD 1 0 <;>
          simp only [e1, e2, ne_eq, not_true_eq_false, not_false_eq_true, if_true, if_false,
            Except.ok.injEq] at hi hj ⊢ <;> rw [← hi, ← hj] <;> ring
  · intro l hl
    simp [kelvinFactor2, n4, n9, hl]

example : kelvinFactor2 [3, 4] sym3d = .ok (Real.sqrt 2 * Real.sqrt 2) :=
  (C69_pair sym3d_complete).1 3 4 _ _ (by simp [kelvinFactor1, sym3d]) (by simp [kelvinFactor1, sym3d])

end Hooke
