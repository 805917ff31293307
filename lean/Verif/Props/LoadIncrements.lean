import Verif.Spec.LoadIncrements
import Verif.Lemmas.Py
import Verif.Lemmas.MapM
import Verif.Lemmas.StrainPath
import Verif.Lemmas.StrainPathHist
import Mathlib.LinearAlgebra.Lagrange
import Mathlib.Tactic.Linarith
import Mathlib.Tactic.FieldSimp
import Mathlib.Tactic.Ring
import Mathlib.Tactic.NormNum

/-!
# C110: the load increments of a Links simulation
-/

noncomputable section

namespace Hooke

open Spec

/-! ### Totals -/

theorem totalFactor_append (a b : List ℝ) (k : ℕ) :
    totalFactor (a ++ b) k = totalFactor a k + totalFactor b (k - a.length) := by
  unfold totalFactor
  rw [List.take_append, List.sum_append]

theorem totalFactor_replicate (n : ℕ) (x : ℝ) (k : ℕ) :
    totalFactor (List.replicate n x) k = (min k n : ℕ) * x := by
  unfold totalFactor
  rw [List.take_replicate, List.sum_replicate, nsmul_eq_mul]

theorem totalFactor_of_le {a : List ℝ} {k : ℕ} (h : a.length ≤ k) : totalFactor a k = a.sum := by
  unfold totalFactor
  rw [List.take_of_length_le h]

/-! ### Cyclic loadings -/

/-- The increments until the end of branch `r`. -/
def cyclicBranches (s m : ℕ) : ℕ → List ℝ
  | 0 => List.replicate m (1 / m)
  | r + 1 => cyclicBranches s m r ++ List.replicate (s * m) ((-1 : ℝ) ^ (r + 1) / m)

theorem cyclicBranches_length (s m r : ℕ) : (cyclicBranches s m r).length = m + r * (s * m) := by
  induction r with
  | zero => simp [cyclicBranches]
  | succ r ih => rw [cyclicBranches, List.length_append, ih, List.length_replicate]; ring

theorem cyclicBranches_foldl (s m r : ℕ) :
    (List.range r).foldl (fun (a : ℝ × List ℝ) _ => (-a.1, a.2 ++ List.replicate (s * m) (-a.1)))
      (1 / m, List.replicate m (1 / m)) = ((-1 : ℝ) ^ r / m, cyclicBranches s m r) := by
  induction r with
  | zero => simp [cyclicBranches]
  | succ r ih =>
    rw [List.range_succ, List.foldl_append, ih]
    have : -((-1 : ℝ) ^ r / m) = (-1) ^ (r + 1) / m := by rw [pow_succ]; ring
    simp only [List.foldl_cons, List.foldl_nil, cyclicBranches, this]

theorem branchOf_last {s m : ℕ} (hs : 0 < s) (hm : 0 < m) {r k : ℕ} (h1 : m + r * (s * m) ≤ k)
    (h2 : k < m + (r + 1) * (s * m)) : branchOf s m k = r + 1 := by
  unfold branchOf
  have h0 : m ≤ k := le_trans (by omega) h1
  rw [if_neg (by omega)]
  congr 1
  exact Nat.div_eq_of_lt_le (by omega) (by omega)

theorem branchOf_le {s m : ℕ} (hs : 0 < s) (hm : 0 < m) {r k : ℕ} :
    branchOf s m k ≤ r ↔ k < m + r * (s * m) := by
  have hsm : 0 < s * m := Nat.mul_pos hs hm
  unfold branchOf
  split_ifs with h
  · exact ⟨fun _ => by omega, fun _ => by omega⟩
  · have h' : m ≤ k := by omega
    rw [Nat.succ_le_iff, Nat.div_lt_iff_lt_mul hsm]
    omega

theorem cyclicBranches_get {s m : ℕ} (hs : 0 < s) (hm : 0 < m) {r k : ℕ} (h : k < m + r * (s * m)) :
    (cyclicBranches s m r)[k]? = some ((-1 : ℝ) ^ branchOf s m k / m) := by
  induction r with
  | zero =>
    have hk : k < m := by simpa using h
    rw [cyclicBranches, List.getElem?_replicate, if_pos hk]
    simp [branchOf, hk]
  | succ r ih =>
    rw [cyclicBranches]
    by_cases h1 : k < m + r * (s * m)
    · rw [List.getElem?_append_left (by rw [cyclicBranches_length]; exact h1), ih h1]
    · rw [List.getElem?_append_right (by rw [cyclicBranches_length]; omega), cyclicBranches_length,
        List.getElem?_replicate, if_pos (by rw [Nat.succ_mul] at h; omega),
        branchOf_last hs hm (by omega) h]

theorem cyclicBranches_sum {s m : ℕ} (hm : 0 < m) (loading : String) (h : loadSpan loading = s) (r : ℕ) :
    (cyclicBranches s m r).sum = turningPoint loading r := by
  have hm' : (m : ℝ) ≠ 0 := by positivity
  induction r with
  | zero => simp [cyclicBranches, turningPoint, hm']
  | succ r ih =>
    rw [cyclicBranches, List.sum_append, ih, List.sum_replicate, nsmul_eq_mul]
    have e : ((s * m : ℕ) : ℝ) * ((-1 : ℝ) ^ (r + 1) / m) = s * (-1) ^ (r + 1) := by
      push_cast
      field_simp
    rw [e]
    have hs : (s : ℝ) = if loading = "cyclic_sym" then 2 else 1 := by
      rw [← h]
      unfold loadSpan
      split_ifs <;> norm_num
    rw [hs]
    unfold turningPoint
    rcases Nat.even_or_odd r with hr | hr
    · have hn : ¬ Even (r + 1) := by rw [Nat.not_even_iff_odd]; exact hr.add_one
      rw [if_pos hr, if_neg hn, hr.add_one.neg_one_pow]
      split_ifs <;> norm_num
    · have hn : ¬ Even r := by rwa [Nat.not_even_iff_odd]
      rw [if_neg hn, if_pos hr.add_one, hr.add_one.neg_one_pow]
      split_ifs <;> norm_num

/-- The smallest load factor of a cyclic loading. -/
theorem cyclicBranches_bounds {s m : ℕ} (hm : 0 < m) (loading : String) (h : loadSpan loading = s)
    (r k : ℕ) : 1 - (s : ℝ) ≤ totalFactor (cyclicBranches s m r) k ∧
      totalFactor (cyclicBranches s m r) k ≤ 1 := by
  have hm' : (0 : ℝ) < m := by positivity
  induction r with
  | zero =>
    rw [cyclicBranches, totalFactor_replicate]
    have h1 : ((min k m : ℕ) : ℝ) ≤ m := by exact_mod_cast min_le_right k m
    have h2 : (0 : ℝ) ≤ ((min k m : ℕ) : ℝ) := by positivity
    have h3 : (1 : ℝ) ≤ s := by
      rw [← h]
      unfold loadSpan
      split <;> norm_num
    have h4 : ((min k m : ℕ) : ℝ) * (1 / m) ≤ 1 := by
      rw [mul_one_div]
      exact (div_le_one hm').mpr h1
    have h5 : 0 ≤ ((min k m : ℕ) : ℝ) * (1 / m) := by positivity
    constructor <;> linarith
  | succ r ih =>
    rw [cyclicBranches, totalFactor_append, totalFactor_replicate]
    by_cases hk : k ≤ (cyclicBranches s m r).length
    · rw [Nat.sub_eq_zero_of_le hk]
      simpa using ih
    · rw [totalFactor_of_le (by omega), cyclicBranches_sum hm loading h]
      set i := min (k - (cyclicBranches s m r).length) (s * m)
      have h1 : (i : ℝ) ≤ s * m := by exact_mod_cast min_le_right _ _
      have h2 : (0 : ℝ) ≤ i := by positivity
      have h3 : (i : ℝ) / m ≤ s := (div_le_iff₀ hm').mpr h1
      have h4 : 0 ≤ (i : ℝ) / m := by positivity
      have hT : turningPoint loading r = if Even r then 1 else 1 - (s : ℝ) := by
        unfold turningPoint
        rw [← h]
        unfold loadSpan
        split_ifs <;> norm_num
      rw [hT]
      rcases Nat.even_or_odd r with hr | hr
      · rw [if_pos hr, hr.add_one.neg_one_pow]
        have : (i : ℝ) * (-1 / m) = -(i / m) := by ring
        rw [this]
        constructor <;> linarith
      · rw [if_neg (by rwa [Nat.not_even_iff_odd]), hr.add_one.neg_one_pow]
        have : (i : ℝ) * (1 / m) = i / m := by ring
        rw [this]
        constructor <;> linarith

theorem cyclicBranches_prefix (s m : ℕ) {j r : ℕ} (h : j ≤ r) :
    ∃ c, cyclicBranches s m r = cyclicBranches s m j ++ c := by
  induction r with
  | zero =>
    obtain rfl : j = 0 := by omega
    exact ⟨[], by simp⟩
  | succ r ih =>
    rcases Nat.lt_or_ge r j with h1 | h1
    · obtain rfl : j = r + 1 := by omega
      exact ⟨[], by simp⟩
    · obtain ⟨c, hc⟩ := ih h1
      exact ⟨c ++ List.replicate (s * m) ((-1 : ℝ) ^ (r + 1) / m), by rw [cyclicBranches, hc, List.append_assoc]⟩

/-- The names of the proportional and cyclic loadings. -/
def cyclicLoadings : List String := ["proportional", "cyclic_plus", "cyclic_sym"]

theorem loadSpan_pos (loading : String) : 0 < loadSpan loading := by
  unfold loadSpan
  split <;> norm_num

theorem cyclicFactors_eq {loading : String} (hl : loading ∈ cyclicLoadings) (nReverse nInc : ℕ) :
    (nInc < unitBranches loading nReverse → ∃ e, cyclicFactors loading nReverse nInc = .error e) ∧
    (unitBranches loading nReverse ≤ nInc →
      0 < nInc / unitBranches loading nReverse ∧
      cyclicFactors loading nReverse nInc = .ok (cyclicBranches (loadSpan loading)
        (nInc / unitBranches loading nReverse) (reversals loading nReverse)
        ++ List.replicate (nInc - nInc / unitBranches loading nReverse * unitBranches loading nReverse)
          0)) := by
  have hm : unitBranches loading nReverse ≤ nInc → 0 < nInc / unitBranches loading nReverse :=
    fun h => Nat.div_pos h (by unfold unitBranches; omega)
  simp only [cyclicLoadings, List.mem_cons, List.not_mem_nil, or_false] at hl
  have key : unitBranches loading nReverse ≤ nInc →
      cyclicFactors loading nReverse nInc = .ok (cyclicBranches (loadSpan loading)
        (nInc / unitBranches loading nReverse) (reversals loading nReverse)
        ++ List.replicate (nInc - nInc / unitBranches loading nReverse * unitBranches loading nReverse)
          0) := by
    intro h
    have hm := hm h
    unfold cyclicFactors
    rcases hl with rfl | rfl | rfl
    · have hu : unitBranches "proportional" nReverse = 1 := by
        simp [unitBranches, reversals]
      have hr : reversals "proportional" nReverse = 0 := by simp [reversals]
      have hs : loadSpan "proportional" = 1 := by simp [loadSpan]
      rw [hu] at h hm ⊢
      rw [hr, hs]
      have h0 : ¬ (nInc = 0) := by omega
      simp [raiseIf, bind, Except.bind, pure, Except.pure, cyclicBranches, h0]
    · have hr : reversals "cyclic_plus" nReverse = nReverse := by simp [reversals]
      have hs : loadSpan "cyclic_plus" = 1 := by simp [loadSpan]
      have hu : unitBranches "cyclic_plus" nReverse = nReverse + 1 := by
        unfold unitBranches; rw [hr, hs]; omega
      rw [hu] at h hm ⊢
      rw [hr, hs]
      have h1 : ¬ (nInc < nReverse + 1) := by omega
      have h2 : ¬ (nInc / (nReverse + 1) = 0) := by omega
      have hf := cyclicBranches_foldl 1 (nInc / (nReverse + 1)) nReverse
      rw [one_mul] at hf
      simp only [raiseIf, bind, Except.bind, pure, Except.pure, h1, h2, and_false, if_false, hf,
        show ¬ ("cyclic_plus" = "proportional") by decide, show ¬ ("cyclic_plus" = "cyclic_sym") by decide,
        false_and, one_mul, hf]
    · have hr : reversals "cyclic_sym" nReverse = nReverse := by simp [reversals]
      have hs : loadSpan "cyclic_sym" = 2 := by simp [loadSpan]
      have hu : unitBranches "cyclic_sym" nReverse = 2 * nReverse + 1 := by
        unfold unitBranches; rw [hr, hs]
      rw [hu] at h hm ⊢
      rw [hr, hs]
      have h1 : ¬ (nInc < 2 * nReverse + 1) := by omega
      have h2 : ¬ (nInc / (2 * nReverse + 1) = 0) := by omega
      have hf := cyclicBranches_foldl 2 (nInc / (2 * nReverse + 1)) nReverse
      simp only [raiseIf, bind, Except.bind, pure, Except.pure, h1, h2, and_false, if_false, hf,
        show ¬ ("cyclic_sym" = "proportional") by decide, show ¬ ("cyclic_sym" = "cyclic_plus") by decide,
        false_and, if_true]
  refine ⟨fun h => ?_, fun h => ⟨hm h, key h⟩⟩
  unfold cyclicFactors
  rcases hl with rfl | rfl | rfl
  · have hu : unitBranches "proportional" nReverse = 1 := by simp [unitBranches, reversals]
    obtain rfl : nInc = 0 := by omega
    exact ⟨_, by simp [raiseIf, bind, Except.bind]; rfl⟩
  · have hu : unitBranches "cyclic_plus" nReverse = nReverse + 1 := by
      simp [unitBranches, reversals, loadSpan]
    rw [hu] at h
    exact ⟨_, by simp [raiseIf, bind, Except.bind, h]; rfl⟩
  · have hu : unitBranches "cyclic_sym" nReverse = 2 * nReverse + 1 := by
      simp [unitBranches, reversals, loadSpan]
    rw [hu] at h
    exact ⟨_, by simp [raiseIf, bind, Except.bind, h]; rfl⟩

/-- **C110 (cyclic loadings).** Proportional and cyclic loadings are prepared if there is at least one
increment for every unit of load; then there are `nInc` increments, all of the same size until the
reversals are done, with the sign of their branch, and zero from then on. -/
theorem C110_cyclic {loading : String} (hl : loading ∈ cyclicLoadings) (nReverse nInc : ℕ)
    (fs : List ℝ) :
    cyclicFactors loading nReverse nInc = .ok fs ↔
      unitBranches loading nReverse ≤ nInc ∧ fs = (List.range nInc).map
        (cyclicIncrement (loadSpan loading) (reversals loading nReverse)
          (nInc / unitBranches loading nReverse)) := by
  obtain ⟨h1, h2⟩ := cyclicFactors_eq hl nReverse nInc
  rcases Nat.lt_or_ge nInc (unitBranches loading nReverse) with h | h
  · obtain ⟨e, he⟩ := h1 h
    rw [he]
    constructor
    · rintro ⟨⟩
    · rintro ⟨h', -⟩; omega
  · obtain ⟨hm, hc⟩ := h2 h
    rw [hc]
    set m := nInc / unitBranches loading nReverse with hmdef
    set r := reversals loading nReverse with hrdef
    have hu : unitBranches loading nReverse = loadSpan loading * r + 1 := rfl
    have hle : m * unitBranches loading nReverse ≤ nInc := Nat.div_mul_le_self _ _
    have hlen : m + r * (loadSpan loading * m) = m * unitBranches loading nReverse := by rw [hu]; ring
    have key : cyclicBranches (loadSpan loading) m r
        ++ List.replicate (nInc - m * unitBranches loading nReverse) 0
        = (List.range nInc).map (cyclicIncrement (loadSpan loading) r m) := by
      refine List.ext_getElem? fun k => ?_
      rw [List.getElem?_map]
      by_cases hk : k < m + r * (loadSpan loading * m)
      · rw [List.getElem?_append_left (by rw [cyclicBranches_length]; exact hk),
          cyclicBranches_get (loadSpan_pos _) hm hk, List.getElem?_range (by omega)]
        simp only [Option.map_some, cyclicIncrement, if_pos ((branchOf_le (loadSpan_pos _) hm).mpr hk)]
      · rw [List.getElem?_append_right (by rw [cyclicBranches_length]; omega), cyclicBranches_length,
          List.getElem?_replicate]
        by_cases hk' : k < nInc
        · rw [if_pos (by omega), List.getElem?_range hk']
          simp only [Option.map_some, cyclicIncrement,
            if_neg (fun e => hk ((branchOf_le (loadSpan_pos _) hm).mp e))]
        · rw [if_neg (by omega), List.getElem?_eq_none (by simpa using hk')]
          rfl
    rw [key]
    constructor
    · intro e
      cases e
      exact ⟨h, rfl⟩
    · rintro ⟨-, rfl⟩
      rfl

/-- **C110 (reversals).** At the end of its branches a cyclic loading reaches one and zero, or one and
minus one, in turn; after the last one the load rests. -/
theorem C110_reversals {loading : String} (hl : loading ∈ cyclicLoadings) {nReverse nInc : ℕ}
    {fs : List ℝ} (h : cyclicFactors loading nReverse nInc = .ok fs) {m : ℕ}
    (hm : m = nInc / unitBranches loading nReverse) :
    (∀ j ≤ reversals loading nReverse,
      totalFactor fs (m * (loadSpan loading * j + 1)) = turningPoint loading j) ∧
    ∀ k, m * unitBranches loading nReverse ≤ k →
      totalFactor fs k = turningPoint loading (reversals loading nReverse) := by
  obtain ⟨h1, h2⟩ := cyclicFactors_eq hl nReverse nInc
  rcases Nat.lt_or_ge nInc (unitBranches loading nReverse) with h' | h'
  · obtain ⟨e, he⟩ := h1 h'
    rw [he] at h
    cases h
  obtain ⟨hm0, hc⟩ := h2 h'
  rw [hc] at h
  cases h
  rw [← hm] at hm0 ⊢
  constructor
  · intro j hj
    obtain ⟨c, hc'⟩ := cyclicBranches_prefix (loadSpan loading) m hj
    have hlen : (cyclicBranches (loadSpan loading) m j).length = m * (loadSpan loading * j + 1) := by
      rw [cyclicBranches_length]; ring
    rw [hc', List.append_assoc, totalFactor_append, hlen, Nat.sub_self,
      totalFactor_of_le hlen.le, cyclicBranches_sum hm0 loading rfl]
    simp [totalFactor]
  · intro k hk
    have hlen : (cyclicBranches (loadSpan loading) m (reversals loading nReverse)).length
        = m * unitBranches loading nReverse := by
      rw [cyclicBranches_length]; unfold unitBranches; ring
    rw [totalFactor_append, totalFactor_of_le (hlen.le.trans hk), cyclicBranches_sum hm0 loading rfl,
      totalFactor_replicate, mul_zero, add_zero]

/-- A cyclic loading with two reversals and a rest: seven increments, of which one is left. -/
example : (∃ fs, cyclicFactors "cyclic_plus" 2 7 = .ok fs) ∧ "cyclic_plus" ∈ cyclicLoadings := by
  refine ⟨⟨_, (C110_cyclic (by simp [cyclicLoadings]) 2 7 _).mpr ⟨?_, rfl⟩⟩, by simp [cyclicLoadings]⟩
  simp [unitBranches, loadSpan, reversals]

/-! ### Polynomial loadings -/

theorem scaleTfact_eq {l : List ℝ} (hl : l ≠ []) : ∃ M, (∃ x ∈ l, |x| = M) ∧ (∀ x ∈ l, |x| ≤ M) ∧
    scaleTfact l = .ok (l.map fun x => x / max 1 M) := by
  obtain ⟨M, h1, h2, h3⟩ := npMax_spec (l := l.map fun x => |x|) (by simpa using hl)
  obtain ⟨mn, h4, h5, h6⟩ := npMin_spec hl
  obtain ⟨mx, h7, h8, h9⟩ := npMax_spec hl
  obtain ⟨x0, hx0, rfl⟩ := List.mem_map.mp h2
  have hle : ∀ x ∈ l, |x| ≤ |x0| := fun x hx => h3 _ (List.mem_map.mpr ⟨x, hx, rfl⟩)
  refine ⟨|x0|, ⟨x0, hx0, rfl⟩, hle, ?_⟩
  have e1 := abs_le.mp (hle mn h5)
  have e2 := abs_le.mp (hle mx h8)
  have hbig : |x0| ≤ max (-mn) mx := by
    rcases abs_cases x0 with ⟨h, -⟩ | ⟨h, -⟩ <;> rw [h]
    · exact (h9 x0 hx0).trans (le_max_right _ _)
    · exact (neg_le_neg (h6 x0 hx0)).trans (le_max_left _ _)
  unfold scaleTfact
  rw [h1, h4, h7]
  simp only [bind, Except.bind]
  by_cases hc : mn < -1 ∨ 1 < mx
  · have hpos : 0 < |x0| := by rcases hc with h | h <;> linarith
    rw [if_pos ⟨hpos, hc⟩]
    have key : (if (if 1 < mx then |1 - mx| else 0) < (if mn < -1 then |-1 - mn| else 0)
        then |-1 / mn| else |1 / mx|) = 1 / max 1 |x0| := by
      have a1 : mn < -1 → |-1 - mn| = -1 - mn := fun h => abs_of_pos (by linarith)
      have a2 : 1 < mx → |1 - mx| = mx - 1 := fun h => by rw [abs_of_neg (by linarith)]; ring
      have b1 : mn < -1 → |-1 / mn| = 1 / -mn := fun h => by
        rw [abs_div, abs_neg, abs_one, abs_of_neg (by linarith)]
      have b2 : 1 < mx → |1 / mx| = 1 / mx := fun h => by
        rw [abs_div, abs_one, abs_of_pos (by linarith)]
      by_cases hlow : mn < -1
      · by_cases hup : 1 < mx
        · rw [if_pos hup, if_pos hlow, a1 hlow, a2 hup]
          split_ifs with hd
          · rw [b1 hlow]
            have : |x0| = -mn := le_antisymm (hbig.trans (max_le le_rfl (by linarith))) (by linarith)
            rw [this, max_eq_right (by linarith)]
          · rw [b2 hup]
            have : |x0| = mx := le_antisymm (hbig.trans (max_le (by linarith) le_rfl)) e2.2
            rw [this, max_eq_right (by linarith)]
        · rw [if_neg hup, if_pos hlow, a1 hlow, if_pos (by linarith), b1 hlow]
          have : |x0| = -mn := le_antisymm (hbig.trans (max_le le_rfl (by linarith))) (by linarith)
          rw [this, max_eq_right (by linarith)]
      · have hup : 1 < mx := hc.resolve_left hlow
        rw [if_pos hup, if_neg hlow, a2 hup, if_neg (by linarith), b2 hup]
        have : |x0| = mx := le_antisymm (hbig.trans (max_le (by linarith) le_rfl)) e2.2
        rw [this, max_eq_right (by linarith)]
    rw [key]
    congr 1
    refine List.map_congr_left fun x _ => ?_
    ring
  · rw [if_neg fun h => hc h.2]
    push Not at hc
    have : |x0| ≤ 1 := hbig.trans (max_le (by linarith) hc.2)
    rw [max_eq_left this]
    congr 1
    simp

theorem interpolant_lagrange (n : ℕ) (t y : ℕ → ℝ) (x : ℝ) :
    (Lagrange.interpolate (Finset.range n) t y).eval x = interpolant n t y x := by
  rw [Lagrange.interpolate_apply, Polynomial.eval_finsetSum]
  unfold interpolant
  refine Finset.sum_congr rfl fun k hk => ?_
  rw [Polynomial.eval_mul, Polynomial.eval_C, Lagrange.basis, Polynomial.eval_prod,
    ← Finset.prod_erase_mul _ _ hk, if_pos rfl, mul_one]
  congr 1
  refine Finset.prod_congr rfl fun j hj => ?_
  rw [if_neg (Finset.ne_of_mem_erase hj), Lagrange.basisDivisor, Polynomial.eval_mul, Polynomial.eval_C,
    Polynomial.eval_sub, Polynomial.eval_X, Polynomial.eval_C, div_eq_inv_mul]

theorem controlTime {n k : ℕ} (h : k < n) :
    (npLinspace 0 1 n).getD k 0 = (k : ℝ) / ((n : ℝ) - 1) := by
  rw [List.getD_eq_getElem?_getD, getElem?_npLinspace _ _ _ _ h]
  simp only [Option.getD_some]
  ring

theorem loadPolynomial_exists {d : LoadDraws} (hd : 2 ≤ d.nControl) :
    ∃ P, LoadPolynomial d P ∧ ∀ x, P.eval x = interpolant d.nControl
      (fun k => (npLinspace 0 1 d.nControl).getD k 0) (fun k => if k = 0 then 0 else d.tfact k) x := by
  set t : ℕ → ℝ := fun k => (npLinspace 0 1 d.nControl).getD k 0 with ht
  set y : ℕ → ℝ := fun k => if k = 0 then 0 else d.tfact k with hy
  have hn : (0 : ℝ) < (d.nControl : ℝ) - 1 := by
    have : (2 : ℝ) ≤ d.nControl := by exact_mod_cast hd
    linarith
  have hinj : Set.InjOn t (Finset.range d.nControl) := by
    intro i hi j hj hij
    rw [Finset.coe_range, Set.mem_Iio] at hi hj
    simp only [ht] at hij
    rw [controlTime hi, controlTime hj, div_left_inj' hn.ne'] at hij
    exact_mod_cast hij
  refine ⟨Lagrange.interpolate (Finset.range d.nControl) t y, ⟨?_, ?_, ?_⟩,
    fun x => interpolant_lagrange _ _ _ _⟩
  · have := Lagrange.degree_interpolate_lt (r := y) hinj
    rwa [Finset.card_range] at this
  · have := Lagrange.eval_interpolate_at_node (r := y) hinj (i := 0) (Finset.mem_range.mpr (by omega))
    rw [show t 0 = 0 by simp only [ht]; rw [controlTime (by omega)]; simp] at this
    rw [this]
    simp [hy]
  · intro i h0 hi
    have := Lagrange.eval_interpolate_at_node (r := y) hinj (i := i) (Finset.mem_range.mpr hi)
    rw [show t i = (i : ℝ) / ((d.nControl : ℝ) - 1) from controlTime hi] at this
    rw [this]
    simp [hy, h0.ne']

theorem telescope (h : ℕ → ℝ) (n k : ℕ) (hk : k ≤ n) :
    totalFactor ((List.range n).map fun i => h (i + 1) - h i) k = h k - h 0 := by
  unfold totalFactor
  rw [← List.map_take, List.take_range, min_eq_left hk]
  clear hk
  induction k with
  | zero => simp
  | succ k ih => rw [List.range_succ, List.map_append, List.sum_append, ih]; simp

/-- **C110 (polynomial loadings).** The total load factors of a polynomial loading are the values of the
polynomial through the control points, divided by the largest absolute value if it exceeds one. -/
theorem C110_polynomial (nInc : ℕ) {d : LoadDraws} (hd : 2 ≤ d.nControl) :
    ∃ fs, polynomialFactors nInc d = .ok fs ∧ fs.length = nInc ∧
      ∃ P M, LoadPolynomial d P ∧ IsLargestLoad nInc P M ∧
        ∀ k ≤ nInc, totalFactor fs k = P.eval ((k : ℝ) / nInc) / max 1 M := by
  obtain ⟨P, hP, heval⟩ := loadPolynomial_exists hd
  have hlist : (npLinspace 0 1 (nInc + 1)).map (interpolant d.nControl
      (fun k => (npLinspace 0 1 d.nControl).getD k 0) fun k => if k = 0 then 0 else d.tfact k)
      = (List.range (nInc + 1)).map fun k : ℕ => P.eval ((k : ℝ) / nInc) := by
    unfold npLinspace
    rw [List.map_map]
    refine List.map_congr_left fun k _ => ?_
    rw [heval]
    simp only [Function.comp_apply, npLinspace]
    congr 1
    push_cast
    ring
  obtain ⟨M, ⟨x, hx, hxM⟩, hM, hs⟩ := scaleTfact_eq
    (l := (List.range (nInc + 1)).map fun k : ℕ => P.eval ((k : ℝ) / nInc)) (by simp)
  rw [List.map_map] at hs
  set g : ℕ → ℝ := fun k => P.eval ((k : ℝ) / nInc) / max 1 M with hg
  have hpoly : polynomialTfact nInc d = .ok ((List.range (nInc + 1)).map g) := by
    unfold polynomialTfact
    rw [hlist, hs]
    rfl
  have hfs : polynomialFactors nInc d = .ok ((List.range nInc).map fun i => g (i + 1) - g i) := by
    unfold polynomialFactors
    rw [hpoly]
    simp only [bind, Except.bind]
    refine mapM_of_forall fun i hi => ?_
    have hi := List.mem_range.mp hi
    have e1 : ((List.range (nInc + 1)).map g)[i + 1]? = some (g (i + 1)) := by
      rw [List.getElem?_map, List.getElem?_range (by omega)]; rfl
    have e2 : ((List.range (nInc + 1)).map g)[i]? = some (g i) := by
      rw [List.getElem?_map, List.getElem?_range (by omega)]; rfl
    rw [e1, e2]
    rfl
  refine ⟨_, hfs, by simp, P, M, hP, ⟨?_, ?_⟩, ?_⟩
  · obtain ⟨k, hk, rfl⟩ := List.mem_map.mp hx
    exact ⟨k, by have := List.mem_range.mp hk; omega, hxM⟩
  · intro k hk
    exact hM _ (List.mem_map.mpr ⟨k, List.mem_range.mpr (by omega), rfl⟩)
  · intro k hk
    rw [telescope g nInc k hk]
    simp [hg, hP.2.1]

/-- The draws of the code: two to five control points, here three. -/
example : ∃ d : LoadDraws, 2 ≤ d.nControl ∧ ∃ P, LoadPolynomial d P ∧ P.eval 1 = -1 :=
  ⟨⟨3, fun k => if k = 1 then 1 else -1⟩, by norm_num, by
    obtain ⟨P, hP, -⟩ := loadPolynomial_exists (d := ⟨3, fun k => if k = 1 then 1 else -1⟩) (by norm_num)
    refine ⟨P, hP, ?_⟩
    have := hP.2.2 2 (by norm_num) (by norm_num)
    norm_num at this
    exact this⟩

/-- **C110 (bounds).** Whatever the loading, as many increments are prepared as announced, and the total
load factor never leaves the interval from minus one to one; it is never negative for proportional
loadings and cyclic loadings without change of sign. -/
theorem C110_bounds {loading : String} {nReverse nInc : ℕ} {d : LoadDraws} (hd : 2 ≤ d.nControl)
    {fs : List ℝ} (h : loadFactors loading nReverse nInc d = .ok fs) :
    fs.length = nInc ∧ (∀ k, |totalFactor fs k| ≤ 1) ∧
      (loading = "proportional" ∨ loading = "cyclic_plus" → ∀ k, 0 ≤ totalFactor fs k) := by
  unfold loadFactors at h
  split_ifs at h with hl hp
  · have hlen := ((C110_cyclic hl nReverse nInc fs).mp h).2
    refine ⟨by rw [hlen]; simp, ?_⟩
    obtain ⟨h1, h2⟩ := cyclicFactors_eq hl nReverse nInc
    rcases Nat.lt_or_ge nInc (unitBranches loading nReverse) with h' | h'
    · obtain ⟨e, he⟩ := h1 h'
      rw [he] at h
      cases h
    obtain ⟨hm0, hc⟩ := h2 h'
    rw [hc] at h
    cases h
    clear hlen
    have key := fun k => cyclicBranches_bounds hm0 loading rfl (reversals loading nReverse) k
    have hs : (loadSpan loading : ℝ) ≤ 2 := by unfold loadSpan; split <;> norm_num
    refine ⟨fun k => ?_, fun hpl k => ?_⟩
    · rw [totalFactor_append, totalFactor_replicate, mul_zero, add_zero, abs_le]
      exact ⟨by linarith [(key k).1], (key k).2⟩
    · rw [totalFactor_append, totalFactor_replicate, mul_zero, add_zero]
      have : (loadSpan loading : ℝ) = 1 := by
        rcases hpl with rfl | rfl <;> simp [loadSpan]
      linarith [(key k).1]
  · obtain ⟨fs', hf, hlen, P, M, -, hM, ht⟩ := C110_polynomial nInc hd
    rw [hf] at h
    cases h
    refine ⟨hlen, fun k => ?_, fun hpl => ?_⟩
    · have hk : totalFactor fs k = totalFactor fs (min k nInc) := by
        unfold totalFactor
        rcases Nat.le_total k nInc with hk | hk
        · rw [min_eq_left hk]
        · rw [min_eq_right hk, List.take_of_length_le (by omega), List.take_of_length_le (by omega)]
      rw [hk, ht _ (min_le_right _ _), abs_div, abs_of_pos (lt_of_lt_of_le one_pos (le_max_left 1 M)),
        div_le_one (lt_of_lt_of_le one_pos (le_max_left 1 M))]
      exact (hM.2 _ (min_le_right _ _)).trans (le_max_right _ _)
    · subst hp
      rcases hpl with h | h
      · exact absurd h (by decide)
      · exact absurd h (by decide)

end Hooke
