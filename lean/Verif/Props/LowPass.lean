import Verif.Props.Denoise
import Mathlib.Analysis.SpecialFunctions.Complex.Log
import Mathlib.Algebra.Field.GeomSum
import Mathlib.Algebra.BigOperators.Group.Finset.Basic
import Mathlib.Tactic.LinearCombination

/-!
# C75: low-pass filter
-/

namespace Hooke

open Spec Complex

noncomputable section

/-- `exp(2πi d/n)`. -/
def rootExp (n : ℕ) (d : ℤ) : ℂ := exp (2 * Real.pi * I * d / n)

theorem rootExp_add (n : ℕ) (a b : ℤ) : rootExp n (a + b) = rootExp n a * rootExp n b := by
  unfold rootExp
  rw [← exp_add]
  congr 1
  push_cast
  ring

theorem rootExp_zero (n : ℕ) : rootExp n 0 = 1 := by simp [rootExp]

theorem rootExp_nmul (n : ℕ) (k : ℕ) (a : ℤ) : rootExp n (k * a) = rootExp n a ^ k := by
  unfold rootExp
  rw [← exp_nat_mul]
  congr 1
  push_cast
  ring

theorem rootExp_eq_one (n : ℕ) (hn : 0 < n) (d : ℤ) : rootExp n d = 1 ↔ (n : ℤ) ∣ d := by
  unfold rootExp
  rw [exp_eq_one_iff]
  have hn' : (n : ℂ) ≠ 0 := by exact_mod_cast hn.ne'
  constructor
  · rintro ⟨m, hm⟩
    refine ⟨m, ?_⟩
    have h2 := two_pi_I_ne_zero
    have : (2 * Real.pi * I) * (d : ℂ) = (2 * Real.pi * I) * (n * m) := by
      field_simp at hm
      linear_combination (2 * Real.pi * I) * hm
    have := mul_left_cancel₀ h2 this
    exact_mod_cast this
  · rintro ⟨m, rfl⟩
    refine ⟨m, ?_⟩
    push_cast
    field_simp

theorem rootExp_sum (n : ℕ) (hn : 0 < n) (d : ℤ) :
    ∑ k ∈ Finset.range n, rootExp n (k * d) = if (n : ℤ) ∣ d then (n : ℂ) else 0 := by
  simp only [rootExp_nmul]
  split
  · next h => rw [(rootExp_eq_one n hn d).2 h]; simp
  · next h =>
    have h1 : rootExp n d ≠ 1 := fun e => h ((rootExp_eq_one n hn d).1 e)
    rw [geom_sum_eq h1, ← rootExp_nmul, (rootExp_eq_one n hn _).2 (by simp)]
    simp

theorem rootExp_conj (n : ℕ) (d : ℤ) : (starRingEnd ℂ) (rootExp n d) = rootExp n (-d) := by
  unfold rootExp
  rw [← exp_conj]
  congr 1
  simp only [map_div₀, map_mul, conj_I, conj_ofReal, map_natCast, map_ofNat, map_intCast]
  push_cast
  ring

theorem spectrum_eq (n : ℕ) (x : ℕ → ℝ) (k : ℕ) :
    dftAt n x k = ∑ t ∈ Finset.range n, (x t : ℂ) * rootExp n (-(k * t)) := by
  unfold dftAt rootExp
  apply Finset.sum_congr rfl
  intro t _
  congr 2
  push_cast
  ring

theorem ifft_eq (n : ℕ) (X : ℕ → ℂ) (t : ℕ) :
    ifft n X t = (∑ k ∈ Finset.range n, X k * rootExp n (k * t)) / n := by
  unfold ifft rootExp
  congr 1
  apply Finset.sum_congr rfl
  intro k _
  congr 2
  push_cast
  ring

theorem fft_eq_spectrum (n : ℕ) (x : ℕ → ℝ) (k : ℕ) : fft n x k = dftAt n x k := rfl

/-- Transforming back and forth, from the frequencies. -/
theorem sum_ifft (n : ℕ) (hn : 0 < n) (Y : ℕ → ℂ) (k : ℕ) (hk : k < n) :
    ∑ t ∈ Finset.range n, ifft n Y t * rootExp n (-(k * t)) = Y k := by
  have hn' : (n : ℂ) ≠ 0 := by exact_mod_cast hn.ne'
  simp only [ifft_eq, div_mul_eq_mul_div, Finset.sum_mul]
  rw [← Finset.sum_div, Finset.sum_comm, div_eq_iff hn']
  have h : ∀ l ∈ Finset.range n, ∑ t ∈ Finset.range n,
      Y l * rootExp n (l * t) * rootExp n (-(k * t)) = if l = k then Y k * n else 0 := by
    intro l hl
    have e : ∀ t : ℕ, Y l * rootExp n (l * t) * rootExp n (-(k * t))
        = Y l * rootExp n (t * ((l : ℤ) - k)) := fun t => by
      rw [mul_assoc, ← rootExp_add]
      congr 2
      ring
    simp only [e]
    rw [← Finset.mul_sum, rootExp_sum n hn]
    rw [Finset.mem_range] at hl
    by_cases h : l = k
    · subst h; simp
    · rw [if_neg h, if_neg, mul_zero]
      intro hd
      have := Int.eq_zero_of_abs_lt_dvd hd (by rw [abs_lt]; constructor <;> omega)
      omega
  rw [Finset.sum_congr rfl h, Finset.sum_ite_eq', if_pos (Finset.mem_range.2 hk)]

/-- Transforming back and forth, from the times. -/
theorem ifft_spectrum (n : ℕ) (x : ℕ → ℝ) (t : ℕ) (ht : t < n) :
    ifft n (dftAt n x) t = x t := by
  have hn : 0 < n := by omega
  have hn' : (n : ℂ) ≠ 0 := by exact_mod_cast hn.ne'
  simp only [ifft_eq, spectrum_eq, Finset.sum_mul]
  rw [Finset.sum_comm, div_eq_iff hn']
  have h : ∀ s ∈ Finset.range n, ∑ k ∈ Finset.range n,
      (x s : ℂ) * rootExp n (-(k * s)) * rootExp n (k * t) = if s = t then (x t : ℂ) * n else 0 := by
    intro s hs
    have e : ∀ k : ℕ, (x s : ℂ) * rootExp n (-(k * s)) * rootExp n (k * t)
        = (x s : ℂ) * rootExp n (k * ((t : ℤ) - s)) := fun k => by
      rw [mul_assoc, ← rootExp_add]
      congr 2
      ring
    simp only [e]
    rw [← Finset.mul_sum, rootExp_sum n hn]
    rw [Finset.mem_range] at hs
    by_cases h : s = t
    · subst h; simp
    · rw [if_neg h, if_neg, mul_zero]
      intro hd
      have := Int.eq_zero_of_abs_lt_dvd hd (by rw [abs_lt]; constructor <;> omega)
      omega
  rw [Finset.sum_congr rfl h, Finset.sum_ite_eq', if_pos (Finset.mem_range.2 ht)]

/-- Equal spectra belong to equal sequences. -/
theorem spectrum_inj (n : ℕ) (x y : ℕ → ℝ) (h : ∀ k < n, dftAt n x k = dftAt n y k) :
    ∀ t < n, x t = y t := by
  intro t ht
  have h1 := ifft_spectrum n x t ht
  have h2 := ifft_spectrum n y t ht
  have : ifft n (dftAt n x) t = ifft n (dftAt n y) t := by
    rw [ifft_eq, ifft_eq]
    congr 1
    exact Finset.sum_congr rfl fun k hk => by rw [h k (Finset.mem_range.1 hk)]
  rw [h1, h2] at this
  exact_mod_cast this

theorem abs_fftfreq (n k : ℕ) (hk : k < n) : |fftfreq n k| = (min k (n - k) : ℕ) / (n : ℝ) := by
  have hn : (0 : ℝ) < n := by exact_mod_cast (by omega : 0 < n)
  unfold fftfreq
  split
  · next h =>
    rw [abs_of_nonneg (by positivity), min_eq_left (by omega)]
  · next h =>
    rw [min_eq_right (by omega), abs_div, abs_of_pos hn, abs_of_nonpos, Nat.cast_sub hk.le]
    · ring
    · have : (k : ℝ) ≤ n := by exact_mod_cast hk.le
      linarith

/-- The filter passes the frequency of index `k`. -/
def passes (n : ℕ) (cutoff : ℝ) (k : ℕ) : Prop := ((min k (n - k) : ℕ) : ℝ) ≤ cutoff * n

theorem filter_iff (n k : ℕ) (hk : k < n) (cutoff : ℝ) :
    |fftfreq n k| ≤ cutoff ↔ passes n cutoff k := by
  have hn : (0 : ℝ) < n := by exact_mod_cast (by omega : 0 < n)
  rw [abs_fftfreq n k hk, div_le_iff₀ hn]
  rfl

open Classical in
/-- The filtered spectrum. -/
def cut (n : ℕ) (cutoff : ℝ) (x : ℕ → ℝ) (k : ℕ) : ℂ :=
  if passes n cutoff k then dftAt n x k else 0

/-- The imaginary part that `.real` drops is zero. -/
theorem ifft_cut_real (n : ℕ) (cutoff : ℝ) (x : ℕ → ℝ) (t : ℕ) (hn : 0 < n) :
    (((ifft n (cut n cutoff x) t).re : ℝ) : ℂ) = ifft n (cut n cutoff x) t := by
  rw [← conj_eq_iff_re]
  simp only [ifft_eq, map_div₀, map_natCast, map_sum, map_mul, rootExp_conj]
  congr 1
  -- pair `k` with `n - k`
  have hconj : ∀ k < n, (starRingEnd ℂ) (cut n cutoff x k) * rootExp n (-(k * t))
      = cut n cutoff x ((n - k) % n) * rootExp n (((n - k) % n : ℕ) * t) := by
    intro k hk
    have hp : passes n cutoff ((n - k) % n) ↔ passes n cutoff k := by
      unfold passes
      have : min ((n - k) % n) (n - (n - k) % n) = min k (n - k) := by
        rcases Nat.eq_zero_or_pos k with rfl | h
        · simp
        · rw [Nat.mod_eq_of_lt (by omega)]; omega
      rw [this]
    have hmod : ∀ s : ℕ, rootExp n ((((n - k) % n : ℕ) : ℤ) * s) = rootExp n (-(k * s)) := by
      intro s
      rcases Nat.eq_zero_or_pos k with rfl | h
      · simp
      · rw [Nat.mod_eq_of_lt (by omega),
          show ((n - k : ℕ) : ℤ) * s = (n : ℤ) * s + -(k * s) by rw [Nat.cast_sub hk.le]; ring,
          rootExp_add, (rootExp_eq_one n hn _).2 (Dvd.intro _ rfl), one_mul]
    rw [hmod]
    congr 1
    unfold cut
    by_cases h : passes n cutoff k
    · rw [if_pos h, if_pos (hp.2 h)]
      simp only [spectrum_eq, map_sum, map_mul, conj_ofReal, rootExp_conj, neg_neg]
      apply Finset.sum_congr rfl
      intro s _
      congr 1
      have := congrArg (starRingEnd ℂ) (hmod s)
      rw [rootExp_conj, rootExp_conj, neg_neg] at this
      exact this.symm
    · rw [if_neg h, if_neg fun e => h (hp.1 e), map_zero]
  rw [Finset.sum_congr rfl fun k hk => hconj k (Finset.mem_range.1 hk)]
  refine Finset.sum_bij' (fun k _ => (n - k) % n) (fun k _ => (n - k) % n) ?_ ?_ ?_ ?_ ?_
  · intro k _; exact Finset.mem_range.2 (Nat.mod_lt _ hn)
  · intro k _; exact Finset.mem_range.2 (Nat.mod_lt _ hn)
  · intro k hk
    rw [Finset.mem_range] at hk
    rcases Nat.eq_zero_or_pos k with rfl | h
    · simp
    · rw [Nat.mod_eq_of_lt (by omega : n - k < n), Nat.mod_eq_of_lt (by omega)]; omega
  · intro k hk
    rw [Finset.mem_range] at hk
    rcases Nat.eq_zero_or_pos k with rfl | h
    · simp
    · rw [Nat.mod_eq_of_lt (by omega : n - k < n), Nat.mod_eq_of_lt (by omega)]; omega
  · intro k _; rfl

/-- The output of one cycle. -/
def lowPassStep (cutoff : ℝ) (x : Series) : Series :=
  ⟨x.dtype, x.len, x.nFeat, fun t j => (ifft x.len (cut x.len cutoff fun s => x.val s j) t).re⟩

theorem lowPass_eq (cutoff : ℝ) (x : Series) (hl : 0 < x.len) :
    lowPass cutoff x = .ok (lowPassStep cutoff x) := by
  unfold lowPass raiseIf
  rw [if_neg hl.ne']
  simp only [bind, Except.bind, lowPassStep, Except.ok.injEq, Series.mk.injEq, true_and]
  funext t j
  congr 1
  rw [ifft_eq, ifft_eq]
  congr 1
  apply Finset.sum_congr rfl
  intro k hk
  congr 1
  have := filter_iff x.len k (Finset.mem_range.1 hk) cutoff
  unfold cut
  by_cases h : passes x.len cutoff k
  · rw [if_pos h, if_pos (this.2 h)]; rfl
  · rw [if_neg h, if_neg fun e => h (this.1 e)]

theorem step_spectrum (cutoff : ℝ) (x : Series) (hl : 0 < x.len) (j k : ℕ) (hk : k < x.len) :
    dftAt x.len (fun s => (lowPassStep cutoff x).val s j) k
      = cut x.len cutoff (fun s => x.val s j) k := by
  rw [spectrum_eq, ← sum_ifft x.len hl (cut x.len cutoff fun s => x.val s j) k hk]
  apply Finset.sum_congr rfl
  intro t _
  rw [← ifft_cut_real _ _ _ _ hl]
  rfl

theorem step_idem (cutoff : ℝ) (x : Series) (hl : 0 < x.len) (j : ℕ) :
    ∀ t < x.len, (lowPassStep cutoff (lowPassStep cutoff x)).val t j
      = (lowPassStep cutoff x).val t j := by
  apply spectrum_inj
  intro k hk
  have h1 := step_spectrum cutoff (lowPassStep cutoff x) hl j k hk
  have h2 := step_spectrum cutoff x hl j k hk
  have e : (lowPassStep cutoff x).len = x.len := rfl
  rw [e] at h1
  rw [h1, h2]
  unfold cut
  split
  · next h => rw [h2]; unfold cut; rw [if_pos h]
  · rfl

theorem step_idem_all (cutoff : ℝ) (x : Series) (hl : 0 < x.len) :
    lowPassStep cutoff (lowPassStep cutoff x) = lowPassStep cutoff x := by
  -- the outputs agree at all times, not only those of the series, by periodicity
  have hval : ∀ t j, (lowPassStep cutoff (lowPassStep cutoff x)).val t j
      = (ifft x.len (cut x.len cutoff fun s => (lowPassStep cutoff x).val s j) t).re := fun _ _ => rfl
  have hcut : ∀ j, ∀ k < x.len, cut x.len cutoff (fun s => (lowPassStep cutoff x).val s j) k
      = cut x.len cutoff (fun s => x.val s j) k := by
    intro j k hk
    unfold cut
    split
    · next h => rw [step_spectrum cutoff x hl j k hk]; unfold cut; rw [if_pos h]
    · rfl
  have h2 : ∀ t j, (lowPassStep cutoff (lowPassStep cutoff x)).val t j
      = (lowPassStep cutoff x).val t j := by
    intro t j
    rw [hval]
    simp only [lowPassStep]
    rw [ifft_eq, ifft_eq]
    congr 2
    apply Finset.sum_congr rfl
    intro k hk
    rw [← hcut j k (Finset.mem_range.1 hk)]
    rfl
  have h3 : (lowPassStep cutoff (lowPassStep cutoff x)).val = (lowPassStep cutoff x).val := by
    funext t j; exact h2 t j
  have h4 : ∀ a b : Series, a.dtype = b.dtype → a.len = b.len → a.nFeat = b.nFeat →
      a.val = b.val → a = b := by
    rintro ⟨⟩ ⟨⟩ rfl rfl rfl rfl; rfl
  exact h4 _ _ rfl rfl rfl h3

theorem denoise_lp (dd : DType) (cf : ℕ → ℕ → Py (List ℝ)) (x : Series) (cutoff : ℝ) (n : ℤ)
    (hn : 1 ≤ n) (hl : 0 < x.len) :
    denoise dd cf (.series x) "frequency_low_pass" (.cutoff cutoff) n
      = .ok (lowPassStep cutoff x) := by
  obtain ⟨m, hm⟩ : ∃ m, n.toNat = m + 1 := ⟨n.toNat - 1, by omega⟩
  unfold denoise
  simp only [checkSeries, raiseIf, List.mem_cons, true_or, or_true, not_true_eq_false, if_false, bind,
    Except.bind, hm, applyDenoiser, if_true]
  clear hm
  induction m with
  | zero =>
    rw [foldlM_range_succ]
    exact lowPass_eq cutoff x hl
  | succ m ih =>
    rw [foldlM_range_succ, ih]
    simp only [bind, Except.bind]
    rw [lowPass_eq cutoff (lowPassStep cutoff x) hl, step_idem_all cutoff x hl]

open Classical in
/-- **C75.** For every non-empty series, every cutoff and every positive number of cycles, the
low-pass filter returns a series of the same shape; each feature of it has the spectrum of the
input at the frequencies `min(k, n-k)/n` up to the cutoff, the cutoff included, and none above.  By
`C75_determined` this fixes the values. -/
theorem C75_spectrum (dd : DType) (cf : ℕ → ℕ → Py (List ℝ)) (x : Series) (cutoff : ℝ) (n : ℤ)
    (hn : 1 ≤ n) (hl : 0 < x.len) :
    ∃ y, denoise dd cf (.series x) "frequency_low_pass" (.cutoff cutoff) n = .ok y ∧
      SameShape x y ∧ ∀ j, ∀ k < x.len, dftAt x.len (fun t => y.val t j) k =
        if ((min k (x.len - k) : ℕ) : ℝ) / x.len ≤ cutoff then
          dftAt x.len (fun t => x.val t j) k else 0 := by
  refine ⟨_, denoise_lp dd cf x cutoff n hn hl, ⟨rfl, rfl, rfl⟩, fun j k hk => ?_⟩
  rw [step_spectrum cutoff x hl j k hk]
  unfold cut passes
  have : (0 : ℝ) < x.len := by exact_mod_cast hl
  simp only [div_le_iff₀ this]

/-- **C75.** A sequence is determined by its spectrum. -/
theorem C75_determined (n : ℕ) (x y : ℕ → ℝ) (h : ∀ k < n, dftAt n x k = dftAt n y k) :
    ∀ t < n, x t = y t := spectrum_inj n x y h

example : ∃ x : Series, 0 < x.len ∧ x.val 0 0 ≠ x.val 1 0 :=
  ⟨⟨.float32, 4, 1, fun t _ => t⟩, by norm_num, by norm_num⟩

/-- **C75.** The filter is linear and acts on every feature by itself. -/
theorem C75_linear (dd : DType) (cf : ℕ → ℕ → Py (List ℝ)) (x y z : Series) (cutoff : ℝ) (n : ℤ)
    (hn : 1 ≤ n) (hl : 0 < x.len) (hy : y.len = x.len) (hz : z.len = x.len) (j j' j'' : ℕ) (a b : ℝ)
    (h : ∀ t < x.len, z.val t j'' = a * x.val t j + b * y.val t j') (x' y' z' : Series)
    (hx' : denoise dd cf (.series x) "frequency_low_pass" (.cutoff cutoff) n = .ok x')
    (hy' : denoise dd cf (.series y) "frequency_low_pass" (.cutoff cutoff) n = .ok y')
    (hz' : denoise dd cf (.series z) "frequency_low_pass" (.cutoff cutoff) n = .ok z') :
    ∀ t < x.len, z'.val t j'' = a * x'.val t j + b * y'.val t j' := by
  rw [denoise_lp dd cf _ cutoff n hn hl, Except.ok.injEq] at hx'
  rw [denoise_lp dd cf _ cutoff n hn (by omega), Except.ok.injEq] at hy'
  rw [denoise_lp dd cf _ cutoff n hn (by omega), Except.ok.injEq] at hz'
  subst hx' hy' hz'
  have lin : ∀ (u v : ℕ → ℝ) k, dftAt x.len (fun t => a * u t + b * v t) k
      = a * dftAt x.len u k + b * dftAt x.len v k := by
    intro u v k
    unfold dftAt
    rw [Finset.mul_sum, Finset.mul_sum, ← Finset.sum_add_distrib]
    apply Finset.sum_congr rfl
    intro t _
    push_cast
    ring
  apply spectrum_inj
  intro k hk
  have e1 := step_spectrum cutoff x hl j k hk
  have e2 := step_spectrum cutoff y (by omega) j' k (by omega)
  have e3 := step_spectrum cutoff z (by omega) j'' k (by omega)
  rw [hy] at e2
  rw [hz] at e3
  rw [lin, e1, e2, e3]
  unfold cut
  split
  · rw [← lin]
    unfold dftAt
    exact Finset.sum_congr rfl fun t ht => by
      dsimp only
      rw [h t (Finset.mem_range.1 ht)]
  · ring

/-- **C75.** A cutoff that is not negative keeps the mean of every feature. -/
theorem C75_mean (dd : DType) (cf : ℕ → ℕ → Py (List ℝ)) (x : Series) (cutoff : ℝ) (n : ℤ)
    (hn : 1 ≤ n) (hl : 0 < x.len) (hc : 0 ≤ cutoff) (y : Series)
    (hy : denoise dd cf (.series x) "frequency_low_pass" (.cutoff cutoff) n = .ok y) (j : ℕ) :
    ∑ t ∈ Finset.range x.len, y.val t j = ∑ t ∈ Finset.range x.len, x.val t j := by
  obtain ⟨y', hy', -, h⟩ := C75_spectrum dd cf x cutoff n hn hl
  rw [hy, Except.ok.injEq] at hy'
  subst hy'
  have := h j 0 hl
  rw [if_pos (by simpa using hc), spectrum_eq, spectrum_eq] at this
  simp only [Nat.cast_zero, zero_mul, neg_zero, rootExp_zero, mul_one] at this
  exact_mod_cast this

/-- **C75.** A cutoff of one half or more, in particular every positive integer, leaves every series
unchanged; a negative cutoff returns zeros. -/
theorem C75_extreme (dd : DType) (cf : ℕ → ℕ → Py (List ℝ)) (x : Series) (cutoff : ℝ) (n : ℤ)
    (hn : 1 ≤ n) (hl : 0 < x.len) (y : Series)
    (hy : denoise dd cf (.series x) "frequency_low_pass" (.cutoff cutoff) n = .ok y) (j : ℕ) :
    (1 / 2 ≤ cutoff → ∀ t < x.len, y.val t j = x.val t j) ∧
    (cutoff < 0 → ∀ t < x.len, y.val t j = 0) := by
  obtain ⟨y', hy', -, h⟩ := C75_spectrum dd cf x cutoff n hn hl
  rw [hy, Except.ok.injEq] at hy'
  subst hy'
  have hp : (0 : ℝ) < x.len := by exact_mod_cast hl
  constructor
  · intro hc
    apply spectrum_inj
    intro k hk
    rw [h j k hk, if_pos]
    rw [div_le_iff₀ hp]
    have : 2 * min k (x.len - k) ≤ x.len := by omega
    have : (2 : ℝ) * (min k (x.len - k) : ℕ) ≤ x.len := by exact_mod_cast this
    nlinarith
  · intro hc
    apply spectrum_inj
    intro k hk
    rw [h j k hk, if_neg]
    · simp [dftAt]
    · rw [div_le_iff₀ hp, not_le]
      have : (0 : ℝ) ≤ (min k (x.len - k) : ℕ) := by positivity
      nlinarith

/-- **C75.** Filtering again, with any number of further cycles, changes nothing. -/
theorem C75_idempotent (dd : DType) (cf : ℕ → ℕ → Py (List ℝ)) (x y : Series) (cutoff : ℝ) (n m : ℤ)
    (hn : 1 ≤ n) (hm : 1 ≤ m) (hl : 0 < x.len)
    (hy : denoise dd cf (.series x) "frequency_low_pass" (.cutoff cutoff) n = .ok y) :
    denoise dd cf (.series y) "frequency_low_pass" (.cutoff cutoff) m = .ok y := by
  rw [denoise_lp dd cf x cutoff n hn hl, Except.ok.injEq] at hy
  subst hy
  rw [denoise_lp dd cf (lowPassStep cutoff x) cutoff m hm hl, step_idem_all cutoff x hl]

theorem parseval (n : ℕ) (hn : 0 < n) (u v : ℕ → ℝ) :
    ∑ k ∈ Finset.range n, dftAt n u k * (starRingEnd ℂ) (dftAt n v k)
      = n * ∑ t ∈ Finset.range n, ((u t * v t : ℝ) : ℂ) := by
  have h : ∀ k ∈ Finset.range n, dftAt n u k * (starRingEnd ℂ) (dftAt n v k)
      = ∑ t ∈ Finset.range n, ∑ s ∈ Finset.range n,
        ((u t * v s : ℝ) : ℂ) * rootExp n (k * ((s : ℤ) - t)) := by
    intro k _
    rw [spectrum_eq, spectrum_eq, map_sum, Finset.sum_mul_sum]
    apply Finset.sum_congr rfl
    intro t _
    apply Finset.sum_congr rfl
    intro s _
    rw [map_mul, conj_ofReal, rootExp_conj, neg_neg,
      show (k : ℤ) * ((s : ℤ) - t) = -(k * t) + k * s by ring, rootExp_add]
    push_cast
    ring
  rw [Finset.sum_congr rfl h, Finset.sum_comm, Finset.mul_sum]
  apply Finset.sum_congr rfl
  intro t ht
  rw [Finset.sum_comm]
  have h2 : ∀ s ∈ Finset.range n, ∑ k ∈ Finset.range n,
      ((u t * v s : ℝ) : ℂ) * rootExp n (k * ((s : ℤ) - t))
      = if s = t then (n : ℂ) * ((u t * v t : ℝ) : ℂ) else 0 := by
    intro s hs
    rw [← Finset.mul_sum, rootExp_sum n hn]
    rw [Finset.mem_range] at hs ht
    by_cases h : s = t
    · subst h; simp [mul_comm]
    · rw [if_neg h, if_neg, mul_zero]
      intro hd
      have := Int.eq_zero_of_abs_lt_dvd hd (by rw [abs_lt]; constructor <;> omega)
      omega
  rw [Finset.sum_congr rfl h2, Finset.sum_ite_eq', if_pos ht]

/-- **C75.** The filter never amplifies: the removed part is orthogonal to what is kept, so that the
sum of squares of each feature is that of the output plus that of the removed part. -/
theorem C75_energy (dd : DType) (cf : ℕ → ℕ → Py (List ℝ)) (x : Series) (cutoff : ℝ) (n : ℤ)
    (hn : 1 ≤ n) (hl : 0 < x.len) (y : Series)
    (hy : denoise dd cf (.series x) "frequency_low_pass" (.cutoff cutoff) n = .ok y) (j : ℕ) :
    ∑ t ∈ Finset.range x.len, x.val t j ^ 2 = ∑ t ∈ Finset.range x.len, y.val t j ^ 2
      + ∑ t ∈ Finset.range x.len, (x.val t j - y.val t j) ^ 2 := by
  obtain ⟨y', hy', -, h⟩ := C75_spectrum dd cf x cutoff n hn hl
  rw [hy, Except.ok.injEq] at hy'
  subst hy'
  have hp := parseval x.len hl (fun t => y.val t j) (fun t => x.val t j - y.val t j)
  have hz : ∀ k ∈ Finset.range x.len, dftAt x.len (fun t => y.val t j) k
      * (starRingEnd ℂ) (dftAt x.len (fun t => x.val t j - y.val t j) k) = 0 := by
    intro k hk
    have hs : dftAt x.len (fun t => x.val t j - y.val t j) k
        = dftAt x.len (fun t => x.val t j) k - dftAt x.len (fun t => y.val t j) k := by
      unfold dftAt
      rw [← Finset.sum_sub_distrib]
      apply Finset.sum_congr rfl
      intro t _
      push_cast
      ring
    rw [hs, h j k (Finset.mem_range.1 hk)]
    split <;> simp
  rw [Finset.sum_eq_zero hz] at hp
  have hn' : (x.len : ℂ) ≠ 0 := by exact_mod_cast hl.ne'
  have h0 : ∑ t ∈ Finset.range x.len, ((y.val t j * (x.val t j - y.val t j) : ℝ) : ℂ) = 0 := by
    rcases mul_eq_zero.1 hp.symm with h | h
    · exact absurd h hn'
    · exact h
  have h1 : ∑ t ∈ Finset.range x.len, y.val t j * (x.val t j - y.val t j) = 0 := by
    exact_mod_cast h0
  have : ∑ t ∈ Finset.range x.len, x.val t j ^ 2 = ∑ t ∈ Finset.range x.len, (y.val t j ^ 2
      + (x.val t j - y.val t j) ^ 2 + 2 * (y.val t j * (x.val t j - y.val t j))) := by
    apply Finset.sum_congr rfl
    intro t _
    ring
  rw [this, Finset.sum_add_distrib, Finset.sum_add_distrib, ← Finset.mul_sum, h1]
  ring

end

end Hooke
