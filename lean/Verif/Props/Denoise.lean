import Verif.Spec.Denoise
import Verif.Lemmas.Py
import Mathlib.Tactic.Linarith
import Mathlib.Tactic.Ring
import Mathlib.Tactic.FieldSimp
import Mathlib.Tactic.NormNum
import Mathlib.Algebra.Polynomial.Eval.Degree
import Mathlib.Algebra.Polynomial.Taylor
import Mathlib.Data.Fintype.Card
import Mathlib.Algebra.BigOperators.Field

/-!
# C67, C74: moving average and Savitzky-Golay filter
-/

namespace Hooke

open Spec

noncomputable section

/-- Padding and convolution with a kernel of the type of the series. -/
def filterStep (c : List ℝ) (x : Series) : Series :=
  ⟨x.dtype, x.len, x.nFeat, fun t j =>
    ∑ i ∈ Finset.range c.length, c.getD i 0
      * x.val (min (t + i - c.length / 2) (x.len - 1)) j⟩

theorem getD_replicate_lt (n i : ℕ) (a d : ℝ) (h : i < n) : (List.replicate n a).getD i d = a := by
  simp [List.getD, List.getElem?_replicate, h]

theorem pad_conv (kd : DType) (c : List ℝ) (x : Series) (hc : c ≠ []) (hl : 0 < x.len)
    (hf : 0 < x.nFeat) :
    (replicatePad (c.length / 2) (c.length - 1 - c.length / 2) x >>= conv1d kd c)
      = if kd = x.dtype then .ok (filterStep c x) else .error .runtimeError := by
  have hcl : 0 < c.length := List.length_pos_iff.2 hc
  unfold replicatePad
  rw [if_neg (by omega)]
  simp only [bind, Except.bind, conv1d]
  have hlen : x.len + c.length / 2 + (c.length - 1 - c.length / 2) = x.len + c.length - 1 := by omega
  rw [hlen]
  by_cases hd : kd = x.dtype
  · rw [if_neg (by rintro (h | h | h); exacts [hc h, h hd, by omega]), if_pos hd]
    unfold filterStep
    congr 2
    omega
  · rw [if_pos (Or.inr (Or.inl hd)), if_neg hd]

theorem movingAverage_eq (dd : DType) (w : ℤ) (x : Series) (hw : 1 ≤ w) (hl : 0 < x.len)
    (hf : 0 < x.nFeat) :
    movingAverage dd w x = if dd = x.dtype then
      .ok (filterStep (List.replicate w.toNat (1 / (w.toNat : ℝ))) x) else .error .runtimeError := by
  have := pad_conv dd (List.replicate w.toNat (1 / (w.toNat : ℝ))) x
    (by simp [List.replicate_eq_nil_iff]; omega) hl hf
  rw [List.length_replicate] at this
  unfold movingAverage raiseIf
  rw [if_neg (by omega)]
  exact this

/-- `n` applications of a filter. -/
theorem fold_filter (f : Series → Py Series) (c : List ℝ) (P : Series → Prop)
    (hf : ∀ x, P x → f x = .ok (filterStep c x)) (hP : ∀ x, P x → P (filterStep c x)) (n : ℕ)
    (x : Series) (hx : P x) :
    (List.range n).foldlM (fun y _ => f y) x = .ok ((filterStep c)^[n] x) ∧
      P ((filterStep c)^[n] x) := by
  induction n with
  | zero => exact ⟨rfl, hx⟩
  | succ n ih =>
    rw [foldlM_range_succ, ih.1, Function.iterate_succ_apply']
    exact ⟨hf _ ih.2, hP _ ih.2⟩

/-- The kernel of the moving average. -/
def maKernel (w : ℤ) : List ℝ := List.replicate w.toNat (1 / (w.toNat : ℝ))

theorem denoise_ma (dd : DType) (cf : ℕ → ℕ → Py (List ℝ)) (x : Series) (w n : ℤ) (hw : 1 ≤ w)
    (hd : x.dtype = dd) (hl : 0 < x.len) (hf : 0 < x.nFeat) :
    denoise dd cf (.series x) "moving_average" (.window w) n
      = .ok ((filterStep (maKernel w))^[n.toNat] x) := by
  unfold denoise
  simp only [checkSeries, raiseIf, List.mem_cons, true_or, not_true_eq_false, if_false, bind,
    Except.bind]
  refine (fold_filter _ (maKernel w) (fun x => x.dtype = dd ∧ 0 < x.len ∧ 0 < x.nFeat)
    (fun x hx => ?_) (fun x hx => hx) n.toNat x ⟨hd, hl, hf⟩).1
  simp only [applyDenoiser, if_true]
  rw [movingAverage_eq dd w x hw hx.2.1 hx.2.2, if_pos hx.1.symm]
  rfl

theorem iterate_shape (c : List ℝ) (n : ℕ) (x : Series) :
    SameShape x ((filterStep c)^[n] x) := by
  induction n with
  | zero => exact ⟨rfl, rfl, rfl⟩
  | succ n ih => rw [Function.iterate_succ_apply']; exact ih

/-- **C67.** The moving average accepts every non-empty series of the default floating point type,
every positive window and every number of cycles, and returns a series of the same shape and type. -/
theorem C67_shape (dd : DType) (cf : ℕ → ℕ → Py (List ℝ)) (x : Series) (w n : ℤ) (hw : 1 ≤ w)
    (hd : x.dtype = dd) (hl : 0 < x.len) (hf : 0 < x.nFeat) :
    ∃ y, denoise dd cf (.series x) "moving_average" (.window w) n = .ok y ∧ SameShape x y :=
  ⟨_, denoise_ma dd cf x w n hw hd hl hf, iterate_shape _ _ _⟩

theorem extended_nat (n : ℕ) (v : ℕ → ℝ) (a b : ℕ) (hn : 0 < n) :
    extended n v ((a : ℤ) - b) = v (min (a - b) (n - 1)) := by
  unfold extended
  congr 1
  omega

theorem filterStep_val (c : List ℝ) (x : Series) (hl : 0 < x.len) (t j : ℕ) :
    (filterStep c x).val t j = ∑ i ∈ Finset.range c.length,
      c.getD i 0 * extended x.len (fun s => x.val s j) ((t : ℤ) + i - (c.length / 2 : ℕ)) := by
  simp only [filterStep]
  apply Finset.sum_congr rfl
  intro i _
  rw [show ((t : ℤ) + i - (c.length / 2 : ℕ)) = ((t + i : ℕ) : ℤ) - (c.length / 2 : ℕ) by push_cast; ring,
    extended_nat _ _ _ _ hl]

/-- **C67.** One cycle: the value at time `t` is the mean of the `w` values at the times from
`t - w//2` on, the ends of the series being continued. -/
theorem C67_mean (dd : DType) (cf : ℕ → ℕ → Py (List ℝ)) (x : Series) (w : ℕ) (hw : 1 ≤ w)
    (hd : x.dtype = dd) (hl : 0 < x.len) (hf : 0 < x.nFeat) :
    ∃ y, denoise dd cf (.series x) "moving_average" (.window w) 1 = .ok y ∧
      ∀ t < x.len, ∀ j < x.nFeat, y.val t j =
        (∑ i ∈ Finset.range w,
          extended x.len (fun s => x.val s j) ((t : ℤ) - (w / 2 : ℕ) + i)) / w := by
  refine ⟨_, denoise_ma dd cf x w 1 (by omega) hd hl hf, fun t _ j _ => ?_⟩
  rw [show (1 : ℤ).toNat = 1 from rfl, Function.iterate_one, filterStep_val _ _ hl, Finset.sum_div]
  simp only [maKernel, Int.toNat_natCast, List.length_replicate]
  refine Finset.sum_congr rfl fun i hi => ?_
  rw [getD_replicate_lt _ _ _ _ (by simpa using hi),
    show ((t : ℤ) + i - (w / 2 : ℕ)) = (t : ℤ) - (w / 2 : ℕ) + i by ring]
  ring

theorem extended_of_mem (n : ℕ) (v : ℕ → ℝ) (i : ℤ) (h0 : 0 ≤ i) (h1 : i < n) :
    extended n v i = v i.toNat := by
  unfold extended
  congr 1
  omega

theorem extended_mem (n : ℕ) (hn : 0 < n) (v : ℕ → ℝ) (i : ℤ) :
    ∃ s < n, extended n v i = v s :=
  ⟨(min (max i 0) (n - 1)).toNat, by omega, rfl⟩

theorem kernel_sum (w : ℤ) (hw : 1 ≤ w) :
    ∑ i ∈ Finset.range (maKernel w).length, (maKernel w).getD i 0 = 1 := by
  have h : ∀ i ∈ Finset.range (maKernel w).length, (maKernel w).getD i 0 = 1 / (w.toNat : ℝ) := by
    intro i hi
    exact getD_replicate_lt _ _ _ _ (by simpa [maKernel] using hi)
  rw [Finset.sum_congr rfl h, Finset.sum_const, Finset.card_range]
  have : (w.toNat : ℝ) ≠ 0 := by
    have : w.toNat ≠ 0 := by omega
    exact_mod_cast this
  simp only [maKernel, List.length_replicate, nsmul_eq_mul]
  field_simp

theorem step_bounds (c : List ℝ) (hc : ∀ i < c.length, 0 ≤ c.getD i 0)
    (hs : ∑ i ∈ Finset.range c.length, c.getD i 0 = 1) (x : Series) (hl : 0 < x.len) (j : ℕ)
    (lo hi : ℝ) (hx : ∀ t < x.len, lo ≤ x.val t j ∧ x.val t j ≤ hi) (t : ℕ) :
    lo ≤ (filterStep c x).val t j ∧ (filterStep c x).val t j ≤ hi := by
  rw [filterStep_val c x hl]
  have hb : ∀ i, lo ≤ extended x.len (fun s => x.val s j) i ∧
      extended x.len (fun s => x.val s j) i ≤ hi := by
    intro i
    obtain ⟨s, hs, he⟩ := extended_mem x.len hl (fun s => x.val s j) i
    rw [he]
    exact hx s hs
  constructor
  · calc lo = ∑ i ∈ Finset.range c.length, c.getD i 0 * lo := by
          rw [← Finset.sum_mul, hs, one_mul]
      _ ≤ _ := Finset.sum_le_sum fun i hi =>
          mul_le_mul_of_nonneg_left (hb _).1 (hc i (by simpa using hi))
  · calc _ ≤ ∑ i ∈ Finset.range c.length, c.getD i 0 * hi := Finset.sum_le_sum fun i hi' =>
          mul_le_mul_of_nonneg_left (hb _).2 (hc i (by simpa using hi'))
      _ = hi := by rw [← Finset.sum_mul, hs, one_mul]

theorem maKernel_nonneg (w : ℤ) (i : ℕ) (hi : i < (maKernel w).length) :
    0 ≤ (maKernel w).getD i 0 := by
  rw [maKernel, getD_replicate_lt _ _ _ _ (by simpa [maKernel] using hi)]
  positivity

/-- **C67.** For any number of cycles the values of every feature stay in the range of the input of
that feature. -/
theorem C67_bounds (dd : DType) (cf : ℕ → ℕ → Py (List ℝ)) (x : Series) (w n : ℤ) (hw : 1 ≤ w)
    (hd : x.dtype = dd) (hl : 0 < x.len) (hf : 0 < x.nFeat) (y : Series)
    (hy : denoise dd cf (.series x) "moving_average" (.window w) n = .ok y) (j : ℕ) (lo hi : ℝ)
    (hx : ∀ t < x.len, lo ≤ x.val t j ∧ x.val t j ≤ hi) :
    ∀ t < y.len, lo ≤ y.val t j ∧ y.val t j ≤ hi := by
  rw [denoise_ma dd cf x w n hw hd hl hf, Except.ok.injEq] at hy
  subst hy
  generalize n.toNat = m
  induction m with
  | zero => exact hx
  | succ m ih =>
    rw [Function.iterate_succ_apply']
    intro t _
    exact step_bounds _ (maKernel_nonneg w) (kernel_sum w hw) _
      (by rw [(iterate_shape _ _ _).2.1]; exact hl) j lo hi ih t

/-- **C67.** A feature that is constant in time is unchanged, for any number of cycles. -/
theorem C67_constant (dd : DType) (cf : ℕ → ℕ → Py (List ℝ)) (x : Series) (w n : ℤ) (hw : 1 ≤ w)
    (hd : x.dtype = dd) (hl : 0 < x.len) (hf : 0 < x.nFeat) (y : Series)
    (hy : denoise dd cf (.series x) "moving_average" (.window w) n = .ok y) (j : ℕ) (a : ℝ)
    (hx : ∀ t < x.len, x.val t j = a) : ∀ t < y.len, y.val t j = a := fun t ht =>
  have := C67_bounds dd cf x w n hw hd hl hf y hy j a a
    (fun t ht => ⟨(hx t ht).ge, (hx t ht).le⟩) t ht
  le_antisymm this.2 this.1

theorem step_linear (c : List ℝ) (x y z : Series) (hl : 0 < x.len) (hy : y.len = x.len)
    (hz : z.len = x.len) (j j' j'' : ℕ) (a b : ℝ)
    (h : ∀ t < x.len, z.val t j'' = a * x.val t j + b * y.val t j') (t : ℕ) :
    (filterStep c z).val t j'' = a * (filterStep c x).val t j + b * (filterStep c y).val t j' := by
  simp only [filterStep, hy, hz]
  rw [Finset.mul_sum, Finset.mul_sum, ← Finset.sum_add_distrib]
  refine Finset.sum_congr rfl fun i _ => ?_
  rw [h _ (by omega)]
  ring

theorem iterate_linear (c : List ℝ) (n : ℕ) (x y z : Series) (hl : 0 < x.len) (hy : y.len = x.len)
    (hz : z.len = x.len) (j j' j'' : ℕ) (a b : ℝ)
    (h : ∀ t < x.len, z.val t j'' = a * x.val t j + b * y.val t j') :
    ∀ t < x.len, ((filterStep c)^[n] z).val t j''
      = a * ((filterStep c)^[n] x).val t j + b * ((filterStep c)^[n] y).val t j' := by
  induction n with
  | zero => exact h
  | succ n ih =>
    simp only [Function.iterate_succ_apply']
    intro t _
    have e : ∀ u : Series, ((filterStep c)^[n] u).len = u.len := fun u => (iterate_shape c n u).2.1
    exact step_linear c _ _ _ (by rw [e]; exact hl) (by rw [e, e, hy]) (by rw [e, e, hz]) j j' j'' a b
      (by rw [e]; exact ih) t

/-- **C67.** The moving average is linear, for any number of cycles, and every feature is filtered
by itself: if feature `j''` of `z` is the combination `a x + b y` of feature `j` of `x` and feature
`j'` of `y`, so it is afterwards. -/
theorem C67_linear (dd : DType) (cf : ℕ → ℕ → Py (List ℝ)) (x y z : Series) (w n : ℤ) (hw : 1 ≤ w)
    (hd : x.dtype = dd) (hyd : y.dtype = dd) (hzd : z.dtype = dd) (hl : 0 < x.len)
    (hy : y.len = x.len) (hz : z.len = x.len) (hf : 0 < x.nFeat) (hyf : 0 < y.nFeat)
    (hzf : 0 < z.nFeat) (j j' j'' : ℕ) (a b : ℝ)
    (h : ∀ t < x.len, z.val t j'' = a * x.val t j + b * y.val t j') (x' y' z' : Series)
    (hx' : denoise dd cf (.series x) "moving_average" (.window w) n = .ok x')
    (hy' : denoise dd cf (.series y) "moving_average" (.window w) n = .ok y')
    (hz' : denoise dd cf (.series z) "moving_average" (.window w) n = .ok z') :
    ∀ t < x.len, z'.val t j'' = a * x'.val t j + b * y'.val t j' := by
  rw [denoise_ma dd cf _ w n hw hd hl hf, Except.ok.injEq] at hx'
  rw [denoise_ma dd cf _ w n hw hyd (by omega) hyf, Except.ok.injEq] at hy'
  rw [denoise_ma dd cf _ w n hw hzd (by omega) hzf, Except.ok.injEq] at hz'
  subst hx' hy' hz'
  exact iterate_linear _ _ x y z hl hy hz j j' j'' a b h

/-- A series with two features, a window of four. -/
example : ∃ (x : Series) (w : ℤ), 1 ≤ w ∧ x.dtype = .float32 ∧ 0 < x.len ∧ 0 < x.nFeat ∧
    x.val 0 0 ≠ x.val 1 0 := ⟨⟨.float32, 5, 2, fun t _ => t⟩, 4, by norm_num, rfl, by norm_num,
      by norm_num, by norm_num⟩

/-- **C67.** With a window that is not positive, a series without entries, or an argument that is
not a tensor with two dimensions, one cycle or more raises. -/
theorem C67_raises (dd : DType) (cf : ℕ → ℕ → Py (List ℝ)) (inp : DnInput) (w n : ℤ) (hn : 1 ≤ n)
    (h : w ≤ 0 ∨ ∀ x, inp = .series x → x.len = 0 ∨ x.nFeat = 0) :
    denoise dd cf inp "moving_average" (.window w) n = .error .runtimeError := by
  obtain ⟨m, hm⟩ : ∃ m, n.toNat = m + 1 := ⟨n.toNat - 1, by omega⟩
  unfold denoise
  cases inp with
  | otherShape => rfl
  | notTensor => rfl
  | series x =>
    simp only [checkSeries, raiseIf, List.mem_cons, true_or, not_true_eq_false, if_false, bind,
      Except.bind, hm]
    rw [List.range_succ_eq_map, List.foldlM_cons]
    have : applyDenoiser dd cf "moving_average" (.window w) x = .error .runtimeError := by
      simp only [applyDenoiser, if_true, movingAverage, raiseIf]
      by_cases hw : w ≤ 0
      · simp [hw, bind, Except.bind]
      · have := (h.resolve_left hw) x rfl
        simp [hw, replicatePad, this, bind, Except.bind]
    rw [this]
    rfl

/-- **C67, violated.** A series whose type is not the default floating point type is rejected,
whatever its values, although its average is defined. -/
theorem C67_type_violated (dd : DType) (cf : ℕ → ℕ → Py (List ℝ)) (x : Series) (w n : ℤ)
    (hw : 1 ≤ w) (hn : 1 ≤ n) (hd : x.dtype ≠ dd) (hl : 0 < x.len) (hf : 0 < x.nFeat) :
    denoise dd cf (.series x) "moving_average" (.window w) n = .error .runtimeError := by
  obtain ⟨m, hm⟩ : ∃ m, n.toNat = m + 1 := ⟨n.toNat - 1, by omega⟩
  unfold denoise
  simp only [checkSeries, raiseIf, List.mem_cons, true_or, not_true_eq_false, if_false, bind,
    Except.bind, hm]
  rw [List.range_succ_eq_map, List.foldlM_cons]
  have : applyDenoiser dd cf "moving_average" (.window w) x = .error .runtimeError := by
    simp only [applyDenoiser, if_true]
    rw [movingAverage_eq dd w x hw hl hf, if_neg fun e => hd e.symm]
  rw [this]
  rfl

/-- **C67.** No cycle returns the series itself; an unknown method raises even then. -/
theorem C67_no_cycle (dd : DType) (cf : ℕ → ℕ → Py (List ℝ)) (x : Series) (method : String)
    (ps : DnParams) (n : ℤ) (hn : n ≤ 0) :
    denoise dd cf (.series x) method ps n
      = if method ∈ ["moving_average", "savitzky_golay", "frequency_low_pass"] then .ok x
        else .error .runtimeError := by
  have : n.toNat = 0 := by omega
  unfold denoise
  simp only [checkSeries, raiseIf, this, bind, Except.bind]
  split <;> rename_i h1 <;> split at h1 <;> rename_i h2
  · cases h1; rw [if_neg h2]
  · cases h1
  · cases h1
  · rw [if_pos (not_not.1 h2)]; rfl

/-- **C67.** An even window is not centred: away from the ends, a series that grows by a constant
amount per step is delayed by half a step, and with an odd window it is unchanged. -/
theorem C67_ramp (dd : DType) (cf : ℕ → ℕ → Py (List ℝ)) (x : Series) (w : ℕ) (hw : 1 ≤ w)
    (hd : x.dtype = dd) (hl : 0 < x.len) (hf : 0 < x.nFeat) (j : ℕ) (hj : j < x.nFeat) (a b : ℝ)
    (hx : ∀ t < x.len, x.val t j = a * t + b) (y : Series)
    (hy : denoise dd cf (.series x) "moving_average" (.window w) 1 = .ok y) (t : ℕ)
    (ht : w / 2 ≤ t) (ht' : t + (w - 1 - w / 2) < x.len) :
    y.val t j = if w % 2 = 0 then a * ((t : ℝ) - 1 / 2) + b else a * t + b := by
  obtain ⟨y', hy', h⟩ := C67_mean dd cf x w hw hd hl hf
  rw [hy, Except.ok.injEq] at hy'
  subst hy'
  rw [h t (by omega) j hj]
  have e : ∀ i ∈ Finset.range w,
      extended x.len (fun s => x.val s j) ((t : ℤ) - (w / 2 : ℕ) + i)
        = (a * ((t : ℝ) - (w / 2 : ℕ)) + b) + a * i := by
    intro i hi
    rw [Finset.mem_range] at hi
    rw [extended_of_mem _ _ _ (by omega) (by omega), hx _ (by omega)]
    have : (((t : ℤ) - (w / 2 : ℕ) + i).toNat : ℝ) = (t : ℝ) - (w / 2 : ℕ) + i := by
      have : (((t : ℤ) - (w / 2 : ℕ) + i).toNat : ℤ) = (t : ℤ) - (w / 2 : ℕ) + i := by omega
      exact_mod_cast congrArg (fun z : ℤ => (z : ℝ)) this
    rw [this]
    ring
  have hw0 : (w : ℝ) ≠ 0 := by
    have : w ≠ 0 := by omega
    exact_mod_cast this
  have hg : ∑ i ∈ Finset.range w, (i : ℝ) = w * (w - 1) / 2 := by
    clear * -
    induction w with
    | zero => simp
    | succ n ih => rw [Finset.sum_range_succ, ih]; push_cast; ring
  rw [Finset.sum_congr rfl e, Finset.sum_add_distrib, ← Finset.mul_sum, hg, Finset.sum_const,
    Finset.card_range, nsmul_eq_mul]
  rcases Nat.even_or_odd' w with ⟨m, rfl | rfl⟩
  · rw [if_pos (by omega), show 2 * m / 2 = m by omega]
    push_cast at hw0 ⊢
    rw [div_eq_iff hw0]
    ring
  · rw [if_neg (by omega), show (2 * m + 1) / 2 = m by omega]
    push_cast at hw0 ⊢
    rw [div_eq_iff hw0]
    ring

/-! ### Savitzky-Golay filter -/

/-- Interpolation conditions make the filter exact on polynomials. -/
theorem savgol_poly (w p : ℕ) (c : List ℝ) (hc : IsSavgol w p c) (P : Polynomial ℝ)
    (hP : P.natDegree ≤ p) (u : ℝ) :
    ∑ i ∈ Finset.range w, c.getD i 0 * P.eval (u - (((w : ℝ) - 1) / 2 - i)) = P.eval u := by
  have h1 : ∀ y : ℝ, P.eval (u - y)
      = ∑ k ∈ Finset.range (p + 1), (Polynomial.taylor u P).coeff k * (-1) ^ k * y ^ k := by
    intro y
    have : P.eval (u - y) = (Polynomial.taylor u P).eval (-y) := by
      rw [Polynomial.taylor_eval]; congr 1; ring
    rw [this, Polynomial.eval_eq_sum_range' (n := p + 1)
      (by rw [Polynomial.natDegree_taylor]; omega)]
    refine Finset.sum_congr rfl fun k _ => ?_
    rw [neg_pow]; ring
  simp only [h1, Finset.mul_sum]
  rw [Finset.sum_comm]
  have h2 : ∀ k ∈ Finset.range (p + 1), ∑ i ∈ Finset.range w, c.getD i 0 *
      ((Polynomial.taylor u P).coeff k * (-1) ^ k * (((w : ℝ) - 1) / 2 - i) ^ k)
      = if k = 0 then P.eval u else 0 := by
    intro k hk
    have e : ∀ i, c.getD i 0 * ((Polynomial.taylor u P).coeff k * (-1) ^ k
        * (((w : ℝ) - 1) / 2 - i) ^ k) = (Polynomial.taylor u P).coeff k * (-1) ^ k
          * (c.getD i 0 * (((w : ℝ) - 1) / 2 - i) ^ k) := fun i => by ring
    simp only [e]
    rw [← Finset.mul_sum, hc.2 k (by simpa [Nat.lt_succ_iff] using hk)]
    split
    · next h => subst h; simp [Polynomial.taylor_coeff_zero]
    · simp
  rw [Finset.sum_congr rfl h2, Finset.sum_ite_eq' ]
  simp

theorem denoise_sg (dd : DType) (cf : ℕ → ℕ → Py (List ℝ)) (x : Series) (w p : ℕ) (n : ℤ)
    (hw : 1 ≤ w) (c : List ℝ) (hcf : cf w p = .ok c) (hc : c.length = w)
    (hd : x.dtype = .float64) (hl : 0 < x.len) (hf : 0 < x.nFeat) :
    denoise dd cf (.series x) "savitzky_golay" (.windowOrder w p) n
      = .ok ((filterStep c)^[n.toNat] x) := by
  unfold denoise
  simp only [checkSeries, raiseIf, List.mem_cons, true_or, or_true, not_true_eq_false, if_false, bind,
    Except.bind]
  refine (fold_filter _ c (fun x => x.dtype = .float64 ∧ 0 < x.len ∧ 0 < x.nFeat)
    (fun x hx => ?_) (fun x hx => hx) n.toNat x ⟨hd, hl, hf⟩).1
  simp only [applyDenoiser, if_true, savitzkyGolay]
  have := pad_conv .float64 c x (by rw [← List.length_pos_iff]; omega) hx.2.1 hx.2.2
  rw [hc, if_pos hx.1.symm] at this
  rw [← this, hcf]
  rfl

/-- **C74.** With coefficients that satisfy the interpolation conditions, the Savitzky-Golay filter
returns a series of the same shape and, for an odd window, leaves every feature that is a polynomial
of degree at most `poly_order` unchanged at all times whose window lies within the series.  With an
even window such a feature is delayed by half a step. -/
theorem C74_polynomial (dd : DType) (cf : ℕ → ℕ → Py (List ℝ)) (x : Series) (w p : ℕ) (hw : 1 ≤ w)
    (c : List ℝ) (hcf : cf w p = .ok c) (hc : IsSavgol w p c) (hd : x.dtype = .float64)
    (hl : 0 < x.len) (hf : 0 < x.nFeat) :
    ∃ y, denoise dd cf (.series x) "savitzky_golay" (.windowOrder w p) 1 = .ok y ∧
      SameShape x y ∧
      ∀ j (P : Polynomial ℝ), P.natDegree ≤ p → (∀ t < x.len, x.val t j = P.eval (t : ℝ)) →
        ∀ t, w / 2 ≤ t → t + (w - 1 - w / 2) < x.len →
          y.val t j = P.eval (if w % 2 = 0 then (t : ℝ) - 1 / 2 else t) := by
  refine ⟨_, denoise_sg dd cf x w p 1 hw c hcf hc.1 hd hl hf, iterate_shape _ _ _, ?_⟩
  intro j P hP hx t ht ht'
  rw [show (1 : ℤ).toNat = 1 from rfl, Function.iterate_one, filterStep_val _ _ hl, hc.1]
  rw [← savgol_poly w p c hc P hP]
  refine Finset.sum_congr rfl fun i hi => ?_
  rw [Finset.mem_range] at hi
  rw [extended_of_mem _ _ _ (by omega) (by omega), hx _ (by omega)]
  congr 2
  have : (((t : ℤ) + i - (w / 2 : ℕ)).toNat : ℝ) = (t : ℝ) + i - (w / 2 : ℕ) := by
    have : (((t : ℤ) + i - (w / 2 : ℕ)).toNat : ℤ) = (t : ℤ) + i - (w / 2 : ℕ) := by omega
    exact_mod_cast congrArg (fun z : ℤ => (z : ℝ)) this
  rw [this]
  rcases Nat.even_or_odd' w with ⟨m, rfl | rfl⟩
  · rw [if_pos (by omega), show 2 * m / 2 = m by omega]
    push_cast
    ring
  · rw [if_neg (by omega), show (2 * m + 1) / 2 = m by omega]
    push_cast
    ring

/-- Coefficients of window 3 and order 1. -/
example : IsSavgol 3 1 [1 / 3, 1 / 3, 1 / 3] := by
  refine ⟨rfl, fun k hk => ?_⟩
  have : k = 0 ∨ k = 1 := by omega
  rcases this with rfl | rfl <;> norm_num [Finset.sum_range_succ]

/-- Coefficients of window 5 and order 2. -/
example : IsSavgol 5 2 [-3 / 35, 12 / 35, 17 / 35, 12 / 35, -3 / 35] := by
  refine ⟨rfl, fun k hk => ?_⟩
  have : k = 0 ∨ k = 1 ∨ k = 2 := by omega
  rcases this with rfl | rfl | rfl <;> norm_num [Finset.sum_range_succ]

/-- **C74.** Constant features are unchanged everywhere, for any number of cycles. -/
theorem C74_constant (dd : DType) (cf : ℕ → ℕ → Py (List ℝ)) (x : Series) (w p : ℕ) (n : ℤ)
    (hw : 1 ≤ w) (c : List ℝ) (hcf : cf w p = .ok c) (hc : IsSavgol w p c)
    (hd : x.dtype = .float64) (hl : 0 < x.len) (hf : 0 < x.nFeat) (y : Series)
    (hy : denoise dd cf (.series x) "savitzky_golay" (.windowOrder w p) n = .ok y) (j : ℕ) (a : ℝ)
    (hx : ∀ t < x.len, x.val t j = a) : ∀ t < y.len, y.val t j = a := by
  rw [denoise_sg dd cf x w p n hw c hcf hc.1 hd hl hf, Except.ok.injEq] at hy
  subst hy
  have hs : ∑ i ∈ Finset.range c.length, c.getD i 0 = 1 := by
    have := hc.2 0 (by omega)
    rw [hc.1]
    simpa using this
  generalize n.toNat = m
  induction m with
  | zero => exact hx
  | succ m ih =>
    rw [Function.iterate_succ_apply']
    intro t _
    have hl' : 0 < ((filterStep c)^[m] x).len := by rw [(iterate_shape _ _ _).2.1]; exact hl
    rw [filterStep_val _ _ hl']
    have : ∀ i, extended ((filterStep c)^[m] x).len (fun s => ((filterStep c)^[m] x).val s j) i
        = a := by
      intro i
      obtain ⟨s, hs, he⟩ := extended_mem _ hl' (fun s => ((filterStep c)^[m] x).val s j) i
      rw [he]
      exact ih s hs
    simp only [this]
    rw [← Finset.sum_mul, hs, one_mul]

/-- **C74.** The filter is linear and acts on every feature by itself, for any number of cycles. -/
theorem C74_linear (dd : DType) (cf : ℕ → ℕ → Py (List ℝ)) (x y z : Series) (w p : ℕ) (n : ℤ)
    (hw : 1 ≤ w) (c : List ℝ) (hcf : cf w p = .ok c) (hc : c.length = w)
    (hd : x.dtype = .float64) (hyd : y.dtype = .float64) (hzd : z.dtype = .float64) (hl : 0 < x.len)
    (hy : y.len = x.len) (hz : z.len = x.len) (hf : 0 < x.nFeat) (hyf : 0 < y.nFeat)
    (hzf : 0 < z.nFeat) (j j' j'' : ℕ) (a b : ℝ)
    (h : ∀ t < x.len, z.val t j'' = a * x.val t j + b * y.val t j') (x' y' z' : Series)
    (hx' : denoise dd cf (.series x) "savitzky_golay" (.windowOrder w p) n = .ok x')
    (hy' : denoise dd cf (.series y) "savitzky_golay" (.windowOrder w p) n = .ok y')
    (hz' : denoise dd cf (.series z) "savitzky_golay" (.windowOrder w p) n = .ok z') :
    ∀ t < x.len, z'.val t j'' = a * x'.val t j + b * y'.val t j' := by
  rw [denoise_sg dd cf _ w p n hw c hcf hc hd hl hf, Except.ok.injEq] at hx'
  rw [denoise_sg dd cf _ w p n hw c hcf hc hyd (by omega) hyf, Except.ok.injEq] at hy'
  rw [denoise_sg dd cf _ w p n hw c hcf hc hzd (by omega) hzf, Except.ok.injEq] at hz'
  subst hx' hy' hz'
  exact iterate_linear _ _ x y z hl hy hz j j' j'' a b h

/-- **C74, violated.** The filter rejects every single precision series, whatever its values, window
and order, although single precision is the default floating point type: the coefficients are double
precision. -/
theorem C74_single_precision_violated (cf : ℕ → ℕ → Py (List ℝ)) (x : Series) (w p : ℕ) (n : ℤ)
    (hn : 1 ≤ n) (hd : x.dtype = .float32) (hl : 0 < x.len) (hf : 0 < x.nFeat) :
    ∃ e, denoise .float32 cf (.series x) "savitzky_golay" (.windowOrder w p) n = .error e := by
  obtain ⟨m, hm⟩ : ∃ m, n.toNat = m + 1 := ⟨n.toNat - 1, by omega⟩
  unfold denoise
  simp only [checkSeries, raiseIf, List.mem_cons, true_or, or_true, not_true_eq_false, if_false, bind,
    Except.bind, hm]
  rw [List.range_succ_eq_map, List.foldlM_cons]
  have : ∃ e, applyDenoiser .float32 cf "savitzky_golay" (.windowOrder w p) x = .error e := by
    simp only [applyDenoiser, if_true, savitzkyGolay, replicatePad]
    rw [if_neg (by omega)]
    simp only [bind, Except.bind]
    cases cf w p with
    | error e => exact ⟨e, rfl⟩
    | ok c =>
      refine ⟨.runtimeError, ?_⟩
      simp only [conv1d, hd]
      rw [if_pos (Or.inr (Or.inl (by decide)))]
  obtain ⟨e, he⟩ := this
  exact ⟨e, by rw [he]; rfl⟩

end

end Hooke
