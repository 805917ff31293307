import Verif.Model.Loss
import Verif.Lemmas.Scalers
import Mathlib.Analysis.Calculus.Deriv.Add
import Mathlib.Analysis.Calculus.Deriv.Mul
import Mathlib.Analysis.Calculus.Deriv.Abs

/-! # C41, C72: mean relative error loss -/

namespace Hooke

noncomputable section

/-- Denominator of the relative error. -/
def relDenom (mode : ZeroHandling) (small t : ℝ) : ℝ :=
  match mode with
  | .absolute => if |t| < small then 1 else |t|
  | .clip => max |t| small
  | .regularizer => |t| + small

theorem relDenom_pos {mode : ZeroHandling} {small : ℝ} (hs : 0 < small) (t : ℝ) :
    0 < relDenom mode small t := by
  cases mode with
  | clip => exact lt_of_lt_of_le hs (le_max_right _ _)
  | absolute =>
    unfold relDenom
    dsimp only
    split_ifs with h
    · exact one_pos
    · linarith [not_lt.mp h]
  | regularizer => unfold relDenom; positivity

theorem relError_eq {mode : ZeroHandling} {small : ℝ} (hs : 0 < small) (x t : ℝ) :
    relError mode small x t = Fl.fin (|x - t| / relDenom mode small t) := by
  have h := relDenom_pos (mode := mode) hs t
  cases mode with
  | clip => exact Fl.div_fin h.ne'
  | absolute =>
    unfold relError
    unfold relDenom at h ⊢
    dsimp only at h ⊢
    split_ifs with h1
    · simp
    · rw [if_neg h1] at h; exact Fl.div_fin h.ne'
  | regularizer => exact Fl.div_fin h.ne'

/-- The loss as a real number. -/
def mreReal (mode : ZeroHandling) (small : ℝ) (xs : List (ℝ × ℝ)) : ℝ :=
  (xs.map fun p => |p.1 - p.2| / relDenom mode small p.2).sum / xs.length

theorem mreForward_eq {mode : ZeroHandling} {small : ℝ} (hs : 0 < small) {xs : List (ℝ × ℝ)}
    (h : xs ≠ []) : mreForward mode small xs = Fl.fin (mreReal mode small xs) := by
  have : (xs.map fun p => relError mode small p.1 p.2) =
      (xs.map fun p => |p.1 - p.2| / relDenom mode small p.2).map Fl.fin := by
    rw [List.map_map]; exact List.map_congr_left fun p _ => relError_eq hs _ _
  rw [mreForward, this, Fl.mean_fin (by simpa using h), List.length_map, mreReal]

/-- C41a: in every mode the loss of nonempty tensors is a finite nonnegative number. -/
theorem C41_nonneg {mode : ZeroHandling} {small : ℝ} (hs : 0 < small) {xs : List (ℝ × ℝ)}
    (h : xs ≠ []) : ∃ L, mreForward mode small xs = Fl.fin L ∧ 0 ≤ L := by
  refine ⟨_, mreForward_eq hs h, div_nonneg (List.sum_nonneg ?_) (Nat.cast_nonneg _)⟩
  intro y hy
  obtain ⟨p, -, rfl⟩ := List.mem_map.mp hy
  exact div_nonneg (abs_nonneg _) (relDenom_pos hs _).le

/-- C41b: the loss vanishes exactly when every prediction equals its target. -/
theorem C41_zero_iff {mode : ZeroHandling} {small : ℝ} (hs : 0 < small) {xs : List (ℝ × ℝ)}
    (h : xs ≠ []) : mreForward mode small xs = Fl.fin 0 ↔ ∀ p ∈ xs, p.1 = p.2 := by
  have hl : (xs.length : ℝ) ≠ 0 := by simpa using h
  rw [mreForward_eq hs h, Fl.fin.injEq, mreReal, div_eq_zero_iff, or_iff_left hl]
  constructor
  · intro h1 p hp
    have := List.all_zero_of_le_zero_le_of_sum_eq_zero (l := xs.map fun p =>
      |p.1 - p.2| / relDenom mode small p.2) (by
        intro y hy
        obtain ⟨p, -, rfl⟩ := List.mem_map.mp hy
        exact div_nonneg (abs_nonneg _) (relDenom_pos hs _).le) h1
      (List.mem_map.mpr ⟨p, hp, rfl⟩)
    rw [div_eq_zero_iff, or_iff_left (relDenom_pos hs _).ne', abs_eq_zero] at this
    linarith
  · intro h1
    refine List.sum_eq_zero fun y hy => ?_
    obtain ⟨p, hp, rfl⟩ := List.mem_map.mp hy
    rw [h1 p hp]; simp

/-- C41c: the regularised loss never exceeds the clipped loss, and is at least half of it. -/
theorem C41_regularizer_le_clip {small : ℝ} (hs : 0 < small) {xs : List (ℝ × ℝ)} (h : xs ≠ []) :
    ∃ R C, mreForward .regularizer small xs = Fl.fin R ∧ mreForward .clip small xs = Fl.fin C ∧
      R ≤ C ∧ C ≤ 2 * R := by
  refine ⟨_, _, mreForward_eq hs h, mreForward_eq hs h, ?_, ?_⟩
  · refine div_le_div_of_nonneg_right (List.sum_le_sum fun p _ => ?_) (Nat.cast_nonneg _)
    refine div_le_div_of_nonneg_left (abs_nonneg _) (relDenom_pos (mode := .clip) hs p.2) ?_
    exact max_le (by simp [relDenom]; linarith) (by simp [relDenom])
  · unfold mreReal
    rw [← mul_div_assoc, ← List.sum_map_mul_left]
    refine div_le_div_of_nonneg_right (List.sum_le_sum fun p _ => ?_) (Nat.cast_nonneg _)
    have h1 := relDenom_pos (mode := .clip) hs p.2
    have h2 := relDenom_pos (mode := .regularizer) hs p.2
    have h3 : relDenom .regularizer small p.2 ≤ 2 * relDenom .clip small p.2 := by
      simp only [relDenom]
      linarith [le_max_left |p.2| small, le_max_right |p.2| small]
    rw [← mul_div_assoc, div_le_div_iff₀ h1 h2]
    nlinarith [abs_nonneg (p.1 - p.2)]

/-- C41d: where every target is at least `small` the absolute and clip modes agree. -/
theorem C41_absolute_eq_clip {small : ℝ} (hs : 0 < small) {xs : List (ℝ × ℝ)} (h : xs ≠ [])
    (ht : ∀ p ∈ xs, small ≤ |p.2|) :
    mreForward .absolute small xs = mreForward .clip small xs := by
  rw [mreForward_eq hs h, mreForward_eq hs h, mreReal, mreReal]
  congr 3
  refine List.map_congr_left fun p hp => ?_
  have := ht p hp
  simp [relDenom, not_lt.mpr this, max_eq_left this]

/-- C41e: unknown strategies and unknown loss types raise RuntimeError; the known ones do not. -/
theorem C41_unknown (s : String) :
    (mreInit s = .error .runtimeError ↔ s ≠ "clip" ∧ s ≠ "absolute" ∧ s ≠ "regularizer") ∧
    (getPytorchLoss s = .error .runtimeError ↔ s ≠ "mse" ∧ s ≠ "mre") := by
  constructor
  · unfold mreInit; split_ifs <;> simp_all
  · unfold getPytorchLoss; split_ifs <;> simp_all

/-- C41f: the names select the strategies and the losses of the documentation. -/
theorem C41_names : mreInit "clip" = .ok .clip ∧ mreInit "absolute" = .ok .absolute ∧
    mreInit "regularizer" = .ok .regularizer ∧ getPytorchLoss "mse" = .ok true ∧
    getPytorchLoss "mre" = .ok false := by
  simp [mreInit, getPytorchLoss]

/-! ## C72: gradient of the loss -/

/-- C72a: for a nonzero target (any target in the clip and regularizer modes) and a prediction
different from it, the gradient propagated to the prediction is finite and is the derivative of
the loss with respect to that entry. -/
theorem C72_gradient {mode : ZeroHandling} {small : ℝ} (hs : 0 < small) (before after : List (ℝ × ℝ))
    {x t : ℝ} (hx : x ≠ t) (ht : mode = .absolute → t ≠ 0) :
    ∃ g, mreBackward mode small (before.length + 1 + after.length) x t = Fl.fin g ∧
      HasDerivAt (fun y => mreReal mode small (before ++ (y, t) :: after)) g x := by
  set N := before.length + 1 + after.length with hN
  have hN0 : (N : ℝ) ≠ 0 := by
    have : N ≠ 0 := by omega
    exact_mod_cast this
  have hD := relDenom_pos (mode := mode) hs t
  refine ⟨(1 / N) / relDenom mode small t * (SignType.sign (x - t) : ℝ), ?_, ?_⟩
  · cases mode with
    | clip =>
      change (Fl.div _ _).mul _ = _
      rw [Fl.div_fin hN0, Fl.div_fin (x := 1 / (N : ℝ)) (y := max |t| small) hD.ne', Fl.mul_fin]; rfl
    | regularizer =>
      change (Fl.div _ _).mul _ = _
      rw [Fl.div_fin hN0, Fl.div_fin (x := 1 / (N : ℝ)) (y := |t| + small) hD.ne', Fl.mul_fin]; rfl
    | absolute =>
      have ht' : |t| ≠ 0 := abs_ne_zero.mpr (ht rfl)
      simp only [mreBackward, relDenom, Fl.div_fin hN0]
      split_ifs with h
      · rw [Fl.div_fin ht', Fl.add_fin, Fl.mul_fin]; congr 1; simp
      · rw [Fl.div_fin ht', Fl.add_fin, Fl.mul_fin]; congr 1; simp
  · have habs : HasDerivAt (fun y : ℝ => |y - t|) (SignType.sign (x - t) : ℝ) x := by
      have h1 := hasDerivAt_abs (sub_ne_zero.mpr hx)
      have h2 : HasDerivAt (fun y : ℝ => y - t) 1 x := (hasDerivAt_id x).sub_const t
      have := h1.comp x h2
      rw [mul_one] at this
      exact this
    have hfun : (fun y => mreReal mode small (before ++ (y, t) :: after)) = fun y =>
        ((before.map fun p => |p.1 - p.2| / relDenom mode small p.2).sum +
          (|y - t| / relDenom mode small t +
            (after.map fun p => |p.1 - p.2| / relDenom mode small p.2).sum)) / N := by
      funext y
      simp only [mreReal, List.map_append, List.map_cons, List.sum_append, List.sum_cons,
        List.length_append, List.length_cons]
      congr 1
      rw [hN]; push_cast; ring
    rw [hfun]
    have h1 := (((habs.div_const (relDenom mode small t)).add_const
      (after.map fun p => |p.1 - p.2| / relDenom mode small p.2).sum).const_add
      (before.map fun p => |p.1 - p.2| / relDenom mode small p.2).sum).div_const (N : ℝ)
    have he : 1 / (N : ℝ) / relDenom mode small t * (SignType.sign (x - t) : ℝ) =
        (SignType.sign (x - t) : ℝ) / relDenom mode small t / N := by ring
    rw [he]
    exact h1

/-- C72b: in the default mode the gradient at every entry whose target is zero is NaN, whatever the
prediction and the number of entries, although the loss itself is finite: the branch which is not
selected by `torch.where` divides by zero. -/
theorem C72_gradient_zero_target_violated {small : ℝ} (hs : 0 < small) {n : ℕ} (hn : 0 < n) (x : ℝ) :
    mreBackward .absolute small n x 0 = Fl.nan := by
  have hn' : (n : ℝ) ≠ 0 := by exact_mod_cast hn.ne'
  simp only [mreBackward, abs_zero, hs, if_true, Fl.div_fin hn']
  simp [Fl.div, Fl.add, Fl.mul]

/-- C72c: in the clip and regularizer modes no gradient is ever NaN or infinite. -/
theorem C72_gradient_finite {mode : ZeroHandling} {small : ℝ} (hs : 0 < small) {n : ℕ} (hn : 0 < n)
    (hm : mode ≠ .absolute) (x t : ℝ) : ∃ g, mreBackward mode small n x t = Fl.fin g := by
  have hn' : (n : ℝ) ≠ 0 := by exact_mod_cast hn.ne'
  have hD := relDenom_pos (mode := mode) hs t
  cases mode with
  | clip =>
    refine ⟨1 / n / max |t| small * (SignType.sign (x - t) : ℝ), ?_⟩
    change (Fl.div _ _).mul _ = _
    rw [Fl.div_fin hn', Fl.div_fin (x := 1 / (n : ℝ)) (y := max |t| small) hD.ne', Fl.mul_fin]
  | regularizer =>
    refine ⟨1 / n / (|t| + small) * (SignType.sign (x - t) : ℝ), ?_⟩
    change (Fl.div _ _).mul _ = _
    rw [Fl.div_fin hn', Fl.div_fin (x := 1 / (n : ℝ)) (y := |t| + small) hD.ne', Fl.mul_fin]
  | absolute => exact absurd rfl hm

/-- two entries, one with a zero target -/
example : ∃ L, mreForward .absolute 1e-5 [(1, 2), (3, 0)] = Fl.fin L ∧ 0 ≤ L :=
  C41_nonneg (by norm_num) (by simp)
example : mreForward .absolute 1e-5 [(1, 2), (3, 0)] = Fl.fin (7 / 4) := by
  rw [mreForward_eq (by norm_num) (by simp)]
  norm_num [mreReal, relDenom]

end

end Hooke
