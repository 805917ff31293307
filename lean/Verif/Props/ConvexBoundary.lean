import Verif.Model.ConvexBoundary
import Verif.Spec.ConvexBoundary
import Verif.Props.YieldConvexity
import Mathlib.Algebra.Order.Archimedean.Basic

/-!
# C162: the convexity boundary of the Lou-Zhang-Yoon yield parameters
-/

noncomputable section

namespace Hooke

open Spec

theorem bisect_window (convex : ℝ → Bool) (tol δ : ℝ) (h1 : 0 < δ) (h2 : δ ≤ tol) (h3 : tol < 2 * δ) :
    ∀ (m fuel : ℕ) (lo hi : ℝ) (last : Option ℝ), m + 1 ≤ fuel → hi - lo = 2 ^ m * δ →
    (m = 0 → bisectRadius convex tol fuel lo hi last = some last) ∧
    (m ≠ 0 → ∃ r, bisectRadius convex tol fuel lo hi last = some (some r) ∧
      lo ≤ r - δ ∧ r + δ ≤ hi ∧ (r - δ = lo ∨ convex (r - δ) = true) ∧
      (r + δ = hi ∨ convex (r + δ) = false)) := by
  intro m
  induction m with
  | zero =>
    intro fuel lo hi last hf hw
    refine ⟨fun _ => ?_, fun h => absurd rfl h⟩
    obtain ⟨n, rfl⟩ : ∃ n, fuel = n + 1 := ⟨fuel - 1, by omega⟩
    rw [bisectRadius, if_neg]
    rw [hw]
    simpa using h2
  | succ m ih =>
    intro fuel lo hi last hf hw
    refine ⟨fun h => by omega, fun _ => ?_⟩
    obtain ⟨n, rfl⟩ : ∃ n, fuel = n + 1 := ⟨fuel - 1, by omega⟩
    have h2m : (1 : ℝ) ≤ 2 ^ m := one_le_pow₀ (by norm_num)
    have hgt : hi - lo > tol := by
      rw [hw, pow_succ]
      nlinarith
    have hmean : (hi + lo) / 2 = lo + 2 ^ m * δ := by
      rw [pow_succ] at hw; linarith
    have hbig : δ ≤ 2 ^ m * δ := by nlinarith
    rw [bisectRadius, if_pos hgt]
    by_cases hc : convex ((hi + lo) / 2) = true
    · simp only [hc, if_true]
      have hw' : hi - (hi + lo) / 2 = 2 ^ m * δ := by
        rw [pow_succ] at hw; linarith
      obtain ⟨e0, e1⟩ := ih n ((hi + lo) / 2) hi (some ((hi + lo) / 2)) (by omega) hw'
      by_cases hm : m = 0
      · subst hm
        simp only [pow_zero, one_mul] at hw' hmean
        exact ⟨(hi + lo) / 2, e0 rfl, by linarith, by linarith, .inl (by linarith), .inl (by linarith)⟩
      · obtain ⟨r, hr, ha, hb, hl, hh⟩ := e1 hm
        refine ⟨r, hr, by linarith, hb, ?_, hh⟩
        right
        rcases hl with hl | hl
        · rw [hl]; exact hc
        · exact hl
    · have hc' : convex ((hi + lo) / 2) = false := by simpa using hc
      simp only [hc', Bool.false_eq_true, if_false]
      have hw' : (hi + lo) / 2 - lo = 2 ^ m * δ := by rw [hmean]; ring
      obtain ⟨e0, e1⟩ := ih n lo ((hi + lo) / 2) (some ((hi + lo) / 2)) (by omega) hw'
      by_cases hm : m = 0
      · subst hm
        simp only [pow_zero, one_mul] at hw' hmean
        exact ⟨(hi + lo) / 2, e0 rfl, by linarith, by linarith, .inl (by linarith), .inl (by linarith)⟩
      · obtain ⟨r, hr, ha, hb, hl, hh⟩ := e1 hm
        refine ⟨r, hr, ha, by linarith, hl, ?_⟩
        right
        rcases hh with hh | hh
        · rw [hh]; exact hc'
        · exact hh

/-- **C162 (search).** For every test, direction, window and positive tolerance smaller than the window, the
search ends: the number `m` of halvings is the one that brings the window below the tolerance, and the point
returned is inside the window on the ray, within `(hi - lo) / 2^m`, which is at most the tolerance, of a change
of the test. -/
theorem C162_search (convex : ℝ → ℝ → Bool) (lo hi tol θ : ℝ) (ht : 0 < tol) (hw : tol < hi - lo) :
    ∃ m : ℕ, (hi - lo) / 2 ^ m ≤ tol ∧ tol < (hi - lo) / 2 ^ (m - 1) ∧
      ∀ fuel, m + 1 ≤ fuel → ∃ r, lo < r ∧ r < hi ∧
        directionalBoundary convex lo hi tol fuel θ = some (.ok (rayPoint θ r)) ∧
        NearChange convex lo hi ((hi - lo) / 2 ^ m) θ r := by
  classical
  have hex : ∃ m : ℕ, (hi - lo) / 2 ^ m ≤ tol := by
    obtain ⟨m, hm⟩ := pow_unbounded_of_one_lt ((hi - lo) / tol) (one_lt_two : (1 : ℝ) < 2)
    refine ⟨m, ?_⟩
    rw [div_le_iff₀ (by positivity)]
    rw [div_lt_iff₀ ht] at hm
    linarith
  have hm := Nat.find_spec hex
  have hmin := fun k (hk : k < Nat.find hex) => Nat.find_min hex hk
  generalize Nat.find hex = m at hm hmin
  have hm0 : m ≠ 0 := by
    rintro rfl
    simp only [pow_zero, div_one] at hm
    linarith
  have hprev : tol < (hi - lo) / 2 ^ (m - 1) := not_le.mp (hmin (m - 1) (by omega))
  refine ⟨m, hm, hprev, ?_⟩
  intro fuel hf
  have hpow : (0 : ℝ) < 2 ^ m := by positivity
  have hδ : 0 < (hi - lo) / 2 ^ m := div_pos (by linarith) hpow
  have h2 : (hi - lo) / 2 ^ (m - 1) = 2 * ((hi - lo) / 2 ^ m) := by
    obtain ⟨j, rfl⟩ : ∃ j, m = j + 1 := ⟨m - 1, by omega⟩
    rw [Nat.add_sub_cancel, pow_succ]
    field_simp
  obtain ⟨r, hr, ha, hb, hl, hh⟩ := (bisect_window
    (fun r => convex (r * Real.cos θ) (r * Real.sin θ)) tol _ hδ hm (by rw [← h2]; exact hprev)
    m fuel lo hi none hf (by field_simp)).2 hm0
  refine ⟨r, by linarith, by linarith, ?_, hl, hh⟩
  unfold directionalBoundary
  rw [hr]
  rfl

/-- **C162 is violated for a narrow window.** If the window is not wider than the tolerance there is nothing to
halve, and `UnboundLocalError` is raised instead of returning a point. -/
theorem C162_narrow_violated (convex : ℝ → ℝ → Bool) (lo hi tol θ : ℝ) (hw : hi - lo ≤ tol) (fuel : ℕ)
    (hf : 1 ≤ fuel) : directionalBoundary convex lo hi tol fuel θ = some (.error .unboundLocal) := by
  obtain ⟨n, rfl⟩ : ∃ n, fuel = n + 1 := ⟨fuel - 1, by omega⟩
  unfold directionalBoundary
  rw [bisectRadius, if_neg (not_lt.mpr hw)]
  rfl

theorem bisect_endless (convex : ℝ → Bool) (tol : ℝ) (ht : tol ≤ 0) : ∀ (fuel : ℕ) (lo hi : ℝ)
    (last : Option ℝ), lo < hi → bisectRadius convex tol fuel lo hi last = none := by
  intro fuel
  induction fuel with
  | zero => intro lo hi last _; rfl
  | succ n ih =>
    intro lo hi last h
    rw [bisectRadius, if_pos (by linarith)]
    simp only
    split_ifs
    · exact ih _ _ _ (by linarith)
    · exact ih _ _ _ (by linarith)

/-- **C162 is violated for a tolerance that is not positive.** The search then never ends (with exact
arithmetic), whatever the window. -/
theorem C162_endless_violated (convex : ℝ → ℝ → Bool) (lo hi tol θ : ℝ) (hw : lo < hi) (ht : tol ≤ 0)
    (fuel : ℕ) : directionalBoundary convex lo hi tol fuel θ = none := by
  unfold directionalBoundary
  rw [bisect_endless _ tol ht fuel lo hi none hw]
  rfl

/-- The search with the default window. -/
theorem directional_default (convex : ℝ → ℝ → Bool) (fuel : ℕ) (hf : 24 ≤ fuel) (θ : ℝ) :
    ∃ r, 0 < r ∧ r < 5 ∧ directionalBoundary convex 0 5 1e-6 fuel θ = some (.ok (rayPoint θ r)) ∧
      NearChange convex 0 5 (5 / 2 ^ 23) θ r := by
  obtain ⟨r, hr, ha, hb, hl, hh⟩ := (bisect_window
    (fun r => convex (r * Real.cos θ) (r * Real.sin θ)) 1e-6 (5 / 2 ^ 23) (by norm_num) (by norm_num)
    (by norm_num) 23 fuel 0 5 none (by omega) (by norm_num)).2 (by omega)
  have h : (0 : ℝ) < 5 / 2 ^ 23 := by norm_num
  refine ⟨r, by linarith, by linarith, ?_, hl, hh⟩
  unfold directionalBoundary
  rw [hr]
  rfl

theorem boundaryRows_eq (convex : ℝ → ℝ → Bool) (fuel : ℕ) (p : ℝ → ℝ × ℝ)
    (hp : ∀ θ, directionalBoundary convex 0 5 1e-6 fuel θ = some (.ok (p θ))) (l : List ℝ) :
    boundaryRows convex fuel l = some (.ok (l.map p)) := by
  induction l with
  | nil => rfl
  | cons a l ih => simp [boundaryRows, hp a, ih]

/-- **C162 (boundary).** For every test and every number of angles `n`, the computation ends and gives `n`
points.  The point with number `i` is on the ray with the angle `2πi/(n-1)`, at a radius between 0 and 5
within `5/2^23` of a change of the test.  A negative number is refused with `RuntimeError`. -/
theorem C162_boundary (convex : ℝ → ℝ → Bool) (fuel : ℕ) (hf : 24 ≤ fuel) :
    (∀ n : ℕ, ∃ l, convexBoundary convex fuel n = some (.ok l) ∧ l.length = n ∧
      ∀ i < n, ∃ r, l[i]? = some (rayPoint (circleAngle n i) r) ∧ 0 < r ∧ r < 5 ∧
        NearChange convex 0 5 (5 / 2 ^ 23) (circleAngle n i) r) ∧
    ∀ n : ℤ, n < 0 → convexBoundary convex fuel n = some (.error .runtimeError) := by
  refine ⟨?_, fun n hn => if_pos hn⟩
  intro n
  choose r h0 h5 hr hc using directional_default convex fuel hf
  refine ⟨(npLinspace 0 (2 * Real.pi) n).map fun θ => rayPoint θ (r θ), ?_, ?_, ?_⟩
  · unfold convexBoundary
    rw [if_neg (by omega), Int.toNat_natCast]
    exact boundaryRows_eq convex fuel _ hr _
  · simp [npLinspace]
  · intro i hi
    refine ⟨r (circleAngle n i), ?_, h0 _, h5 _, hc _⟩
    have he : (0 : ℝ) + (i : ℝ) * ((2 * Real.pi - 0) / ((n : ℝ) - 1)) = circleAngle n i := by
      unfold circleAngle
      ring
    simp [npLinspace, hi, ← he]

theorem circleAngle_zero (n : ℕ) : circleAngle n 0 = 0 := by simp [circleAngle]

theorem circleAngle_last (n : ℕ) (hn : 2 ≤ n) : circleAngle n (n - 1) = 2 * Real.pi := by
  have h : ((n - 1 : ℕ) : ℝ) = (n : ℝ) - 1 := by
    rw [Nat.cast_sub (by omega), Nat.cast_one]
  have h' : (n : ℝ) - 1 ≠ 0 := by
    have : (2 : ℝ) ≤ n := by exact_mod_cast hn
    linarith
  unfold circleAngle
  rw [h]
  field_simp

/-- **C162 (closed curve).** With two or more angles the first and the last point are the same. -/
theorem C162_closed (convex : ℝ → ℝ → Bool) (fuel n : ℕ) (hn : 2 ≤ n) (l : List (ℝ × ℝ))
    (h : convexBoundary convex fuel n = some (.ok l)) : ∃ p, l[0]? = some p ∧ l[n - 1]? = some p := by
  have hdir : directionalBoundary convex 0 5 1e-6 fuel (2 * Real.pi)
      = directionalBoundary convex 0 5 1e-6 fuel 0 := by
    unfold directionalBoundary
    simp only [Real.cos_two_pi, Real.sin_two_pi, Real.cos_zero, Real.sin_zero]
  have hrow : ∀ (ts : List ℝ) (ps : List (ℝ × ℝ)), boundaryRows convex fuel ts = some (.ok ps) →
      ∀ (i : ℕ) (θ : ℝ), ts[i]? = some θ →
        ∃ p, ps[i]? = some p ∧ directionalBoundary convex 0 5 1e-6 fuel θ = some (.ok p) := by
    intro ts
    induction ts with
    | nil => intro ps _ i θ hi; simp at hi
    | cons t ts ih =>
      intro ps hps i θ hi
      unfold boundaryRows at hps
      split at hps
      · cases hps
      · cases hps
      · next p hp =>
        split at hps
        · cases hps
        · cases hps
        · next qs hq =>
          cases hps
          cases i with
          | zero =>
            simp only [List.getElem?_cons_zero, Option.some.injEq] at hi
            subst hi
            exact ⟨p, rfl, hp⟩
          | succ i => exact ih qs hq i θ (by simpa using hi)
  unfold convexBoundary at h
  rw [if_neg (by omega), Int.toNat_natCast] at h
  have hang : ∀ i < n, (npLinspace 0 (2 * Real.pi) n)[i]? = some (circleAngle n i) := by
    intro i hi
    have he : (0 : ℝ) + (i : ℝ) * ((2 * Real.pi - 0) / ((n : ℝ) - 1)) = circleAngle n i := by
      unfold circleAngle
      ring
    simp [npLinspace, hi, ← he]
  obtain ⟨p, hp, hd⟩ := hrow _ _ h 0 _ (hang 0 (by omega))
  obtain ⟨q, hq, he⟩ := hrow _ _ h (n - 1) _ (hang (n - 1) (by omega))
  rw [circleAngle_zero] at hd
  rw [circleAngle_last n hn, hdir, hd] at he
  cases he
  exact ⟨p, hp, hq⟩

/-- **C162 (shape).** If in the direction of a point exactly the radii up to `R < 5` pass the test, the point is
within `5/2^23` of the boundary of the region. -/
theorem C162_shape (convex : ℝ → ℝ → Bool) (θ r R : ℝ) (h0 : 0 < r) (hR0 : 0 ≤ R) (hR : R < 5)
    (hstar : ∀ s, 0 ≤ s → (convex (rayPoint θ s).1 (rayPoint θ s).2 = true ↔ s ≤ R))
    (h : NearChange convex 0 5 (5 / 2 ^ 23) θ r) : |r - R| ≤ 5 / 2 ^ 23 := by
  have hδ : (0 : ℝ) < 5 / 2 ^ 23 := by norm_num
  generalize (5 : ℝ) / 2 ^ 23 = δ at h hδ ⊢
  obtain ⟨hl, hh⟩ := h
  rw [abs_le]
  constructor
  · rcases hh with hh | hh
    · linarith
    · by_contra hcon
      rw [(hstar (r + δ) (by linarith)).2 (by linarith)] at hh
      cases hh
  · rcases hl with hl | hl
    · linarith
    · by_contra hcon
      have hpos : 0 ≤ r - δ := by linarith
      have := (hstar (r - δ) hpos).1 hl
      linarith

open Classical in
/-- **C162 (convexity test of the model).** With the convexity test of the Lou-Zhang-Yoon model, the first point
is at a radius of at least `9/4 - 5/2^23` on the positive axis of `c`, and with an odd number of angles the
middle one is at a radius of at least `27/8 - 5/2^23` on the negative axis: up to the tolerance the boundary
encloses all parameters with `d = 0` whose yield surface is convex. -/
theorem C162_drucker (fuel : ℕ) (hf : 24 ≤ fuel) (m : ℕ) (hm : 1 ≤ m) :
    ∃ l, convexBoundary (fun c d => decide (checkConvexity c d)) fuel (2 * m + 1 : ℕ) = some (.ok l) ∧
      (∃ r, l[0]? = some (r, 0) ∧ 9 / 4 - 5 / 2 ^ 23 ≤ r) ∧
      ∃ r, l[m]? = some (-r, 0) ∧ 27 / 8 - 5 / 2 ^ 23 ≤ r := by
  obtain ⟨l, hl, -, hp⟩ := (C162_boundary (fun c d => decide (checkConvexity c d)) fuel hf).1 (2 * m + 1)
  have hδ : (5 : ℝ) / 2 ^ 23 < 1 := by norm_num
  have hδ0 : (0 : ℝ) < 5 / 2 ^ 23 := by norm_num
  have hacc : ∀ c : ℝ, -27 / 8 ≤ c → c ≤ 9 / 4 → checkConvexity c 0 := fun c h1 h2 =>
    C92_drucker_accepted ((C92_drucker_convex c).2 ⟨h1, h2⟩)
  refine ⟨l, hl, ?_, ?_⟩
  · obtain ⟨r, hr, h0, -, hc⟩ := hp 0 (by omega)
    rw [circleAngle_zero] at hr hc
    refine ⟨r, by simpa [rayPoint] using hr, ?_⟩
    by_contra hcon
    rcases hc.2 with h | h
    · linarith
    · have : checkConvexity (r + 5 / 2 ^ 23) 0 := hacc _ (by linarith) (by linarith)
      simp only [rayPoint, Real.cos_zero, Real.sin_zero, mul_one, mul_zero] at h
      exact absurd this (of_decide_eq_false h)
  · obtain ⟨r, hr, h0, -, hc⟩ := hp m (by omega)
    have hang : circleAngle (2 * m + 1) m = Real.pi := by
      have : (m : ℝ) ≠ 0 := by
        have : (1 : ℝ) ≤ m := by exact_mod_cast hm
        linarith
      unfold circleAngle
      push_cast
      rw [add_sub_cancel_right]
      field_simp
    rw [hang] at hr hc
    refine ⟨r, by simpa [rayPoint] using hr, ?_⟩
    by_contra hcon
    rcases hc.2 with h | h
    · linarith
    · have : checkConvexity (-(r + 5 / 2 ^ 23)) 0 := hacc _ (by linarith) (by linarith)
      simp only [rayPoint, Real.cos_pi, Real.sin_pi, mul_neg, mul_one, mul_zero] at h
      exact absurd this (of_decide_eq_false h)

/-! ### Cases -/

/-- A disc with the radius 1: every point of the boundary is found up to the tolerance. -/
example : ∃ l, convexBoundary (fun c d => decide (c ^ 2 + d ^ 2 ≤ 1)) 24 360 = some (.ok l) ∧
    l.length = 360 ∧ ∀ i < 360, ∃ r, l[i]? = some (rayPoint (circleAngle 360 i) r) ∧
      |r - 1| ≤ 5 / 2 ^ 23 := by
  obtain ⟨l, hl, hn, hp⟩ := (C162_boundary (fun c d => decide (c ^ 2 + d ^ 2 ≤ 1)) 24 le_rfl).1 360
  refine ⟨l, hl, hn, fun i hi => ?_⟩
  obtain ⟨r, hr, h0, -, hc⟩ := hp i hi
  refine ⟨r, hr, C162_shape _ _ r 1 h0 zero_le_one (by norm_num) ?_ hc⟩
  intro s hs
  have h : (rayPoint (circleAngle 360 i) s).1 ^ 2 + (rayPoint (circleAngle 360 i) s).2 ^ 2 = s ^ 2 := by
    simp only [rayPoint]
    nlinarith [Real.sin_sq_add_cos_sq (circleAngle 360 i)]
  rw [decide_eq_true_iff, h]
  constructor
  · intro h1
    nlinarith
  · intro h1
    nlinarith

example : ∃ r : ℝ, 0 < r ∧ r < 8 ∧
    directionalBoundary (fun c _ => decide (c ≤ 3)) 0 8 1 10 0 = some (.ok (rayPoint 0 r)) := by
  obtain ⟨m, h1, h2, h⟩ := C162_search (fun c _ => decide (c ≤ 3)) 0 8 1 0 one_pos (by norm_num)
  have hm : m ≤ 9 := by
    by_contra hcon
    have h3 : (2 : ℝ) ^ 9 ≤ 2 ^ (m - 1) := pow_le_pow_right₀ (by norm_num) (by omega)
    rw [lt_div_iff₀ (by positivity)] at h2
    norm_num at h2 h3
    linarith
  obtain ⟨r, a, b, c, -⟩ := h 10 (by omega)
  exact ⟨r, a, b, c⟩

end Hooke
