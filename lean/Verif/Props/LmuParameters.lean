import Verif.Spec.LmuParameters
import Verif.Props.Hardening
import Mathlib.Tactic.Linarith
import Mathlib.Tactic.FieldSimp

/-!
# C130: the temperature and composition dependent material is stable
-/

noncomputable section

namespace Hooke

open Spec


/-- Points of a line. -/
def ptsOf (n : ℕ) (s0 s1 : ℝ) : List (ℝ × ℝ) := (npLinspace 0 2 n).map fun x => (x, s0 + s1 * x)

/-- C130a: parameters are returned exactly for the von Mises model and admissible temperatures and
compositions: isotropic elasticity with the two moduli, and points of a line of initial yield stress and
hardening modulus. -/
theorem C130_parameters {name : String} {T C : ℝ} {p : TcParams} :
    tcParameters name T C = .ok p ↔ name = "von_mises" ∧ TcAdmissible T C ∧
      p.young = tcYoung T C ∧ p.poisson = tcYoung T C / (2 * tcShear T C) - 1 ∧
      p.points = (npLinspace 0 2 1000).map fun x => (x, tcYield T C + tcHardening T C * x) := by
  change _ ↔ _ ∧ _ ∧ _ ∧ _ ∧ _ = ptsOf 1000 (tcYield T C) (tcHardening T C)
  unfold tcParameters
  have ey : (pyPolynomial [135.546, 20.186] ((C - 0.5) / 0.3168) +
      pyPolynomial [-8.489, 0.936] ((C - 0.5) / 0.3168) * ((T - 325) / 180.606)) * 10 ^ 3 = tcYoung T C := by
    simp only [pyPolynomial, tcYoung, normC, normT, List.zipIdx_cons, List.zipIdx_nil, List.map_cons,
      List.map_nil, List.sum_cons, List.sum_nil]
    ring
  have eg : (pyPolynomial [52.891, 8.843] ((C - 0.5) / 0.3168) +
      pyPolynomial [-3.340, 0.405] ((C - 0.5) / 0.3168) * ((T - 325) / 180.606)) * 10 ^ 3 = tcShear T C := by
    simp only [pyPolynomial, tcShear, normC, normT, List.zipIdx_cons, List.zipIdx_nil, List.map_cons,
      List.map_nil, List.sum_cons, List.sum_nil]
    ring
  have e0 : pyPolynomial [25.107, -47.582, 39.738] ((C - 0.5) / 0.3168) *
          Real.exp (-pyPolynomial [0.883, 0.018, -0.091] ((C - 0.5) / 0.3168) * ((T - 325) / 180.606))
        + pyPolynomial [541.225, -74.391, -121.669, 29.518, 20.025] ((C - 0.5) / 0.3168) = tcYield T C := by
    have ee : -pyPolynomial [0.883, 0.018, -0.091] ((C - 0.5) / 0.3168) * ((T - 325) / 180.606)
        = -(0.883 + 0.018 * normC C - 0.091 * normC C ^ 2) * normT T := by
      simp only [pyPolynomial, normC, normT, List.zipIdx_cons, List.zipIdx_nil, List.map_cons,
        List.map_nil, List.sum_cons, List.sum_nil]
      ring
    rw [ee]
    simp only [pyPolynomial, tcYield, List.zipIdx_cons, List.zipIdx_nil, List.map_cons,
      List.map_nil, List.sum_cons, List.sum_nil]
    rw [show (C - 0.5) / 0.3168 = normC C by unfold normC; norm_num]
    ring
  have e1 : pyPolynomial [7253.7, 2213.1] ((C - 0.5) / 0.3168) +
      pyPolynomial [-68.7, -57.7] ((C - 0.5) / 0.3168) * ((T - 325) / 180.606) = tcHardening T C := by
    simp only [pyPolynomial, tcHardening, normC, normT, List.zipIdx_cons, List.zipIdx_nil, List.map_cons,
      List.map_nil, List.sum_cons, List.sum_nil]
    ring
  have e2 : ((npLinspace 0 2 1000).map fun x => (x, tcYield T C + tcHardening T C * x))
      = ptsOf 1000 (tcYield T C) (tcHardening T C) := by unfold ptsOf; rfl
  simp only [ey, eg, e0, e1, e2]
  generalize ptsOf 1000 (tcYield T C) (tcHardening T C) = pts
  by_cases hn : name = "von_mises"
  · rw [if_pos hn]
    by_cases ht : T < 25 ∨ T > 625
    · rw [if_pos ht]
      refine ⟨fun h => (by cases h), ?_⟩
      rintro ⟨-, ⟨h1, h2, -⟩, -⟩
      rcases ht with ht | ht <;> linarith
    · rw [if_neg ht]
      by_cases hc : C < 0 ∨ C > 1
      · rw [if_pos hc]
        refine ⟨fun h => (by cases h), ?_⟩
        rintro ⟨-, ⟨-, -, h1, h2⟩, -⟩
        rcases hc with hc | hc <;> linarith
      · rw [if_neg hc]
        push Not at ht hc
        constructor
        · intro h
          cases h
          exact ⟨hn, ⟨ht.1, ht.2, hc.1, hc.2⟩, rfl, rfl, rfl⟩
        · rintro ⟨-, -, h1, h2, h3⟩
          obtain ⟨a, b, c⟩ := p
          simp only at h1 h2 h3
          subst h1 h2 h3
          rfl
  · rw [if_neg hn]
    exact ⟨fun h => (by cases h), fun h => absurd h.1 hn⟩

theorem norm_bounds {T C : ℝ} (h : TcAdmissible T C) :
    -(1.662 : ℝ) ≤ normT T ∧ normT T ≤ 1.662 ∧ -(1.579 : ℝ) ≤ normC C ∧ normC C ≤ 1.579 := by
  obtain ⟨h1, h2, h3, h4⟩ := h
  unfold normT normC
  refine ⟨?_, ?_, ?_, ?_⟩
  · rw [le_div_iff₀ (by norm_num)]; linarith
  · rw [div_le_iff₀ (by norm_num)]; linarith
  · rw [le_div_iff₀ (by norm_num)]; linarith
  · rw [div_le_iff₀ (by norm_num)]; linarith

/-- C130b: for every admissible temperature and composition the shear modulus is positive, Poisson's
ratio is between 0 and 1/2, and the initial yield stress and the hardening modulus are positive. -/
theorem C130_stable {T C : ℝ} (h : TcAdmissible T C) :
    0 < tcShear T C ∧ 0 < tcYoung T C / (2 * tcShear T C) - 1 ∧
      tcYoung T C / (2 * tcShear T C) - 1 < 1 / 2 ∧ 0 < tcYield T C ∧ 0 < tcHardening T C := by
  obtain ⟨h1, h2, h3, h4⟩ := norm_bounds h
  have hg : 0 < tcShear T C := by
    unfold tcShear
    nlinarith
  refine ⟨hg, ?_, ?_, ?_, ?_⟩
  · rw [sub_pos, lt_div_iff₀ (by linarith)]
    unfold tcShear tcYoung
    nlinarith
  · rw [sub_lt_iff_lt_add, div_lt_iff₀ (by linarith)]
    unfold tcShear tcYoung
    nlinarith
  · unfold tcYield
    have e1 : 0 < 25.107 - 47.582 * normC C + 39.738 * normC C ^ 2 := by
      nlinarith [sq_nonneg (normC C - 0.6)]
    have e2 : 0 < 541.225 - 74.391 * normC C - 121.669 * normC C ^ 2 + 29.518 * normC C ^ 3 +
        20.025 * normC C ^ 4 := by
      nlinarith [sq_nonneg (normC C), sq_nonneg (normC C ^ 2 - 2), mul_nonneg (sub_nonneg.mpr h3) (sub_nonneg.mpr h4)]
    exact add_pos (mul_pos e1 (Real.exp_pos _)) e2
  · unfold tcHardening
    nlinarith

/-! ### The hardening curve -/

theorem ptsOf_length (n : ℕ) (s0 s1 : ℝ) : (ptsOf n s0 s1).length = n := by simp [ptsOf, npLinspace]

theorem ptsOf_get {n : ℕ} {s0 s1 : ℝ} {i : ℕ} (h : i < (ptsOf n s0 s1).length) :
    (ptsOf n s0 s1)[i].1 = i * (2 / ((n : ℝ) - 1)) ∧
      (ptsOf n s0 s1)[i].2 = s0 + s1 * (ptsOf n s0 s1)[i].1 := by
  simp [ptsOf, npLinspace]

theorem ptsOf_table {n : ℕ} (hn : 2 ≤ n) (s0 s1 : ℝ) : IsTable (ptsOf n s0 s1) := by
  refine ⟨by rw [ptsOf_length]; exact hn, fun i h => ?_⟩
  rw [(ptsOf_get _).1, (ptsOf_get h).1]
  have : (0 : ℝ) < 2 / ((n : ℝ) - 1) := by
    have : (2 : ℝ) ≤ n := by exact_mod_cast hn
    apply div_pos <;> linarith
  push_cast
  nlinarith

theorem ptsOf_ends {n : ℕ} (hn : 2 ≤ n) (s0 s1 : ℝ) :
    ((ptsOf n s0 s1)[0]'(by rw [ptsOf_length]; omega)).1 = 0 ∧
      ((ptsOf n s0 s1)[(ptsOf n s0 s1).length - 1]'(by rw [ptsOf_length]; omega)).1 = 2 := by
  have h2 : (2 : ℝ) ≤ n := by exact_mod_cast hn
  refine ⟨by rw [(ptsOf_get _).1]; simp, ?_⟩
  rw [(ptsOf_get _).1, ptsOf_length, Nat.cast_sub (by omega)]
  have : (n : ℝ) - 1 ≠ 0 := by linarith
  push_cast
  field_simp

theorem ptsOf_line {n : ℕ} (s0 s1 : ℝ) {i : ℕ} (hi : i + 1 < (ptsOf n s0 s1).length) (hn : 2 ≤ n) (x : ℝ) :
    line (ptsOf n s0 s1)[i] (ptsOf n s0 s1)[i + 1] x = s0 + s1 * x := by
  have h1 := (ptsOf_table hn s0 s1).incr i hi
  unfold line
  rw [(ptsOf_get hi).2, (ptsOf_get (by omega : i < (ptsOf n s0 s1).length)).2]
  generalize (ptsOf n s0 s1)[i].1 = a at *
  generalize (ptsOf n s0 s1)[i + 1].1 = b at *
  have : b - a ≠ 0 := by linarith
  field_simp
  ring

theorem ptsOf_law {n : ℕ} (hn : 2 ≤ n) (s0 s1 : ℝ) {x : ℝ} (h0 : 0 ≤ x) (h2 : x ≤ 2) :
    (piecewiseLinear (ptsOf n s0 s1) x).1 = s0 + s1 * x := by
  have ht := ptsOf_table hn s0 s1
  obtain ⟨e0, e1⟩ := ptsOf_ends hn s0 s1
  rcases h2.lt_or_eq with h2 | h2
  · obtain ⟨i, hi, h3, h4⟩ := exists_segment ht (x := x) (by rw [e0]; exact h0) (by rw [e1]; exact h2)
    rw [C26_segment ht hi h0 h3 h4.le, ptsOf_line s0 s1 hi hn]
  · have hl : (ptsOf n s0 s1).length - 1 < (ptsOf n s0 s1).length := by rw [ptsOf_length]; omega
    have := C26_interpolates ht hl (by rw [e1]; norm_num)
    rw [(ptsOf_get hl).2, e1] at this
    rw [h2]
    exact this

theorem ptsOf_slope {n : ℕ} (hn : 2 ≤ n) (s0 s1 : ℝ) {x : ℝ} (h0 : 0 < x) (h2 : x < 2) :
    (piecewiseLinear (ptsOf n s0 s1) x).2 = s1 := by
  have ht := ptsOf_table hn s0 s1
  obtain ⟨e0, e1⟩ := ptsOf_ends hn s0 s1
  obtain ⟨i, hi, h3, h4⟩ := exists_segment ht (x := x) (by rw [e0]; exact h0.le) (by rw [e1]; exact h2)
  have hs : ((ptsOf n s0 s1)[i + 1].2 - (ptsOf n s0 s1)[i].2) /
      ((ptsOf n s0 s1)[i + 1].1 - (ptsOf n s0 s1)[i].1) = s1 := by
    have h1 := ht.incr i hi
    rw [(ptsOf_get hi).2, (ptsOf_get (by omega : i < (ptsOf n s0 s1).length)).2]
    generalize (ptsOf n s0 s1)[i].1 = a at *
    generalize (ptsOf n s0 s1)[i + 1].1 = b at *
    have : b - a ≠ 0 := by linarith
    field_simp
    ring
  rcases h3.lt_or_eq with h3 | h3
  · rw [(C26_slope ht hi h0 h3 h4).1, hs]
  · have h5 := C26_slope_at_points ht hi (by rw [h3]; exact h0.le)
    rw [← h3, h5, if_neg, hs]
    rintro rfl
    rw [e0] at h3
    linarith

/-- C130c: up to an accumulated plastic strain of 2 the hardening law of the returned parameters is the
line of initial yield stress and hardening modulus, and its slope is the hardening modulus between 0 and
2; beyond 2 the yield stress stays constant with slope zero. -/
theorem C130_hardening {T C : ℝ} {p : TcParams} (h : tcParameters "von_mises" T C = .ok p) :
    (∀ x, 0 ≤ x → x ≤ 2 → (piecewiseLinear p.points x).1 = tcYield T C + tcHardening T C * x) ∧
    (∀ x, 0 < x → x < 2 → (piecewiseLinear p.points x).2 = tcHardening T C) ∧
    ∀ x, 2 < x → piecewiseLinear p.points x = (tcYield T C + tcHardening T C * 2, 0) := by
  have hp : p.points = ptsOf 1000 (tcYield T C) (tcHardening T C) := (C130_parameters.mp h).2.2.2.2
  have hn : 2 ≤ 1000 := by norm_num
  rw [hp]
  refine ⟨fun x h0 h2 => ptsOf_law hn _ _ h0 h2, fun x h0 h2 => ptsOf_slope hn _ _ h0 h2, fun x hx => ?_⟩
  obtain ⟨-, e1⟩ := ptsOf_ends hn (tcYield T C) (tcHardening T C)
  have := (C26_outside (ptsOf_table hn (tcYield T C) (tcHardening T C))).2.1 x (by linarith)
    (by rw [e1]; exact hx)
  rw [this, (ptsOf_get _).2, e1]

/-- **C130 is violated at first yield.**  Without plastic strain the slope is zero instead of the
hardening modulus, for every admissible temperature and composition. -/
theorem C130_first_yield_violated {T C : ℝ} {p : TcParams} (h : tcParameters "von_mises" T C = .ok p) :
    (piecewiseLinear p.points 0).2 = 0 ∧ 0 < tcHardening T C := by
  have hp : p.points = ptsOf 1000 (tcYield T C) (tcHardening T C) := (C130_parameters.mp h).2.2.2.2
  refine ⟨?_, (C130_stable (C130_parameters.mp h).2.1).2.2.2.2⟩
  have hn : 2 ≤ 1000 := by norm_num
  obtain ⟨e0, -⟩ := ptsOf_ends hn (tcYield T C) (tcHardening T C)
  rw [hp]
  have := C26_slope_at_points (ptsOf_table hn (tcYield T C) (tcHardening T C)) (i := 0)
    (by rw [ptsOf_length]; norm_num) (by rw [e0])
  rw [e0, if_pos rfl] at this
  exact this

/-- Room temperature and the middle composition. -/
example : ∃ p, tcParameters "von_mises" 25 (1 / 2) = .ok p :=
  ⟨⟨tcYoung 25 (1 / 2), tcYoung 25 (1 / 2) / (2 * tcShear 25 (1 / 2)) - 1,
      (npLinspace 0 2 1000).map fun x => (x, tcYield 25 (1 / 2) + tcHardening 25 (1 / 2) * x)⟩,
    C130_parameters.mpr ⟨rfl, ⟨by norm_num, by norm_num, by norm_num, by norm_num⟩, rfl, rfl,
      by with_reducible rfl⟩⟩

end Hooke
