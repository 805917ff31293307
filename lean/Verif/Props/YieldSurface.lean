import Verif.Model.YieldSurface
import Verif.Spec.YieldSurface
import Verif.Props.YieldConvexity
import Verif.Lemmas.Py
import Verif.Lemmas.MapM
import Verif.Lemmas.StrainPath
import Mathlib.Data.List.Sort

/-!
# C111: yield surfaces in the pi-plane
-/

noncomputable section

namespace Hooke

open Spec

theorem npDiag_principal (s : Fin 3 → ℝ) : npDiag s = principal s := rfl

theorem plotInvariants_eq (s : Fin 3 → ℝ) :
    (plotInvariants (npDiag s)).i1 = trace (principal s) ∧
      (plotInvariants (npDiag s)).j2 = devJ2 (principal s) ∧
      (plotInvariants (npDiag s)).j3 = devJ3 (principal s) := C88_invariants (principal_isSym s)

/-! ### Pi-stresses -/

theorem q_sq : √(1 / 6 : ℝ) ^ 2 = 1 / 6 := Real.sq_sqrt (by norm_num)
theorem r_sq : √(1 / 2 : ℝ) ^ 2 = 1 / 2 := Real.sq_sqrt (by norm_num)
theorem t_sq : √(1 / 3 : ℝ) ^ 2 = 1 / 3 := Real.sq_sqrt (by norm_num)

theorem two_q : √(2 / 3 : ℝ) = 2 * √(1 / 6) := by
  rw [Real.sqrt_eq_iff_mul_self_eq (by norm_num) (by positivity)]
  linear_combination -4 * q_sq

theorem three_t : 3 * √(1 / 3 : ℝ) = √3 := by
  symm
  rw [Real.sqrt_eq_iff_mul_self_eq (by norm_num) (by positivity)]
  linear_combination -9 * t_sq

theorem q_third : √(1 / 6 : ℝ) = √6 / 6 := by
  rw [Real.sqrt_eq_iff_mul_self_eq (by norm_num) (by positivity)]
  have : √(6 : ℝ) ^ 2 = 6 := Real.sq_sqrt (by norm_num)
  linear_combination -1 / 36 * this

theorem piToPrincipal_apply (x : Fin 3 → ℝ) :
    piToPrincipal x 0 = 2 * √(1 / 6) * x 0 + √(1 / 3) * x 2 ∧
    piToPrincipal x 1 = -√(1 / 6) * x 0 + √(1 / 2) * x 1 + √(1 / 3) * x 2 ∧
    piToPrincipal x 2 = -√(1 / 6) * x 0 - √(1 / 2) * x 1 + √(1 / 3) * x 2 := by
  simp only [piToPrincipal, piRotation, Matrix.mulVec, dotProduct, Fin.sum_univ_three,
    Matrix.transpose_apply, two_q]
  refine ⟨?_, ?_, ?_⟩ <;> simp [-one_div]
  ring

/-- **C111.** The pi-stresses are orthonormal coordinates of the principal stresses: every triple of
principal stresses has exactly one triple of pi-stresses and the same norm.  The third coordinate is
`√3` times the pressure, and the invariants of the deviator depend on the first two only. -/
theorem C111_rotation : Function.Bijective piToPrincipal ∧ ∀ x,
    ∑ i, piToPrincipal x i ^ 2 = ∑ i, x i ^ 2 ∧
    trace (principal (piToPrincipal x)) = √3 * x 2 ∧
    devJ2 (principal (piToPrincipal x)) = (x 0 ^ 2 + x 1 ^ 2) / 2 ∧
    devJ3 (principal (piToPrincipal x)) = √6 / 18 * (x 0 ^ 3 - 3 * x 0 * x 1 ^ 2) := by
  refine ⟨Function.bijective_iff_has_inverse.mpr ⟨fun s => Matrix.mulVec piRotation s, ?_, ?_⟩, ?_⟩
  · intro x
    obtain ⟨h0, h1, h2⟩ := piToPrincipal_apply x
    funext i
    have hq := q_sq
    have hr := r_sq
    have ht := t_sq
    simp only [Matrix.mulVec, dotProduct, Fin.sum_univ_three, h0, h1, h2, piRotation, two_q]
    clear h0 h1 h2
    generalize √(1 / 6 : ℝ) = q at *
    generalize √(1 / 2 : ℝ) = r at *
    generalize √(1 / 3 : ℝ) = t at *
    fin_cases i <;> simp [-one_div]
    · linear_combination 6 * x 0 * hq
    · linear_combination 2 * x 1 * hr
    · linear_combination 3 * x 2 * ht
  · intro s
    obtain ⟨h0, h1, h2⟩ := piToPrincipal_apply (fun i => Matrix.mulVec piRotation s i)
    have e0 : Matrix.mulVec piRotation s 0 = √(1 / 6) * (2 * s 0 - s 1 - s 2) := by
      simp only [Matrix.mulVec, dotProduct, Fin.sum_univ_three, piRotation, two_q]
      simp [-one_div]; ring
    have e1 : Matrix.mulVec piRotation s 1 = √(1 / 2) * (s 1 - s 2) := by
      simp only [Matrix.mulVec, dotProduct, Fin.sum_univ_three, piRotation, two_q]
      simp [-one_div]; ring
    have e2 : Matrix.mulVec piRotation s 2 = √(1 / 3) * (s 0 + s 1 + s 2) := by
      simp only [Matrix.mulVec, dotProduct, Fin.sum_univ_three, piRotation, two_q]
      simp [-one_div]; ring
    rw [e0, e1, e2] at h1 h2
    rw [e0, e2] at h0
    have hq := q_sq
    have hr := r_sq
    have ht := t_sq
    funext i
    fin_cases i
    · exact h0.trans (by show _ = s 0; linear_combination 2 * (2 * s 0 - s 1 - s 2) * hq + (s 0 + s 1 + s 2) * ht)
    · exact h1.trans (by
        show _ = s 1
        linear_combination -(2 * s 0 - s 1 - s 2) * hq + (s 1 - s 2) * hr + (s 0 + s 1 + s 2) * ht)
    · exact h2.trans (by
        show _ = s 2
        linear_combination -(2 * s 0 - s 1 - s 2) * hq - (s 1 - s 2) * hr + (s 0 + s 1 + s 2) * ht)
  · intro x
    obtain ⟨h0, h1, h2⟩ := piToPrincipal_apply x
    have hq := q_sq
    have hr := r_sq
    have ht := t_sq
    refine ⟨?_, ?_, ?_, ?_⟩
    · simp only [Fin.sum_univ_three, h0, h1, h2]
      linear_combination 6 * x 0 ^ 2 * hq + 2 * x 1 ^ 2 * hr + 3 * x 2 ^ 2 * ht
    · simp only [trace, principal, Fin.sum_univ_three, if_true, h0, h1, h2]
      linear_combination x 2 * three_t
    · simp only [devJ2, deviator, trace, principal, Fin.sum_univ_three, if_true, h0, h1, h2]
      clear h0 h1 h2
      generalize √(1 / 6 : ℝ) = q at *
      generalize √(1 / 2 : ℝ) = r at *
      generalize √(1 / 3 : ℝ) = t at *
      simp [-one_div]
      linear_combination 3 * x 0 ^ 2 * hq + x 1 ^ 2 * hr
    · rw [show √(6 : ℝ) / 18 = √(1 / 6) / 3 by rw [q_third]; ring]
      simp only [devJ3, deviator, trace, principal, Fin.sum_univ_three, if_true,
        Matrix.det_fin_three, Matrix.of_apply, h0, h1, h2]
      clear h0 h1 h2
      generalize √(1 / 6 : ℝ) = q at *
      generalize √(1 / 2 : ℝ) = r at *
      generalize √(1 / 3 : ℝ) = t at *
      simp [-one_div]
      linear_combination 2 * q * x 0 ^ 3 * hq - 2 * q * x 0 * x 1 ^ 2 * hr

/-! ### Values of the yield functions -/

theorem fpow_half {x : ℝ} (h : 0 ≤ x) : fpow x (1 / 2) = some √x := by
  rw [fpow_of_pos h (by norm_num), Real.sqrt_eq_rpow]

theorem mapM_pure {α β : Type} (f : α → Py β) (g : α → β) (h : ∀ x, f x = .ok (g x)) (l : List α) :
    l.mapM f = .ok (l.map g) := by
  induction l with
  | nil => rfl
  | cons a l ih => simp only [List.mapM_cons, h, ih, List.map_cons]; rfl

theorem vonMises_sq (t : T2 3) : vonMises t ^ 2 = 3 * devJ2 t := by
  rw [frob_sq_devJ2, vonMises, mul_pow, Real.sq_sqrt (by norm_num)]
  ring

/-- **C111.** For a von Mises model the values are `(σ_eq - σy)/σy`, with `1e-10` added to `J₂` in the
equivalent stress, whatever the parameters; on and inside the surface are exactly the points within
a circular cylinder around the hydrostatic axis. -/
theorem C111_von_mises {name : String} (hn : "von_mises".toList <:+: name.toList)
    (par : String → Option ℝ) {sy : ℝ} (hs : 0 < sy) (pts : List (Fin 3 → ℝ)) :
    batchedYieldFunction pts sy name par = .ok (pts.map fun x =>
      some ((√(vonMises (principal (piToPrincipal x)) ^ 2 + 3e-10) - sy) / sy)) ∧
    ∀ x : Fin 3 → ℝ, (√(vonMises (principal (piToPrincipal x)) ^ 2 + 3e-10) - sy) / sy ≤ 0 ↔
      x 0 ^ 2 + x 1 ^ 2 ≤ 2 / 3 * sy ^ 2 - 2e-10 := by
  constructor
  · refine mapM_pure _ _ (fun x => ?_) pts
    have h : inName "von_mises" name = true := decide_eq_true hn
    have hj := devJ2_nonneg (principal (piToPrincipal x))
    simp only [yieldFunction, h, if_true, yfVonMises, (plotInvariants_eq _).2.1, fdiv, if_neg hs.ne']
    rw [fpow_half (by positivity), vonMises_sq]
    rw [show 3 * (devJ2 (principal (piToPrincipal x)) + 1e-10) =
      3 * devJ2 (principal (piToPrincipal x)) + 3e-10 by norm_num; ring]
    rfl
  · intro x
    rw [vonMises_sq, (C111_rotation.2 x).2.2.1, div_le_iff₀ hs, zero_mul, sub_nonpos,
      Real.sqrt_le_left hs.le]
    constructor <;> intro h <;> norm_num at h ⊢ <;> linarith

theorem not_inName {t name : String} (h : ¬ t.toList <:+: name.toList) : ¬ inName t name = true := by
  simpa [inName] using h

/-- **C111.** For a Drucker-Prager model the values are `(√J₂ + η p - σy)/σy`, with `1e-10` added to
`J₂` and the pressure parameter `η = √3 sin φ` of the friction angle `φ`: on and inside the surface
are exactly the points within a cone around the hydrostatic axis with the slope `sin φ`. -/
theorem C111_drucker_prager {name : String} (hv : ¬ "von_mises".toList <:+: name.toList)
    (hn : "drucker_prager".toList <:+: name.toList) {par : String → Option ℝ} {phi : ℝ}
    (hp : par "friction_angle" = some phi) (hc : Real.cos phi ≠ 0) {sy : ℝ} (hs : 0 < sy)
    (pts : List (Fin 3 → ℝ)) :
    batchedYieldFunction pts sy name par = .ok (pts.map fun x =>
      some ((√(devJ2 (principal (piToPrincipal x)) + 1e-10) +
        √3 * Real.sin phi * (trace (principal (piToPrincipal x)) / 3) - sy) / sy)) ∧
    ∀ x : Fin 3 → ℝ, (√(devJ2 (principal (piToPrincipal x)) + 1e-10) +
        √3 * Real.sin phi * (trace (principal (piToPrincipal x)) / 3) - sy) / sy ≤ 0 ↔
      √((x 0 ^ 2 + x 1 ^ 2) / 2 + 1e-10) ≤ sy - Real.sin phi * x 2 := by
  have h3 := sq3
  have h30 := sq3_pos
  constructor
  · refine mapM_pure _ _ (fun x => ?_) pts
    have h : inName "drucker_prager" name = true := decide_eq_true hn
    have hj := devJ2_nonneg (principal (piToPrincipal x))
    have hxi : frictionXi phi ≠ 0 := mul_ne_zero (by positivity) hc
    have heta : frictionEta phi = √3 * Real.sin phi := by
      unfold frictionEta
      field_simp
      linear_combination -Real.sin phi * h3
    simp only [yieldFunction, if_neg (not_inName hv), h, if_true, yfDruckerPrager, hp, orRaise,
      (plotInvariants_eq _).1, (plotInvariants_eq _).2.1, fdiv, if_neg hs.ne', if_neg hxi, heta]
    rw [fpow_half (by positivity)]
    simp only [Option.bind_some, Option.map_some, bind, Except.bind, pure, Except.pure]
    simp only [if_neg hxi, heta, Option.bind_some, Option.map_some, if_true]
    rw [mul_div_cancel₀ _ hxi]
    congr 3
    ring
  · intro x
    rw [(C111_rotation.2 x).2.2.1, (C111_rotation.2 x).2.1, div_le_iff₀ hs, zero_mul]
    have : √3 * Real.sin phi * (√3 * x 2 / 3) = Real.sin phi * x 2 := by
      linear_combination Real.sin phi * x 2 / 3 * h3
    rw [this]
    constructor <;> intro h <;> linarith

/-- **C111.** For a Lou-Zhang-Yoon model the values are `(σ_eq - σy)/σy`, with `1e-10` added to `J₂` in
the effective stress, for the points at which no root of a negative number is taken, and NaN for
all others. -/
theorem C111_lou {name : String} (hv : ¬ "von_mises".toList <:+: name.toList)
    (hd : ¬ "drucker_prager".toList <:+: name.toList)
    (hn : "lou_zhang_yoon".toList <:+: name.toList) {par : String → Option ℝ} {a b c d : ℝ}
    (ha : par "yield_a" = some a) (hb : par "yield_b" = some b) (hc : par "yield_c" = some c)
    (hdd : par "yield_d" = some d) {sy : ℝ} (hs : 0 < sy) (pts : List (Fin 3 → ℝ)) :
    ∃ phis : List (Option ℝ), batchedYieldFunction pts sy name par = .ok phis ∧
      phis.length = pts.length ∧ ∀ k (hk : k < pts.length) (hk' : k < phis.length),
        let t := principal (piToPrincipal pts[k])
        let w := (devJ2 t + 1e-10) ^ 3 - c * devJ3 t ^ 2
        ((0 ≤ w ∧ 0 ≤ √w - d * devJ3 t) → phis[k] = some
          ((a * (b * trace t + (√w - d * devJ3 t) ^ (1 / 3 : ℝ)) - sy) / sy)) ∧
        (¬ (0 ≤ w ∧ 0 ≤ √w - d * devJ3 t) → phis[k] = none) := by
  have h : inName "lou_zhang_yoon" name = true := decide_eq_true hn
  refine ⟨_, mapM_pure _ (fun x => fdiv
    ((fpow ((devJ2 (principal (piToPrincipal x)) + 1e-10) ^ 3 -
      c * devJ3 (principal (piToPrincipal x)) ^ 2) (1 / 2)).bind fun r =>
      (fpow (r - d * devJ3 (principal (piToPrincipal x))) (1 / 3)).map fun q =>
        a * (b * trace (principal (piToPrincipal x)) + q) - sy) sy) (fun x => ?_) pts,
    List.length_map _, ?_⟩
  · simp only [yieldFunction, if_neg (not_inName hv), if_neg (not_inName hd), h, if_true,
      yfLouZhangYoon, ha, hb, hc, hdd, orRaise, (plotInvariants_eq _).1, (plotInvariants_eq _).2.1,
      (plotInvariants_eq _).2.2]
    rfl
  · intro k hk hk'
    dsimp only
    rw [List.getElem_map]
    generalize principal (piToPrincipal pts[k]) = t
    set w := (devJ2 t + 1e-10) ^ 3 - c * devJ3 t ^ 2
    simp only [fdiv, if_neg hs.ne']
    constructor
    · rintro ⟨h1, h2⟩
      rw [fpow_half h1, Option.bind_some, fpow_of_pos h2 (by norm_num)]
      rfl
    · intro hneg
      by_cases h1 : 0 ≤ w
      · rw [fpow_half h1, Option.bind_some]
        have h2 : √w - d * devJ3 t < 0 := by
          by_contra hcon
          exact hneg ⟨h1, not_lt.mp hcon⟩
        unfold fpow
        rw [if_pos (Or.inl h2)]
        rfl
      · unfold fpow
        rw [if_pos (Or.inl (not_le.mp h1))]
        rfl

/-- **C111.** A name which mentions none of the three models, or a missing parameter, is an error as
soon as there is a point. -/
theorem C111_errors {name : String} {par : String → Option ℝ} {sy : ℝ} {pts : List (Fin 3 → ℝ)}
    (hpts : pts ≠ []) :
    ((¬ "von_mises".toList <:+: name.toList ∧ ¬ "drucker_prager".toList <:+: name.toList ∧
        ¬ "lou_zhang_yoon".toList <:+: name.toList) →
      batchedYieldFunction pts sy name par = .error .runtimeError) ∧
    ((¬ "von_mises".toList <:+: name.toList ∧ "drucker_prager".toList <:+: name.toList ∧
        par "friction_angle" = none) → batchedYieldFunction pts sy name par = .error .keyError) ∧
    ((¬ "von_mises".toList <:+: name.toList ∧ ¬ "drucker_prager".toList <:+: name.toList ∧
        "lou_zhang_yoon".toList <:+: name.toList ∧ (par "yield_a" = none ∨ par "yield_b" = none ∨
          par "yield_c" = none ∨ par "yield_d" = none)) →
      batchedYieldFunction pts sy name par = .error .keyError) := by
  obtain ⟨x, l, rfl⟩ := List.exists_cons_of_ne_nil hpts
  refine ⟨?_, ?_, ?_⟩
  · rintro ⟨h1, h2, h3⟩
    simp only [batchedYieldFunction, List.mapM_cons, yieldFunction, if_neg (not_inName h1),
      if_neg (not_inName h2), if_neg (not_inName h3)]
    rfl
  · rintro ⟨h1, h2, h3⟩
    have h : inName "drucker_prager" name = true := decide_eq_true h2
    simp only [batchedYieldFunction, List.mapM_cons, yieldFunction, if_neg (not_inName h1),
      h, if_true, yfDruckerPrager, h3]
    rfl
  · rintro ⟨h1, h2, h3, h4⟩
    have h : inName "lou_zhang_yoon" name = true := decide_eq_true h3
    have : ∀ s, yfLouZhangYoon s sy par = .error .keyError := by
      intro s
      unfold yfLouZhangYoon
      cases ha : par "yield_a" with
      | none => rfl
      | some a =>
        cases hb : par "yield_b" with
        | none => rfl
        | some b =>
          cases hc : par "yield_c" with
          | none => rfl
          | some c =>
            cases hd : par "yield_d" with
            | none => rfl
            | some d => rcases h4 with h | h | h | h <;> simp_all
    simp only [batchedYieldFunction, List.mapM_cons, yieldFunction, if_neg (not_inName h1),
      if_neg (not_inName h2), h, if_true, this]
    rfl

/-! ### Agreement with the material models -/

theorem sqrt_shift {x e : ℝ} (hx : 0 ≤ x) (he : 0 ≤ e) : √x ≤ √(x + e) ∧ √(x + e) ≤ √x + √e := by
  refine ⟨Real.sqrt_le_sqrt (by linarith), ?_⟩
  rw [Real.sqrt_le_left (by positivity)]
  have h1 := Real.sq_sqrt hx
  have h2 := Real.sq_sqrt he
  have h3 : 0 ≤ √x * √e := by positivity
  nlinarith

theorem sqrtJ2_kel6 {t : T2 3} (h : IsSym t) : sqrtJ2 (kel6 t) = √(devJ2 t) := by
  rw [sqrtJ2, dev6_kel6, norm6_kel6 (deviator_isSym h), frob_sq_devJ2, Real.sqrt_div (sq_nonneg _),
    Real.sqrt_sq (by unfold frob; positivity)]

theorem vonMises_eq (t : T2 3) : vonMises t = √3 * √(devJ2 t) := by
  rw [← Real.sqrt_mul (by norm_num), ← vonMises_sq, Real.sqrt_sq]
  unfold vonMises frob
  positivity

theorem sqrt_eps : √(1e-10 : ℝ) = 1e-5 := by
  rw [show (1e-10 : ℝ) = 1e-5 ^ 2 by norm_num, Real.sqrt_sq (by norm_num)]

/-- **C111.** The Drucker-Prager value times the yield stress differs from the yield function of the
material with the parameters of the pipelines and the cohesion `σy/ξ` by at most `1e-5`, and the
von Mises value from that of the von Mises material by at most `2e-5` (in units of stress). -/
theorem C111_materials {name : String} {par : String → Option ℝ} {sy : ℝ} (hs : 0 < sy)
    (x : Fin 3 → ℝ) {v : ℝ} (h : batchedYieldFunction [x] sy name par = .ok [some v]) :
    ("von_mises".toList <:+: name.toList →
      |v * sy - (vonMises (principal (piToPrincipal x)) - sy)| ≤ 2e-5) ∧
    (¬ "von_mises".toList <:+: name.toList → "drucker_prager".toList <:+: name.toList →
      ∃ phi, par "friction_angle" = some phi ∧ ∀ E nu dilatancy,
        |v * sy - dpYield (pipelineDP E nu phi dilatancy) (kel6 (principal (piToPrincipal x)))
          (sy / (pipelineDP E nu phi dilatancy).xi)| ≤ 1e-5) := by
  have hj := devJ2_nonneg (principal (piToPrincipal x))
  obtain ⟨hsh1, hsh2⟩ := sqrt_shift hj (e := 1e-10) (by norm_num)
  rw [sqrt_eps] at hsh2
  constructor
  · intro hn
    rw [(C111_von_mises hn par hs [x]).1] at h
    simp only [List.map_cons, List.map_nil, Except.ok.injEq, List.cons.injEq, Option.some.injEq,
      and_true] at h
    rw [← h, div_mul_cancel₀ _ hs.ne', vonMises_sq, vonMises_eq,
      show 3 * devJ2 (principal (piToPrincipal x)) + 3e-10 =
        3 * (devJ2 (principal (piToPrincipal x)) + 1e-10) by norm_num; ring,
      Real.sqrt_mul (by norm_num), abs_le]
    have h3 : √(3 : ℝ) ≤ 2 := by
      rw [Real.sqrt_le_left (by norm_num)]; norm_num
    have h30 := sq3_pos
    constructor <;> nlinarith
  · intro hv hn
    cases hp : par "friction_angle" with
    | none =>
      rw [(C111_errors (by simp)).2.1 ⟨hv, hn, hp⟩] at h
      cases h
    | some phi =>
      refine ⟨phi, rfl, fun E nu dil => ?_⟩
      by_cases hc : Real.cos phi = 0
      · exfalso
        have hxi : frictionXi phi = 0 := by unfold frictionXi; rw [hc, mul_zero]
        have hnm : inName "drucker_prager" name = true := decide_eq_true hn
        simp only [batchedYieldFunction, List.mapM_cons, List.mapM_nil, yieldFunction,
          if_neg (not_inName hv), hnm, if_true, yfDruckerPrager, hp, orRaise, if_pos hxi, fdiv,
          if_neg hs.ne', bind, Except.bind, pure, Except.pure, Option.bind_none, Option.map_none,
          Except.ok.injEq, List.cons.injEq] at h
        exact absurd h.1 (by simp)
      · have hxi : (pipelineDP E nu phi dil).xi ≠ 0 := mul_ne_zero (by positivity) hc
        have h3 := sq3
        have h30 := sq3_pos
        have heta : (pipelineDP E nu phi dil).etay = √3 * Real.sin phi := by
          simp only [pipelineDP, frictionEta]
          field_simp
          linear_combination -Real.sin phi * h3
        rw [(C111_drucker_prager hv hn hp hc hs [x]).1] at h
        simp only [List.map_cons, List.map_nil, Except.ok.injEq, List.cons.injEq,
          Option.some.injEq, and_true] at h
        rw [← h, div_mul_cancel₀ _ hs.ne', dpYield, sqrtJ2_kel6 (principal_isSym _), heta,
          pressure6, tr6_kel6, mul_div_cancel₀ _ hxi, abs_le]
        constructor <;> linarith

/-- **C111.** With the parameters of the pipelines, the Drucker-Prager surface matches the
Mohr-Coulomb surface with the same friction angle and cohesion under uniaxial tension and
compression. -/
theorem C111_mohr_coulomb {E nu phi dilatancy c : ℝ} (hp : 0 ≤ Real.cos phi) (hc : 0 ≤ c) (f : ℝ) :
    dpYield (pipelineDP E nu phi dilatancy) (kel6 (principal ![f, 0, 0])) c ≤ 0 ↔
      MohrCoulomb phi c ![f, 0, 0] := by
  have h3 := sq3
  have h30 := sq3_pos
  have hsin := Real.neg_one_le_sin phi
  have hsin' := Real.sin_le_one phi
  have hcc : 0 ≤ 2 * c * Real.cos phi := by positivity
  have hj : devJ2 (principal ![f, 0, 0]) = (f / √3) ^ 2 := by
    rw [div_pow, h3]
    simp only [devJ2, deviator, trace, principal, Fin.sum_univ_three]
    simp
    ring
  have htr : trace (principal ![f, 0, 0]) = f := by
    simp [trace, principal, Fin.sum_univ_three]
  have key : dpYield (pipelineDP E nu phi dilatancy) (kel6 (principal ![f, 0, 0])) c * √3 =
      |f| + f * Real.sin phi - 2 * c * Real.cos phi := by
    rw [dpYield, sqrtJ2_kel6 (principal_isSym _), hj, Real.sqrt_sq_eq_abs, pressure6, tr6_kel6, htr,
      abs_div, abs_of_pos h30]
    simp only [pipelineDP, frictionEta, frictionXi]
    field_simp
  have hiff : dpYield (pipelineDP E nu phi dilatancy) (kel6 (principal ![f, 0, 0])) c ≤ 0 ↔
      |f| + f * Real.sin phi ≤ 2 * c * Real.cos phi := by
    rw [← sub_nonpos (b := 2 * c * Real.cos phi), ← key]
    constructor
    · intro h
      exact mul_nonpos_of_nonpos_of_nonneg h h30.le
    · intro h
      by_contra hcon
      exact absurd (mul_pos (not_le.mp hcon) h30) (not_lt.mpr h)
  rw [hiff]
  constructor
  · intro h i j
    have h1 := le_abs_self f
    have h2 := neg_abs_le f
    fin_cases i <;> fin_cases j <;> simp <;> nlinarith
  · intro h
    rcases abs_cases f with ⟨ha, hf⟩ | ⟨ha, hf⟩
    · have := h 0 1
      simp at this
      rw [ha]; linarith
    · have := h 1 0
      simp at this
      rw [ha]; linarith

/-- **C111.** With the cohesion `k/ξ`, the Drucker-Prager surface of the pipelines matches the von
Mises surface with the yield stress `√3 k` for null pressure. -/
theorem C111_null_pressure {E nu phi dilatancy k : ℝ} (hc : Real.cos phi ≠ 0) {t : T2 3}
    (ht : IsSym t) (htr : trace t = 0) :
    dpYield (pipelineDP E nu phi dilatancy) (kel6 t) (k / (pipelineDP E nu phi dilatancy).xi) ≤ 0 ↔
      vonMises t ≤ √3 * k := by
  have hxi : (pipelineDP E nu phi dilatancy).xi ≠ 0 := mul_ne_zero (by positivity) hc
  rw [dpYield, sqrtJ2_kel6 ht, pressure6, tr6_kel6, htr, mul_div_cancel₀ _ hxi, vonMises_eq,
    mul_le_mul_iff_right₀ sq3_pos]
  constructor <;> intro h <;> linarith

/-- **C111.** A Lou-Zhang-Yoon model with `a = 1` and `c = d = 0` has the values of the Drucker-Prager
model with `sin φ = √3 b`. -/
theorem C111_equivalence {n1 n2 : String} {p1 p2 : String → Option ℝ} {b phi sy : ℝ}
    (h1 : ¬ "von_mises".toList <:+: n1.toList ∧ ¬ "drucker_prager".toList <:+: n1.toList ∧
      "lou_zhang_yoon".toList <:+: n1.toList)
    (h2 : ¬ "von_mises".toList <:+: n2.toList ∧ "drucker_prager".toList <:+: n2.toList)
    (hp1 : p1 "yield_a" = some 1 ∧ p1 "yield_b" = some b ∧ p1 "yield_c" = some 0 ∧
      p1 "yield_d" = some 0) (hp2 : p2 "friction_angle" = some phi) (hs : 0 < sy)
    (hc : Real.cos phi ≠ 0) (hb : Real.sin phi = √3 * b) (pts : List (Fin 3 → ℝ)) :
    batchedYieldFunction pts sy n1 p1 = batchedYieldFunction pts sy n2 p2 := by
  rw [(C111_drucker_prager h2.1 h2.2 hp2 hc hs pts).1]
  obtain ⟨phis, e, hl, hv⟩ := C111_lou h1.1 h1.2.1 h1.2.2 hp1.1 hp1.2.1 hp1.2.2.1 hp1.2.2.2 hs pts
  rw [e]
  congr 1
  refine List.ext_getElem (by simp [hl]) fun k hk hk' => ?_
  have hkp : k < pts.length := by simpa [hl] using hk
  have := (hv k hkp hk).1
  rw [List.getElem_map]
  set t := principal (piToPrincipal pts[k])
  have hj := devJ2_nonneg t
  have hw : 0 ≤ devJ2 t + 1e-10 := by positivity
  have e3 : √((devJ2 t + 1e-10) ^ 3) = √(devJ2 t + 1e-10) ^ 3 := by
    rw [Real.sqrt_eq_iff_mul_self_eq (by positivity) (by positivity)]
    nth_rw 1 [← Real.sq_sqrt hw]
    ring
  have e4 : (√(devJ2 t + 1e-10) ^ 3) ^ (1 / 3 : ℝ) = √(devJ2 t + 1e-10) := by
    rw [← Real.rpow_natCast, ← Real.rpow_mul (Real.sqrt_nonneg _)]
    norm_num
  rw [this ⟨by simp; positivity, by simp⟩]
  simp only [zero_mul, sub_zero, e3, e4, hb]
  congr 2
  linear_combination -(b * trace t / 3) * sq3

/-! ### Plot in the pi-plane -/

theorem le_foldr_max {l : List ℕ} {a : ℕ} (h : a ∈ l) : a ≤ l.foldr max 0 := by
  induction l with
  | nil => cases h
  | cons b l ih =>
    simp only [List.foldr_cons]
    rcases List.mem_cons.mp h with rfl | h
    · exact le_max_left _ _
    · exact (ih h).trans (le_max_right _ _)

/-- **C111.** In the plot of the slices at the pi-plane each model has a pair of columns with its
points, each once, in counter-clockwise order around their mean, followed by the first of them
again, so that the curve is closed; the rest of the columns is NaN. -/
theorem C111_slice {models : List (List (ℝ × ℝ))} (h : models ≠ []) :
    ∃ data n, sliceData models = .ok data ∧ data.length = models.length ∧
      ∀ k (hk : k < models.length) (hk' : k < data.length), models[k].length ≤ n ∧
        ∃ l, l.Perm models[k] ∧ CounterClockwise (meanPoint models[k]) l ∧
          data[k] = (l ++ l.take 1).map some ++
            List.replicate (n + 1 - (l ++ l.take 1).length) none ∧
          data[k].length = n + 1 := by
  set n := (models.map List.length).foldr max 0 with hn
  have hle : ∀ m ∈ models, m.length ≤ n := fun m hm => le_foldr_max (List.mem_map_of_mem hm)
  have hcur : ∀ m : List (ℝ × ℝ), m.length ≤ n → (sliceCurve m).length ≤ n + 1 := by
    intro m hm
    simp only [sliceCurve, List.length_append, List.length_take, List.length_insertionSort]
    omega
  have hcol : ∀ m ∈ models, sliceColumns n m =
      .ok ((sliceCurve m).map some ++ List.replicate (n + 1 - (sliceCurve m).length) none) := by
    intro m hm
    simp only [sliceColumns]
    rw [(raiseIf_ok (u := ())).mpr (by have := hcur m (hle m hm); simp; omega)]
    rfl
  have hdata : sliceData models = .ok (models.map fun m =>
      (sliceCurve m).map some ++ List.replicate (n + 1 - (sliceCurve m).length) none) := by
    have hne : models.isEmpty = false := by simpa using h
    simp only [sliceData]
    rw [(raiseIf_ok (u := ())).mpr (by simp [hne])]
    simp only [bind, Except.bind, ← hn]
    clear_value n
    clear hn h hne
    induction models with
    | nil => rfl
    | cons m l ih =>
      simp only [List.mapM_cons, hcol m List.mem_cons_self, List.map_cons,
        ih (fun m hm => hle m (List.mem_cons_of_mem _ hm))
          (fun m hm => hcol m (List.mem_cons_of_mem _ hm))]
      rfl
  refine ⟨_, n, hdata, List.length_map _, fun k hk hk' => ?_⟩
  have hm : models[k] ∈ models := List.getElem_mem hk
  refine ⟨hle _ hm, models[k].insertionSort fun p q =>
    sliceAngle (sliceCentroid models[k]) p ≤ sliceAngle (sliceCentroid models[k]) q,
    List.perm_insertionSort _ _, ?_, ?_, ?_⟩
  · have : Std.Total fun p q : ℝ × ℝ =>
        sliceAngle (sliceCentroid models[k]) p ≤ sliceAngle (sliceCentroid models[k]) q :=
      ⟨fun _ _ => le_total _ _⟩
    have : IsTrans (ℝ × ℝ) fun p q =>
        sliceAngle (sliceCentroid models[k]) p ≤ sliceAngle (sliceCentroid models[k]) q :=
      ⟨fun _ _ _ => le_trans⟩
    exact List.pairwise_insertionSort _ _
  · rw [List.getElem_map]
    rfl
  · rw [List.getElem_map]
    have := hcur _ (hle _ hm)
    simp only [List.length_append, List.length_map, List.length_replicate]
    omega

/-! ### Violations -/

/-- **C111 is violated for small yield stresses.** Because of the constant added to `J₂`, the surface
plotted for a von Mises model is empty if the yield stress is at most `1.7e-5`: not even the null
stress is inside. -/
theorem C111_small_violated {name : String} (hn : "von_mises".toList <:+: name.toList)
    (par : String → Option ℝ) {sy : ℝ} (hs : 0 < sy) (hs' : sy ≤ 1.7e-5) (x : Fin 3 → ℝ) :
    ∃ v, batchedYieldFunction [x] sy name par = .ok [some v] ∧ 0 < v := by
  obtain ⟨h1, h2⟩ := C111_von_mises hn par hs [x]
  refine ⟨_, h1, ?_⟩
  by_contra hcon
  have := (h2 x).mp (not_lt.mp hcon)
  have h3 : 0 ≤ x 0 ^ 2 + x 1 ^ 2 := by positivity
  norm_num at this hs'
  nlinarith

/-- **C111 is violated for the first invariant of the deviatoric stress.** The value documented as
the first invariant of the deviatoric stress tensor is that of the stress tensor; the first
invariant of every deviator is zero. -/
theorem C111_first_invariant_violated (t : T2 3) (h : trace t ≠ 0) :
    (plotInvariants t).j1 ≠ trace (deviator t) := by
  rw [deviator_trace]
  exact h

/-- **C111 is violated for the range of the grid.** The range of the second dimension of the grid is
computed from the upper bound of the first and the lower bound of the second dimension: it is
negative whenever the grid contains the null stress. -/
theorem C111_range_violated {b : Fin 6 → ℝ} (h1 : 0 < b 1) (h2 : b 2 < 0)
    (h3 : 0 < b 3) : gridRange b 1 < 0 ∧ gridRange b 1 ≠ b 3 - b 2 := by
  have : gridRange b 1 = b 2 - b 1 := rfl
  rw [this]
  exact ⟨by linarith, fun h => by linarith⟩

/-! ### The hypotheses are met -/

example : ∃ v, batchedYieldFunction [![100, 50, 7]] 900 "von_mises" (fun _ => none) =
    .ok [some v] ∧ v ≤ 0 := by
  obtain ⟨h1, h2⟩ := C111_von_mises (name := "von_mises") (by decide) (fun _ => none)
    (sy := 900) (by norm_num) [![100, 50, 7]]
  exact ⟨_, h1, (h2 _).mpr (by simp; norm_num)⟩

example : ∃ v, batchedYieldFunction [![0, 0, 2000]] 900 "drucker_prager_4d97"
    (fun k => if k = "friction_angle" then some (Real.pi / 6) else none) = .ok [some v] ∧ 0 < v := by
  obtain ⟨h1, h2⟩ := C111_drucker_prager (name := "drucker_prager_4d97") (by decide) (by decide)
    (par := fun k => if k = "friction_angle" then some (Real.pi / 6) else none) (phi := Real.pi / 6) rfl
    (by rw [Real.cos_pi_div_six]; positivity) (sy := 900) (by norm_num) [![0, 0, 2000]]
  refine ⟨_, h1, ?_⟩
  by_contra hcon
  have := (h2 _).mp (not_lt.mp hcon)
  rw [Real.sin_pi_div_six] at this
  have h0 := Real.sqrt_nonneg (((![0, 0, 2000] : Fin 3 → ℝ) 0 ^ 2 +
    (![0, 0, 2000] : Fin 3 → ℝ) 1 ^ 2) / 2 + 1e-10)
  have h4 : (![0, 0, 2000] : Fin 3 → ℝ) 2 = 2000 := rfl
  rw [h4] at this
  linarith

example : MohrCoulomb (Real.pi / 6) 10 ![5, 0, 0] ∧ ¬ MohrCoulomb (Real.pi / 6) 10 ![30, 0, 0] := by
  have h3 : (1 : ℝ) ≤ √3 := Real.one_le_sqrt.mpr (by norm_num)
  have h4 : √(3 : ℝ) ≤ 2 := by rw [Real.sqrt_le_left (by norm_num)]; norm_num
  constructor
  · intro i j
    rw [Real.sin_pi_div_six, Real.cos_pi_div_six]
    fin_cases i <;> fin_cases j <;> simp <;> linarith
  · intro h
    have := h 0 1
    rw [Real.sin_pi_div_six, Real.cos_pi_div_six] at this
    simp at this
    linarith

end Hooke
