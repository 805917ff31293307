import Verif.Props.ConeReturn

/-!
# Histories of the Drucker-Prager model with saturating cohesion
-/

noncomputable section

namespace Hooke

open Spec

theorem hooke6_trial {p : PType} (lam G : ℝ) (old : VMState p) (inc : T2 p.dim) :
    hooke6 lam G (trial3D old inc) =
      fun k => hooke6 lam G (elastic3D old) k + hooke6 lam G (increment3D p inc) k := by
  funext k
  simp only [trial3D, hooke6, tr6]
  ring

theorem sqrtJ2_add_le (a b : V6) : sqrtJ2 (fun k => a k + b k) ≤ sqrtJ2 a + sqrtJ2 b := by
  have e : dev6 (fun k => a k + b k) = fun k => dev6 a k + dev6 b k := by
    funext k
    simp only [dev6, tr6]
    ring
  unfold sqrtJ2
  rw [e, ← add_div]
  exact div_le_div_of_nonneg_right (norm6_add_le _ _) (Real.sqrt_nonneg _)

theorem pressure6_add (a b : V6) : pressure6 (fun k => a k + b k) = pressure6 a + pressure6 b := by
  simp only [pressure6, tr6]
  ring

/-- C133b: with moderate friction parameters no history fails whose increments would each cause,
elastically, a pressure of at most five thousand and an equivalent shear stress of at most nine thousand
times the initial cohesion. -/
theorem C133_never_fails {p : PType} {m : DPParams} {law : HardLaw} {H : ℝ} (hm : GentleCohesion m H)
    (hl : Saturating law H) (hc : 1e-8 ≤ (law 0).1) (hlo : 1e-3 ≤ m.etay) (hhi : m.etay ≤ 1000)
    (hxi : m.xi ≤ 2) (incs : List (T2 p.dim))
    (hi : ∀ inc ∈ incs,
      let s := hooke6 (lame m.E m.v) (shear m.E m.v) (increment3D p inc)
      pressure6 s ≤ 5000 * (law 0).1 ∧ sqrtJ2 s + m.etay * pressure6 s ≤ 9000 * (law 0).1) :
    ∃ s, dpRun p m law incs = .good s ∧ 0 ≤ s.acc := by
  induction incs using List.reverseRecOn with
  | nil => exact ⟨dpInit p, rfl, le_rfl⟩
  | append_singleton incs inc ih =>
    obtain ⟨st, hst, hacc⟩ := ih fun i h => hi i (List.mem_append_left _ h)
    have hxip := hm.xi
    have hinv := C36_history hm.frictional.elastic
      (mul_nonneg hm.xi.le (le_trans (by norm_num) hc)) incs hst
    obtain ⟨hp1, hy1⟩ := hi inc (List.mem_append_right _ (List.mem_singleton_self _))
    have hc0 : (law 0).1 ≤ (law st.acc).1 := hl.mono 0 st.acc hacc
    have hcp : 0 < (law st.acc).1 := lt_of_lt_of_le (by norm_num) (hc.trans hc0)
    set c := (law st.acc).1 with hcd
    have htol : max 1 |m.etay| * cohesionTol c ≤ 1e-3 * c := by
      rw [cohesionTol_large (hc.trans hc0), abs_of_nonneg (by linarith [show (0:ℝ) < 1e-3 by norm_num])]
      have h1 : max 1 m.etay ≤ 1000 := max_le (by norm_num) hhi
      have h2 : 0 ≤ 1e-6 * c := by positivity
      have := mul_le_mul_of_nonneg_right h1 h2
      linarith
    have had := hinv.admissible
    rw [← hcd] at had
    rw [hinv.stress] at had
    set so := hooke6 (lame m.E m.v) (shear m.E m.v) (elastic3D st.toVMState) with hso
    set si := hooke6 (lame m.E m.v) (shear m.E m.v) (increment3D p inc) with hsi
    have hJ := sqrtJ2_nonneg so
    have hpo : pressure6 so ≤ 3000 * c := by
      by_contra hcon
      push Not at hcon
      unfold dpYield at had
      have h1 : 1e-3 * (3000 * c) ≤ m.etay * pressure6 so :=
        mul_le_mul hlo hcon.le (by positivity) (by linarith [show (0:ℝ) < 1e-3 by norm_num])
      have h2 : m.xi * c ≤ 2 * c := mul_le_mul_of_nonneg_right hxi hcp.le
      linarith
    obtain ⟨new, T, hu, hle⟩ := C133_step (p := p) (inc := inc) hm hl hc hacc (by
      rw [hooke6_trial, ← hso, ← hsi, ← hcd]
      have h1 := sqrtJ2_add_le so si
      unfold dpYield at had ⊢
      rw [pressure6_add]
      linarith) (by
      rw [hooke6_trial, ← hso, ← hsi, ← hcd, pressure6_add]
      linarith)
    refine ⟨new, ?_, hacc.trans hle⟩
    unfold dpRun at hst ⊢
    rw [List.foldl_append, hst]
    simp only [List.foldl_cons, List.foldl_nil, dpStep, hu]

/-- C133c: in particular with a table of the cohesion which starts at zero plastic strain and has
nondecreasing ordinates and nonincreasing slopes. -/
theorem C133_table {p : PType} {m : DPParams} {pts : List (ℝ × ℝ)} (ht : ConcaveTable pts)
    (hm : GentleCohesion m (segmentSlope pts 0)) (hc : 1e-8 ≤ (pts.getD 0 0).2) (hlo : 1e-3 ≤ m.etay)
    (hhi : m.etay ≤ 1000) (hxi : m.xi ≤ 2) (incs : List (T2 p.dim))
    (hi : ∀ inc ∈ incs,
      let s := hooke6 (lame m.E m.v) (shear m.E m.v) (increment3D p inc)
      pressure6 s ≤ 5000 * (pts.getD 0 0).2 ∧
        sqrtJ2 s + m.etay * pressure6 s ≤ 9000 * (pts.getD 0 0).2) :
    ∃ s, dpRun p m (piecewiseLinear pts) incs = .good s ∧ 0 ≤ s.acc := by
  have h2 := ht.table.two
  have e0 : (piecewiseLinear pts 0).1 = (pts.getD 0 0).2 := by
    have hz : (pts[0]).1 = 0 := by rw [← ht.zero, getD_row (by omega : 0 < pts.length)]
    have := C26_interpolates ht.table (i := 0) (by omega) (by rw [hz])
    rw [hz] at this
    rw [this, getD_row (by omega : 0 < pts.length)]
  exact C133_never_fails hm (C132_table ht) (by rw [e0]; exact hc) hlo hhi hxi incs
    (by rw [e0]; exact hi)

/-- **C133 is violated for steep cohesion.**  For every table of the cohesion which starts at zero plastic
strain, a first plastic step whose first iterate is beyond the last abscissa although the yield function of
the trial stress at the last ordinate is not positive never converges: the iterates of the return to the
cone alternate between two values and the state update fails. -/
theorem C133_steep_violated {p : PType} {m : DPParams} (hm : Frictional m) (hxi : 0 < m.xi)
    {pts : List (ℝ × ℝ)} (ht : ConcaveTable pts) (hs : 1e-8 ≤ (pts.getD 0 0).2) {inc : T2 p.dim}
    {old : DPState p} (hacc : old.acc = 0)
    (hgap : (1e-6 : ℝ) * (pts.getD (pts.length - 1) 0).2 ≤
      m.xi * ((pts.getD (pts.length - 1) 0).2 - (pts.getD 0 0).2))
    (hpl : 1e-6 * (pts.getD 0 0).2 <
      dpYield m (hooke6 (lame m.E m.v) (shear m.E m.v) (trial3D old.toVMState inc)) (pts.getD 0 0).2)
    (hlo : (pts.getD (pts.length - 1) 0).1 * (shear m.E m.v + bulk m.E m.v * m.etaf * m.etay) ≤
      m.xi * dpYield m (hooke6 (lame m.E m.v) (shear m.E m.v) (trial3D old.toVMState inc)) (pts.getD 0 0).2)
    (hhi : dpYield m (hooke6 (lame m.E m.v) (shear m.E m.v) (trial3D old.toVMState inc))
      (pts.getD (pts.length - 1) 0).2 ≤ 0) :
    ∃ s T, dpUpdate p m (piecewiseLinear pts) inc old = (.nan s, T) := by
  have hG := hm.elastic.shear_pos
  have hK := hm.elastic.bulk_pos
  have g2 := hm.etay; have g3 := hm.etaf
  have h2 := ht.table.two
  have hl := C132_table ht
  set s := hooke6 (lame m.E m.v) (shear m.E m.v) (trial3D old.toVMState inc) with hsd
  set s0 := (pts.getD 0 0).2 with hs0
  set a := (pts.getD (pts.length - 1) 0).1 with had
  set s1 := (pts.getD (pts.length - 1) 0).2 with hs1
  set D := shear m.E m.v + bulk m.E m.v * m.etaf * m.etay with hD
  have hDp : 0 < D := by positivity
  have er : pts.getD (pts.length - 1) 0 = pts[pts.length - 1] := getD_row (by omega)
  have e0 : pts.getD 0 0 = pts[0] := getD_row (by omega)
  have hz : (pts[0]).1 = 0 := by rw [← e0]; exact ht.zero
  have hlaw0 : piecewiseLinear pts 0 = (s0, 0) := by
    have h3 := C26_interpolates ht.table (i := 0) (by omega) (by rw [hz])
    have h4 := C26_slope_at_points ht.table (i := 0) (by omega) (by rw [hz])
    rw [if_pos rfl] at h4
    rw [hz] at h3 h4
    exact Prod.ext (by rw [h3, hs0, e0]) h4
  have ha0 : 0 < a := by
    rw [had, er, ← hz]
    exact ht.table.lt (by omega) (by omega)
  have hlast : ∀ x, a ≤ x → piecewiseLinear pts x = (s1, 0) := by
    intro x hx
    rw [had, er] at hx
    rw [table_last ht.table (by rw [had, er] at ha0; linarith) hx, hs1, er]
  have hs0p : 0 < s0 := lt_of_lt_of_le (by norm_num) hs
  have hdiff : 0 < s1 - s0 := by
    unfold dpYield at hhi hpl
    have : m.xi * s0 < m.xi * s1 := by linarith [show 0 < 1e-6 * s0 by positivity]
    linarith [lt_of_mul_lt_mul_left this hxi.le]
  rw [C36_failure_iff]
  refine ⟨?_, Or.inl ?_⟩
  · unfold DPTrialElastic
    rw [hacc, hlaw0, ← hsd]
    simp only
    rw [cohesionTol_large hs]
    exact not_le.mpr hpl
  · set f := coneEquation m (piecewiseLinear pts) old inc with hf
    have hKG : ∀ z, f z = ⟨sqrtJ2 s - shear m.E m.v * z +
        m.etay * (pressure6 s - bulk m.E m.v * m.etaf * z) - m.xi * (piecewiseLinear pts (m.xi * z)).1,
        (piecewiseLinear pts (m.xi * z)).1, -shear m.E m.v - bulk m.E m.v * m.etaf * m.etay -
        m.xi ^ 2 * (piecewiseLinear pts (m.xi * z)).2⟩ := by
      intro z
      simp only [hf, coneEquation, hacc, zero_add, ← hsd]
    have hlow : ∀ z, z ≤ 0 → f z = ⟨dpYield m s s0 - D * z, s0, -D⟩ := by
      intro z hz
      rw [hKG, hl.below (m.xi * z) (mul_nonpos_of_nonneg_of_nonpos hxi.le hz), hlaw0, dpYield, hD]
      simp only [NewtonEval.mk.injEq]
      exact ⟨by ring, trivial, by ring⟩
    have hhigh : ∀ z, a ≤ m.xi * z → f z = ⟨dpYield m s s1 - D * z, s1, -D⟩ := by
      intro z hz
      rw [hKG, hlast _ hz, dpYield, hD]
      simp only [NewtonEval.mk.injEq]
      exact ⟨by ring, trivial, by ring⟩
    set x1 := dpYield m s s0 / D with hx1
    set x2 := dpYield m s s1 / D with hx2
    have m1 : D * x1 = dpYield m s s0 := by rw [hx1]; field_simp
    have m2 : D * x2 = dpYield m s s1 := by rw [hx2]; field_simp
    have hy01 : dpYield m s s1 - dpYield m s s0 = -(m.xi * (s1 - s0)) := by
      unfold dpYield; ring
    have hx1a : a ≤ m.xi * x1 := by
      rw [hx1, ← mul_div_assoc, le_div_iff₀ hDp]
      exact hlo
    have hx2n : x2 ≤ 0 := div_nonpos_of_nonpos_of_nonneg hhi hDp.le
    have next_low : ∀ (k : ℕ) (z : ℝ), newtonIterate f k = some z → z ≤ 0 →
        newtonIterate f (k + 1) = some x1 := by
      intro k z hk hz
      have hj : (f z).jacobian ≠ 0 := by rw [hlow z hz]; exact neg_ne_zero.mpr hDp.ne'
      rw [newtonIterate_succ hk hj, hlow z hz, hx1]
      congr 1
      simp only
      field_simp
      ring
    have next_high : ∀ (k : ℕ) (z : ℝ), newtonIterate f k = some z → a ≤ m.xi * z →
        newtonIterate f (k + 1) = some x2 := by
      intro k z hk hz
      have hj : (f z).jacobian ≠ 0 := by rw [hhigh z hz]; exact neg_ne_zero.mpr hDp.ne'
      rw [newtonIterate_succ hk hj, hhigh z hz, hx2]
      congr 1
      simp only
      field_simp
      ring
    have hit : ∀ k : ℕ, newtonIterate f (k + 1) = some x1 ∨ newtonIterate f (k + 1) = some x2 := by
      intro k
      induction k with
      | zero => exact Or.inl (next_low 0 0 rfl le_rfl)
      | succ k ih =>
        rcases ih with h | h
        · exact Or.inr (next_high _ _ h hx1a)
        · exact Or.inl (next_low _ _ h hx2n)
    have hxd : 0 < m.xi * (s1 - s0) := mul_pos hxi hdiff
    intro k hk _ z hz hcv
    obtain ⟨j, rfl⟩ : ∃ j, k = j + 1 := ⟨k - 1, by omega⟩
    rcases hit j with h | h
    · obtain rfl : x1 = z := by rw [h] at hz; exact Option.some.inj hz
      rw [hhigh x1 hx1a] at hcv
      simp only at hcv
      rw [m1, hy01, abs_neg, abs_of_pos hxd, cohesionTol_large (by linarith)] at hcv
      linarith
    · obtain rfl : x2 = z := by rw [h] at hz; exact Option.some.inj hz
      rw [hlow x2 hx2n] at hcv
      simp only at hcv
      rw [m2, show dpYield m s s0 - dpYield m s s1 = m.xi * (s1 - s0) by linarith, abs_of_pos hxd,
        cohesionTol_large hs] at hcv
      linarith

/-! ### Non-vacuity -/

/-- A gently saturating cohesion. -/
def gentleTable : List (ℝ × ℝ) := [(0, 1), (20, 2), (60, 3)]

theorem gentleTable_concave : ConcaveTable gentleTable := by
  refine ⟨⟨by decide, ?_⟩, rfl, ?_, ?_⟩ <;> intro i h <;> simp only [gentleTable, List.length_cons, List.length_nil] at h
  · have hi : i < 2 := by omega
    interval_cases i <;> norm_num [gentleTable]
  · have hi : i < 2 := by omega
    interval_cases i <;> norm_num [gentleTable]
  · have hi : i < 1 := by omega
    interval_cases i; norm_num [gentleTable, segmentSlope]

/-- Example material. -/
def dpExample : DPParams := ⟨1, 0, 1, 1 / 2, 1 / 2⟩

theorem dpExample_frictional : Frictional dpExample :=
  ⟨admissible_one, by norm_num [dpExample], by norm_num [dpExample], by norm_num [dpExample]⟩

theorem uniInc_stress (d : ℝ) :
    hooke6 (lame 1 0) (shear 1 0) (increment3D .solid (uniInc d)) = ![d, 0, 0, 0, 0, 0] := by
  funext k
  fin_cases k <;>
    simp [hooke6, lame, shear, increment3D, to3D, mf, kel6, uniInc, one6, tr6, ci, cj, kf]

theorem uniInc_pressure (d : ℝ) : pressure6 ![d, 0, 0, 0, 0, 0] = d / 3 := by
  simp [pressure6, tr6]

theorem uniInc_shear (d : ℝ) : sqrtJ2 ![d, 0, 0, 0, 0, 0] ≤ |d| := by
  unfold sqrtJ2
  have h1 := norm6_dev6_le ![d, 0, 0, 0, 0, 0]
  have h2 : norm6 ![d, 0, 0, 0, 0, 0] = |d| := by
    rw [norm6, ← Real.sqrt_sq_eq_abs]
    congr 1
    simp [Fin.sum_univ_six]
  rw [h2] at h1
  have h3 : (1 : ℝ) ≤ √2 := by
    rw [← Real.sqrt_one]
    exact Real.sqrt_le_sqrt (by norm_num)
  calc norm6 (dev6 ![d, 0, 0, 0, 0, 0]) / √2 ≤ norm6 (dev6 ![d, 0, 0, 0, 0, 0]) :=
        div_le_self (norm6_nonneg _) h3
    _ ≤ |d| := h1

example : ∃ s, dpRun .solid dpExample (piecewiseLinear gentleTable) [uniInc 3, uniInc (-1)] = .good s ∧
    0 ≤ s.acc := by
  refine C133_table gentleTable_concave ⟨dpExample_frictional, ?_, ?_, ?_⟩ ?_ ?_ ?_ ?_ _ ?_
  · norm_num [dpExample]
  · norm_num [dpExample, segmentSlope, gentleTable, shear, bulk]
  · norm_num [dpExample, segmentSlope, gentleTable, shear, bulk]
  · norm_num [gentleTable]
  · norm_num [dpExample]
  · norm_num [dpExample]
  · norm_num [dpExample]
  · intro inc hm
    simp only [List.mem_cons, List.not_mem_nil, or_false] at hm
    change pressure6 (hooke6 (lame 1 0) (shear 1 0) _) ≤ 5000 * 1 ∧ sqrtJ2 (hooke6 (lame 1 0) (shear 1 0) _) +
      1 / 2 * pressure6 (hooke6 (lame 1 0) (shear 1 0) _) ≤ 9000 * 1
    rcases hm with rfl | rfl
    · rw [uniInc_stress, uniInc_pressure]
      have := uniInc_shear 3
      rw [abs_of_pos (by norm_num)] at this
      exact ⟨by norm_num, by linarith⟩
    · rw [uniInc_stress, uniInc_pressure]
      have := uniInc_shear (-1)
      rw [abs_neg, abs_one] at this
      exact ⟨by norm_num, by linarith⟩

/-- A steeply saturating cohesion. -/
def steepCohesion : List (ℝ × ℝ) := [(0, 1), (1 / 10, 100)]

example : ∃ s T, dpUpdate .solid dpExample (piecewiseLinear steepCohesion) (uniInc 30) (dpInit .solid) =
    (.nan s, T) := by
  have hcon : ConcaveTable steepCohesion := by
    refine ⟨⟨by decide, ?_⟩, rfl, ?_, ?_⟩ <;> intro i h <;>
      simp only [steepCohesion, List.length_cons, List.length_nil] at h
    · have hi : i < 1 := by omega
      interval_cases i; norm_num [steepCohesion]
    · have hi : i < 1 := by omega
      interval_cases i; norm_num [steepCohesion]
    · omega
  have ht : hooke6 (lame dpExample.E dpExample.v) (shear dpExample.E dpExample.v)
      (trial3D (dpInit .solid).toVMState (uniInc 30)) = ![30, 0, 0, 0, 0, 0] := by
    rw [hooke6_trial, ← uniInc_stress]
    funext k
    simp [hooke6, elastic3D, dpInit, vmInit, to3D, mf, kel6, tr6, dpExample]
  have h1 := uniInc_shear 30
  rw [abs_of_pos (by norm_num)] at h1
  have h0 := sqrtJ2_nonneg ![30, 0, 0, 0, 0, 0]
  have hp := uniInc_pressure 30
  have hy : ∀ c, dpYield dpExample ![30, 0, 0, 0, 0, 0] c = sqrtJ2 ![30, 0, 0, 0, 0, 0] + 5 - c := by
    intro c
    rw [dpYield, hp]
    norm_num [dpExample]
  refine C133_steep_violated dpExample_frictional (by norm_num [dpExample]) hcon (by norm_num [steepCohesion])
    rfl (by norm_num [steepCohesion, dpExample]) ?_ ?_ ?_ <;> rw [ht, hy]
  · change 1e-6 * (1 : ℝ) < _ + 5 - 1
    linarith
  · change (1 / 10 : ℝ) * _ ≤ dpExample.xi * (_ + 5 - 1)
    norm_num [dpExample, shear, bulk]
    linarith
  · change sqrtJ2 ![30, 0, 0, 0, 0, 0] + 5 - 100 ≤ 0
    linarith

end Hooke
