import Verif.Props.ReturnMappingTables
import Verif.Props.LmuParameters
import Mathlib.Analysis.Convex.SpecificFunctions.Basic
import Mathlib.Analysis.InnerProductSpace.PiL2

/-!
# Convergence of the return mapping: steps, histories, accuracy, and the failure for steep tables
-/

noncomputable section

namespace Hooke

open Spec

/-! ### Steps and histories -/

/-- C132a: with a saturating hardening law whose slopes are below three times the shear modulus, a step
of any size up to a trial stress of ten thousand yield stresses succeeds, from every state. -/
theorem C132_step {p : PType} {E v H : ℝ} {law : HardLaw} (hA : Admissible E v) (hl : Saturating law H)
    (hH : H < 3 * shear E v) (hs : 0 < (law 0).1) {inc : T2 p.dim} {old : VMState p} (hacc : 0 ≤ old.acc)
    (hb : vm6 (hooke6 (lame E v) (shear E v) (trial3D old inc)) ≤ 10000 * (law old.acc).1) :
    ∃ new T, vmUpdate p E v law inc old = (.good new, T) := by
  cases hu : vmUpdate p E v law inc old with
  | mk st T =>
    cases st with
    | good new => exact ⟨new, T, rfl⟩
    | nan sn =>
      exfalso
      obtain ⟨h1, h2⟩ := vmReturn_none.mp (vmUpdate_nan.mp ⟨sn, T, hu⟩)
      have hsa : 0 < (law old.acc).1 := hs.trans_le (hl.mono 0 old.acc hacc)
      have hq : (law old.acc).1 ≤ vm6 (hooke6 (lame E v) (shear E v) (trial3D old inc)) := by
        by_contra hcon
        push Not at hcon
        refine h1 ⟨hsa.ne', ?_⟩
        have : (vm6 (hooke6 (lame E v) (shear E v) (trial3D old inc)) - (law old.acc).1) /
            (law old.acc).1 ≤ 0 := div_nonpos_of_nonpos_of_nonneg (by linarith) hsa.le
        exact this.trans suTol_pos.le
      obtain ⟨y, hy, -⟩ := newton_saturating hl hA.shear_pos hH hs hacc hq hb
      rw [hy] at h2
      cases h2

theorem norm6_add_le (a b : V6) : norm6 (fun k => a k + b k) ≤ norm6 a + norm6 b := by
  have e : ∀ w : V6, norm6 w = ‖(WithLp.toLp 2 w : EuclideanSpace ℝ (Fin 6))‖ := by
    intro w
    rw [EuclideanSpace.norm_eq]
    simp [norm6]
  rw [e, e, e]
  exact norm_add_le (WithLp.toLp 2 a : EuclideanSpace ℝ (Fin 6)) (WithLp.toLp 2 b)

theorem vm6_add_le (lam G : ℝ) (a b : V6) :
    vm6 (hooke6 lam G fun k => a k + b k) ≤ vm6 (hooke6 lam G a) + vm6 (hooke6 lam G b) := by
  have e : dev6 (hooke6 lam G fun k => a k + b k) =
      fun k => dev6 (hooke6 lam G a) k + dev6 (hooke6 lam G b) k := by
    funext k
    simp only [dev6, hooke6, tr6]
    ring
  rw [vm6_eq, vm6_eq, vm6_eq, e, ← mul_add]
  exact mul_le_mul_of_nonneg_left (norm6_add_le _ _) (Real.sqrt_nonneg _)

/-- C132b: no history fails whose strain increments would each cause, elastically, at most nine thousand
times the initial yield stress. -/
theorem C132_never_fails {p : PType} {E v H : ℝ} {law : HardLaw} (hA : Admissible E v)
    (hl : Saturating law H) (hH : H < 3 * shear E v) (hs : 2e-8 ≤ (law 0).1) (incs : List (T2 p.dim))
    (hi : ∀ inc ∈ incs, elasticStep p E v inc ≤ 9000 * (law 0).1) :
    ∃ s, vmRun p E v law incs = .good s := by
  have hs0 : 0 < (law 0).1 := by linarith [show (0:ℝ) < 2e-8 by norm_num]
  have hpos : ∀ x, 2e-8 ≤ (law x).1 := by
    intro x
    rcases le_total x 0 with hx | hx
    · rw [hl.below x hx]; exact hs
    · exact hs.trans (hl.mono 0 x hx)
  suffices K : ∀ (incs : List (T2 p.dim)) (st : VMState p) (total : T2 p.dim),
      (∀ inc ∈ incs, elasticStep p E v inc ≤ 9000 * (law 0).1) →
      HistoryInvariant E v law total st →
      ∃ s, incs.foldl (vmStep p E v law) (.good st) = .good s by
    exact K incs (vmInit p) 0 hi (history_init p hpos)
  intro incs
  induction incs with
  | nil => intro st _ _ _; exact ⟨st, rfl⟩
  | cons inc incs ih =>
    intro st total hi hst
    have hla : (law 0).1 ≤ (law st.acc).1 := hl.mono 0 st.acc hst.acc
    have hq : vm6 (hooke6 (lame E v) (shear E v) (trial3D st inc)) ≤ 10000 * (law st.acc).1 := by
      have h1 := vm6_add_le (lame E v) (shear E v) (elastic3D st) (increment3D p inc)
      have h2 := hst.admissible
      rw [hst.stress] at h2
      have h3 := hi inc (List.mem_cons_self ..)
      unfold elasticStep at h3
      have h4 : (1 + 1e-6) * (law st.acc).1 ≤ 2 * (law st.acc).1 :=
        mul_le_mul_of_nonneg_right (by norm_num) (by linarith)
      change vm6 (hooke6 _ _ fun k => elastic3D st k + increment3D p inc k) ≤ _
      linarith
    obtain ⟨new, T, hu⟩ := C132_step hA hl hH hs0 hst.acc hq
    simp only [List.foldl_cons, vmStep, hu]
    exact ih new (total + inc) (fun i h => hi i (List.mem_cons_of_mem _ h))
      (history_step hA hl.mono hpos hu hst)

/-! ### Accuracy -/

theorem Spec.Saturating.lipschitz {law : HardLaw} {H : ℝ} (h : Saturating law H) {x y : ℝ} (hx : 0 ≤ x)
    (hxy : x ≤ y) : (law y).1 ≤ (law x).1 + H * (y - x) := by
  rcases hx.lt_or_eq with hx | hx
  · have h1 := h.tangent x y hx (hx.le.trans hxy)
    have h2 := mul_le_mul_of_nonneg_right (h.slope x hx).2 (sub_nonneg.mpr hxy)
    linarith
  · rw [← hx, sub_zero]
    exact h.growth y (by rw [hx]; exact hxy)

theorem Spec.Saturating.continuousOn {law : HardLaw} {H : ℝ} (h : Saturating law H) :
    ContinuousOn (fun x => (law x).1) (Set.Ici 0) := by
  have hH := h.slope_nonneg
  have : LipschitzOnWith ⟨H, hH⟩ (fun x => (law x).1) (Set.Ici 0) := by
    refine LipschitzOnWith.of_dist_le_mul fun x hx y hy => ?_
    rw [Real.dist_eq, Real.dist_eq]
    rcases le_total x y with hxy | hxy
    · have h1 := h.lipschitz hx hxy
      have h2 := h.mono x y hxy
      rw [abs_of_nonpos (by linarith), abs_of_nonpos (by linarith)]
      change _ ≤ H * _
      linarith
    · have h1 := h.lipschitz hy hxy
      have h2 := h.mono y x hxy
      rw [abs_of_nonneg (by linarith), abs_of_nonneg (by linarith)]
      change _ ≤ H * _
      linarith
  exact this.continuousOn

/-- C132c: the return mapping has exactly one exact solution, and the accumulated plastic strain found
by a plastic step differs from it by less than a millionth of the yield stress over three times the
shear modulus. -/
theorem C132_accuracy {p : PType} {E v H : ℝ} {law : HardLaw} (hA : Admissible E v)
    (hl : Saturating law H) (hs : 2e-8 ≤ (law 0).1) {inc : T2 p.dim} {old new : VMState p}
    {T : Option (Fin p.len → Fin p.len → ℝ)} (hacc : 0 ≤ old.acc)
    (h : vmUpdate p E v law inc old = (.good new, T)) (hp : new.isPlast = true) :
    ∃ x : ℝ, 0 < x ∧
      (∀ y, 0 ≤ y → (vm6 (hooke6 (lame E v) (shear E v) (trial3D old inc)) - 3 * shear E v * y =
        (law (old.acc + y)).1 ↔ y = x)) ∧
      |new.acc - (old.acc + x)| < 1e-6 * (law new.acc).1 / (3 * shear E v) := by
  have hG := hA.shear_pos
  have hpos : ∀ x, 2e-8 ≤ (law x).1 := by
    intro x
    rcases le_total x 0 with hx | hx
    · rw [hl.below x hx]; exact hs
    · exact hs.trans (hl.mono 0 x hx)
  obtain ⟨-, -, hel, hpl⟩ := C28_success h
  have hne : ¬ TrialElastic E v law old inc := by rw [← hel, hp]; simp
  obtain ⟨-, hq⟩ := trial_dev_large (hpos old.acc) hne
  obtain ⟨k, z, -, -, -, hcv, -, hz⟩ := hpl hp
  have hinc := (C31_accumulated hA hl.mono hpos h).1 hp
  set q := vm6 (hooke6 (lame E v) (shear E v) (trial3D old inc)) with hqd
  have hp0 := hpos old.acc
  have hq' : (law old.acc).1 < q := by nlinarith
  -- the exact solution
  have hcont : ContinuousOn (fun y => 3 * shear E v * y + (law (old.acc + y)).1)
      (Set.Icc 0 (q / (3 * shear E v))) := by
    refine ContinuousOn.add (by fun_prop) ?_
    refine ContinuousOn.comp (g := fun x => (law x).1) (f := fun y => old.acc + y) hl.continuousOn
      (by fun_prop) ?_
    intro y hy
    have := hy.1
    exact Set.mem_Ici.mpr (by linarith)
  have hq0 : 0 ≤ q / (3 * shear E v) := div_nonneg (by linarith) (by linarith)
  have hend : 3 * shear E v * (q / (3 * shear E v)) = q := by field_simp
  obtain ⟨x, hx, hxe⟩ := intermediate_value_Icc hq0 hcont
    (show q ∈ _ from ⟨by simp only [mul_zero, add_zero, zero_add]; exact hq'.le, by
      simp only [hend]; linarith [hpos (old.acc + q / (3 * shear E v))]⟩)
  simp only at hxe
  have hx0 : 0 < x := by
    rcases hx.1.lt_or_eq with h0 | h0
    · exact h0
    · rw [← h0, mul_zero, add_zero, zero_add] at hxe
      linarith
  refine ⟨x, hx0, fun y hy => ⟨fun he => ?_, fun he => ?_⟩, ?_⟩
  · rcases lt_trichotomy y x with hlt | heq | hgt
    · have h1 := hl.mono (old.acc + y) (old.acc + x) (by linarith)
      nlinarith
    · exact heq
    · have h1 := hl.mono (old.acc + x) (old.acc + y) (by linarith)
      nlinarith
  · subst he; linarith
  · obtain ⟨-, hcv⟩ := hcv
    simp only [plasticEquation] at hcv
    rw [← hz, ← hqd, abs_of_pos (a := (law new.acc).1)
      (lt_of_lt_of_le (by norm_num) (hpos new.acc))] at hcv
    have hzz : z = new.acc - old.acc := by linarith
    rw [lt_div_iff₀ (by linarith)]
    have e : |new.acc - (old.acc + x)| * (3 * shear E v) ≤ |q - 3 * shear E v * z - (law new.acc).1| := by
      rcases le_total x z with hle | hle
      · have h1 := hl.mono (old.acc + x) new.acc (by linarith)
        rw [abs_of_nonneg (by linarith), abs_of_nonpos (by nlinarith)]
        nlinarith
      · have h1 := hl.mono new.acc (old.acc + x) (by linarith)
        rw [abs_of_nonpos (by linarith), abs_of_nonneg (by nlinarith)]
        nlinarith
    linarith

/-! ### Power-law hardening -/

theorem rpow_tangent {b u w : ℝ} (h0 : 0 ≤ b) (h1 : b ≤ 1) (hu : 0 < u) (hw : 0 ≤ w) :
    w ^ b ≤ u ^ b + b * u ^ (b - 1) * (w - u) := by
  have h2 := rpow_one_add_le_one_add_mul_self (s := (w - u) / u) (by
    rw [le_div_iff₀ hu]; linarith) h0 h1
  have e1 : 1 + (w - u) / u = w / u := by field_simp; ring
  rw [e1, Real.div_rpow hw hu.le, div_le_iff₀ (Real.rpow_pos_of_pos hu b)] at h2
  have e2 : u ^ b = u ^ (b - 1) * u := by
    rw [← Real.rpow_add_one hu.ne']; ring_nf
  calc w ^ b ≤ (1 + b * ((w - u) / u)) * u ^ b := h2
    _ = u ^ b + b * ((w - u) / u) * u ^ b := by ring
    _ = u ^ b + b * u ^ (b - 1) * (w - u) := by
      congr 1
      rw [e2]
      field_simp

/-- C132f: Nadai-Ludwik hardening with a nonnegative factor, an exponent between zero and one and a
positive initial plastic strain is saturating. -/
theorem C132_nadai {s0 a b ep0 : ℝ} (ha : 0 ≤ a) (hb : 0 ≤ b) (hb1 : b ≤ 1) (he : 0 < ep0) :
    Saturating (nadaiLudwik s0 a b ep0) (a * b * (2 * ep0) ^ (b - 1)) := by
  have e : ∀ x, 0 ≤ x → nadaiLudwik s0 a b ep0 x =
      (s0 + a * (x + 2 * ep0) ^ b, a * b * (x + 2 * ep0) ^ (b - 1)) := by
    intro x hx
    have : relu x + ep0 + ep0 = x + 2 * ep0 := by simp only [relu, max_eq_left hx]; ring
    simp only [nadaiLudwik, this]
  have hab : 0 ≤ a * b := mul_nonneg ha hb
  have htan : ∀ x y, 0 ≤ x → 0 ≤ y → a * (y + 2 * ep0) ^ b ≤
      a * (x + 2 * ep0) ^ b + a * b * (x + 2 * ep0) ^ (b - 1) * (y - x) := by
    intro x y hx hy
    have := mul_le_mul_of_nonneg_left
      (rpow_tangent hb hb1 (show 0 < x + 2 * ep0 by linarith) (show 0 ≤ y + 2 * ep0 by linarith)) ha
    have e2 : y + 2 * ep0 - (x + 2 * ep0) = y - x := by ring
    rw [e2] at this
    linarith
  refine ⟨fun x hx => ?_, fun x y hx hy => ?_, fun x hx => ?_, fun y hy => ?_, Or.inr ?_⟩
  · simp only [nadaiLudwik, relu, max_eq_right hx, max_self]
  · rw [e x hx.le, e y hy]
    have := htan x y hx.le hy
    simp only
    linarith
  · rw [e x hx.le]
    refine ⟨mul_nonneg hab (Real.rpow_nonneg (by linarith) _), mul_le_mul_of_nonneg_left ?_ hab⟩
    exact Real.antitoneOn_rpow_Ioi_of_exponent_nonpos (by linarith) (Set.mem_Ioi.mpr (by linarith))
      (Set.mem_Ioi.mpr (by linarith)) (by linarith)
  · rw [e 0 le_rfl, e y hy]
    have := htan 0 y le_rfl hy
    simp only [zero_add, sub_zero] at this ⊢
    linarith
  · rw [e 0 le_rfl, zero_add]

/-! ### The temperature and composition dependent material -/

theorem tcYield_lower {T C : ℝ} (h : TcAdmissible T C) : 100 < tcYield T C := by
  obtain ⟨h1, h2, h3, h4⟩ := norm_bounds h
  unfold tcYield
  have e1 : 0 < 25.107 - 47.582 * normC C + 39.738 * normC C ^ 2 := by
    nlinarith [sq_nonneg (normC C - 0.6)]
  have e2 : 100 < 541.225 - 74.391 * normC C - 121.669 * normC C ^ 2 + 29.518 * normC C ^ 3 +
      20.025 * normC C ^ 4 := by
    nlinarith [sq_nonneg (normC C), sq_nonneg (normC C ^ 2 - 2), mul_nonneg (sub_nonneg.mpr h3) (sub_nonneg.mpr h4)]
  have := mul_pos e1 (Real.exp_pos (-(0.883 + 0.018 * normC C - 0.091 * normC C ^ 2) * normT T))
  linarith

theorem ptsOf_concave {n : ℕ} (hn : 2 ≤ n) (s0 : ℝ) {s1 : ℝ} (h1 : 0 ≤ s1) :
    ConcaveTable (ptsOf n s0 s1) ∧ segmentSlope (ptsOf n s0 s1) 0 = s1 := by
  have ht := ptsOf_table hn s0 s1
  have hs : ∀ i : ℕ, i + 1 < (ptsOf n s0 s1).length → segmentSlope (ptsOf n s0 s1) i = s1 := by
    intro i hi
    have h1 := ht.incr i hi
    rw [segmentSlope_eq hi, (ptsOf_get hi).2, (ptsOf_get (by omega : i < (ptsOf n s0 s1).length)).2]
    generalize (ptsOf n s0 s1)[i].1 = a at *
    generalize (ptsOf n s0 s1)[i + 1].1 = b at *
    have : b - a ≠ 0 := by linarith
    field_simp
    ring
  have h0 : 0 < (ptsOf n s0 s1).length := by rw [ptsOf_length]; omega
  refine ⟨⟨ht, ?_, fun i hi => ?_, fun i hi => ?_⟩, hs 0 (by rw [ptsOf_length]; omega)⟩
  · rw [getD_row h0]
    exact (ptsOf_ends hn s0 s1).1
  · rw [(ptsOf_get hi).2, (ptsOf_get (by omega : i < (ptsOf n s0 s1).length)).2]
    have := mul_le_mul_of_nonneg_left (ht.incr i hi).le h1
    linarith
  · rw [hs i (by omega), hs (i + 1) hi]

theorem norm6_dev6_le (w : V6) : norm6 (dev6 w) ≤ norm6 w := by
  unfold norm6
  refine Real.sqrt_le_sqrt ?_
  simp only [Fin.sum_univ_six, dev6, tr6, one6, Matrix.cons_val]
  nlinarith [sq_nonneg (w 0 + w 1 + w 2)]

theorem increment_norm {p : PType} {inc : T2 p.dim} (h : ∀ i j, |inc i j| ≤ 1) :
    norm6 (increment3D p inc) ≤ 3 := by
  have sq : ∀ i j, inc i j ^ 2 ≤ 1 := fun i j => by
    rw [← sq_abs]
    have := abs_nonneg (inc i j)
    nlinarith [h i j]
  unfold norm6
  rw [Real.sqrt_le_left (by norm_num)]
  have s2 : √(2 : ℝ) ^ 2 = 2 := Real.sq_sqrt (by norm_num)
  cases p
  · simp only [Fin.sum_univ_six, increment3D, to3D, mf, Matrix.cons_val, mul_pow, s2]
    nlinarith [sq 0 0, sq 1 1, sq 0 1]
  · simp only [Fin.sum_univ_six, increment3D, to3D, mf, kel6, ci, cj, kf, Matrix.cons_val, mul_pow, s2]
    nlinarith [sq 0 0, sq 1 1, sq 2 2, sq 0 1, sq 1 2, sq 0 2]

theorem elasticStep_le {p : PType} {E v : ℝ} (hG : 0 ≤ shear E v) {inc : T2 p.dim}
    (h : ∀ i j, |inc i j| ≤ 1) : elasticStep p E v inc ≤ 12 * shear E v := by
  unfold elasticStep
  rw [vm6_eq, dev6_hooke6, norm6_smul, abs_of_nonneg (by linarith)]
  have h1 := (norm6_dev6_le _).trans (increment_norm h)
  have h2 := norm6_nonneg (dev6 (increment3D p inc))
  have h3 := sqrt32_lt
  calc √(3 / 2) * (2 * shear E v * norm6 (dev6 (increment3D p inc)))
      ≤ 2 * (2 * shear E v * 3) := by
        refine mul_le_mul h3.le ?_ (by positivity) (by norm_num)
        exact mul_le_mul_of_nonneg_left h1 (by linarith)
    _ = 12 * shear E v := by ring

/-- C132g: for every admissible temperature and composition, no strain history of the material of the
local model updating pipeline fails whose strain increments have components of at most one. -/
theorem C132_material {p : PType} {T C : ℝ} {m : TcParams} (h : tcParameters "von_mises" T C = .ok m)
    (incs : List (T2 p.dim)) (hi : ∀ inc ∈ incs, ∀ i j, |inc i j| ≤ 1) :
    ∃ s, vmRun p m.young m.poisson (piecewiseLinear m.points) incs = .good s := by
  obtain ⟨-, hTC, hy, hv, hp⟩ := C130_parameters.mp h
  have hp : m.points = ptsOf 1000 (tcYield T C) (tcHardening T C) := hp
  obtain ⟨g1, g2, g3, g4, g5⟩ := C130_stable hTC
  obtain ⟨b1, b2, b3, b4⟩ := norm_bounds hTC
  obtain ⟨hct, hsl⟩ := ptsOf_concave (n := 1000) (by norm_num) (tcYield T C) g5.le
  have hE : 0 < m.young := by
    rw [hy]
    rw [sub_pos, lt_div_iff₀ (by linarith)] at g2
    linarith
  have hA : Admissible m.young m.poisson := ⟨hE, by rw [hv]; linarith, by rw [hv]; exact g3⟩
  have hsh : shear m.young m.poisson = tcShear T C := by
    have : tcYoung T C ≠ 0 := by rw [← hy]; exact hE.ne'
    unfold shear
    rw [hv, hy, add_sub_cancel]
    field_simp
  have hl := C132_table hct
  rw [hsl] at hl
  have h0 : (piecewiseLinear (ptsOf 1000 (tcYield T C) (tcHardening T C)) 0).1 = tcYield T C := by
    rw [ptsOf_law (by norm_num) _ _ le_rfl (by norm_num)]
    ring
  have hyl := tcYield_lower hTC
  rw [hp]
  refine C132_never_fails hA hl ?_ ?_ incs fun inc hm => ?_
  · rw [hsh]
    unfold tcHardening tcShear
    nlinarith
  · rw [h0]; linarith [show (2e-8 : ℝ) < 100 by norm_num]
  · rw [h0]
    refine (elasticStep_le hA.shear_pos.le (hi inc hm)).trans ?_
    rw [hsh]
    have : tcShear T C ≤ 75000 := by
      unfold tcShear
      nlinarith
    linarith

/-! ### Steep tables -/

/-- **C132 is violated for steep hardening.**  The slope reported without plastic strain is zero, so
that the first iteration overshoots.  For every table which starts at zero plastic strain, a first
plastic step whose trial stress does not exceed the last ordinate although the first iterate is beyond
the last abscissa never converges: the iterates alternate between two values, and the state update
fails. -/
theorem C132_steep_violated {p : PType} {E v : ℝ} {pts : List (ℝ × ℝ)} (hA : Admissible E v)
    (ht : ConcaveTable pts) (hs : 0 < (pts.getD 0 0).2)
    {inc : T2 p.dim} {old : VMState p} (hacc : old.acc = 0)
    (hgap : (1 + 1e-5) * (pts.getD 0 0).2 ≤ vm6 (hooke6 (lame E v) (shear E v) (trial3D old inc)))
    (hlo : (pts.getD 0 0).2 + 3 * shear E v * (pts.getD (pts.length - 1) 0).1 <
      vm6 (hooke6 (lame E v) (shear E v) (trial3D old inc)))
    (hhi : vm6 (hooke6 (lame E v) (shear E v) (trial3D old inc)) ≤ (pts.getD (pts.length - 1) 0).2) :
    (∃ s T, vmUpdate p E v (piecewiseLinear pts) inc old = (.nan s, T)) ∧
      ∃ x, 0 < x ∧ x < (pts.getD (pts.length - 1) 0).1 ∧
        vm6 (hooke6 (lame E v) (shear E v) (trial3D old inc)) - 3 * shear E v * x =
          (piecewiseLinear pts x).1 := by
  have hG := hA.shear_pos
  have h2 := ht.table.two
  have hl := C132_table ht
  set q := vm6 (hooke6 (lame E v) (shear E v) (trial3D old inc)) with hqd
  set s0 := (pts.getD 0 0).2 with hs0
  set a := (pts.getD (pts.length - 1) 0).1 with had
  set s1 := (pts.getD (pts.length - 1) 0).2 with hs1
  have er : pts.getD (pts.length - 1) 0 = pts[pts.length - 1] := getD_row (by omega)
  have e0 : pts.getD 0 0 = pts[0] := getD_row (by omega)
  have hz : (pts[0]).1 = 0 := by rw [← e0]; exact ht.zero
  have hlaw0 : piecewiseLinear pts 0 = (s0, 0) := by
    have h3 := C26_interpolates ht.table (i := 0) (by omega) (by rw [hz])
    have h4 := C26_slope_at_points ht.table (i := 0) (by omega) (by rw [hz])
    rw [if_pos rfl] at h4
    rw [hz] at h3 h4
    exact Prod.ext (by rw [h3, hs0, e0]) h4
  have ha0 : 0 < a := by
    rw [had, er, ← hz]
    exact ht.table.lt (by omega) (by omega)
  have hlast : ∀ x, a ≤ x → piecewiseLinear pts x = (s1, 0) := by
    intro x hx
    rw [had, er] at hx
    rw [table_last ht.table (by rw [had, er] at ha0; linarith) hx, hs1, er]
  have h3G : 0 < 3 * shear E v := by linarith
  constructor
  · rw [vmUpdate_nan, vmReturn_none, hacc, ← hqd, hlaw0]
    refine ⟨?_, ?_⟩
    · rintro ⟨-, hc⟩
      simp only at hc
      rw [div_le_iff₀ hs] at hc
      unfold suTol at hc
      nlinarith
    · rw [newton_none_iff]
      set f := vmEval (shear E v) q 0 (piecewiseLinear pts) with hf
      have hlow : ∀ z, z ≤ 0 → f z = ⟨q - 3 * shear E v * z - s0, s0, -3 * shear E v⟩ := by
        intro z hz
        simp only [hf, vmEval, zero_add, hl.below z hz, hlaw0, sub_zero]
      have hhigh : ∀ z, a ≤ z → f z = ⟨q - 3 * shear E v * z - s1, s1, -3 * shear E v⟩ := by
        intro z hz
        simp only [hf, vmEval, zero_add, hlast z hz, sub_zero]
      set x1 := (q - s0) / (3 * shear E v) with hx1
      set x2 := (q - s1) / (3 * shear E v) with hx2
      have m1 : 3 * shear E v * x1 = q - s0 := by rw [hx1]; field_simp
      have m2 : 3 * shear E v * x2 = q - s1 := by rw [hx2]; field_simp
      have hx1a : a ≤ x1 := by
        rw [hx1, le_div_iff₀ h3G]; linarith
      have hx2n : x2 ≤ 0 := div_nonpos_of_nonpos_of_nonneg (by linarith) h3G.le
      have next_low : ∀ (k : ℕ) (z : ℝ), newtonIterate f k = some z → z ≤ 0 →
          newtonIterate f (k + 1) = some x1 := by
        intro k z hk hz
        have hj : (f z).jacobian ≠ 0 := by rw [hlow z hz]; simp only; linarith
        rw [newtonIterate_succ hk hj, hlow z hz, hx1]
        congr 1
        simp only
        field_simp
        ring
      have next_high : ∀ (k : ℕ) (z : ℝ), newtonIterate f k = some z → a ≤ z →
          newtonIterate f (k + 1) = some x2 := by
        intro k z hk hz
        have hj : (f z).jacobian ≠ 0 := by rw [hhigh z hz]; simp only; linarith
        rw [newtonIterate_succ hk hj, hhigh z hz, hx2]
        congr 1
        simp only
        field_simp
        ring
      have hit : ∀ k : ℕ, newtonIterate f (k + 1) = some x1 ∨ newtonIterate f (k + 1) = some x2 := by
        intro k
        induction k with
        | zero => exact Or.inl (next_low 0 0 rfl le_rfl)
        | succ k ih =>
          rcases ih with h | h
          · exact Or.inr (next_high _ _ h hx1a)
          · exact Or.inl (next_low _ _ h hx2n)
      intro k hk _ z hz
      obtain ⟨j, rfl⟩ : ∃ j, k = j + 1 := ⟨k - 1, by omega⟩
      have hs10 : 0 < s1 - s0 := by nlinarith
      rintro ⟨-, hcv⟩
      unfold suTol at hcv
      rcases hit j with h | h
      · obtain rfl : x1 = z := by rw [h] at hz; exact Option.some.inj hz
        rw [hhigh x1 hx1a] at hcv
        simp only at hcv
        rw [m1, show q - (q - s0) - s1 = -(s1 - s0) by ring, abs_neg, abs_of_pos hs10,
          abs_of_pos (by linarith)] at hcv
        nlinarith
      · obtain rfl : x2 = z := by rw [h] at hz; exact Option.some.inj hz
        rw [hlow x2 hx2n] at hcv
        simp only at hcv
        rw [m2, show q - (q - s1) - s0 = s1 - s0 by ring, abs_of_pos hs10, abs_of_pos hs] at hcv
        nlinarith
  · have hcont : ContinuousOn (fun y => 3 * shear E v * y + (piecewiseLinear pts y).1) (Set.Icc 0 a) := by
      refine ContinuousOn.add (by fun_prop) (hl.continuousOn.mono ?_)
      intro y hy
      exact Set.mem_Ici.mpr hy.1
    have h5 : q ∈ Set.Icc (3 * shear E v * 0 + (piecewiseLinear pts 0).1)
        (3 * shear E v * a + (piecewiseLinear pts a).1) := by
      rw [hlaw0, hlast a le_rfl]
      have := mul_pos h3G ha0
      exact ⟨by simp only [mul_zero, zero_add]; linarith, by simp only; linarith⟩
    obtain ⟨x, hx, hxe⟩ := intermediate_value_Icc ha0.le hcont h5
    simp only at hxe
    have := mul_pos h3G ha0
    refine ⟨x, lt_of_le_of_ne hx.1 ?_, lt_of_le_of_ne hx.2 ?_, by linarith⟩
    · rintro rfl
      rw [hlaw0] at hxe
      simp only [mul_zero, zero_add] at hxe
      linarith
    · intro he
      rw [he, hlast a le_rfl] at hxe
      simp only at hxe
      linarith

/-! ### Non-vacuity -/

/-- A table with decreasing slopes. -/
def softTable : List (ℝ × ℝ) := [(0, 1), (1, 2), (3, 3)]

theorem softTable_concave : ConcaveTable softTable := by
  refine ⟨⟨by decide, ?_⟩, rfl, ?_, ?_⟩ <;> intro i h <;> simp only [softTable, List.length_cons, List.length_nil] at h
  · have hi : i < 2 := by omega
    interval_cases i <;> norm_num [softTable]
  · have hi : i < 2 := by omega
    interval_cases i <;> norm_num [softTable]
  · have hi : i < 1 := by omega
    interval_cases i; norm_num [softTable, segmentSlope]

theorem softTable_zero : (piecewiseLinear softTable 0).1 = 1 := by
  have := C26_interpolates softTable_concave.table (i := 0) (by decide) le_rfl
  exact this

theorem softTable_slope : segmentSlope softTable 0 = 1 := by norm_num [softTable, segmentSlope]

theorem shear_one : shear 1 0 = 1 / 2 := by norm_num [shear]

/-- Three times the yield strain in one step: a plastic step, which succeeds. -/
example : ∃ new T, vmUpdate .solid 1 0 (piecewiseLinear softTable) (uniInc 3) (vmInit .solid) =
    (.good new, T) ∧ new.isPlast = true := by
  obtain ⟨new, T, h⟩ := C132_step (p := .solid) (inc := uniInc 3) (old := vmInit .solid) admissible_one
    (C132_table softTable_concave) (by rw [softTable_slope, shear_one]; norm_num)
    (by rw [softTable_zero]; norm_num) le_rfl (by
      rw [vm6_uni]
      change _ ≤ 10000 * (piecewiseLinear softTable 0).1
      rw [softTable_zero]
      norm_num [abs_of_pos])
  refine ⟨new, T, h, ?_⟩
  by_contra hc
  have h1 : new.isPlast = false := by simpa using hc
  obtain ⟨-, h2⟩ := (C28_success h).2.2.1.mp h1
  rw [vm6_uni] at h2
  change (_ - (piecewiseLinear softTable 0).1) / (piecewiseLinear softTable 0).1 ≤ _ at h2
  rw [softTable_zero] at h2
  norm_num [abs_of_pos] at h2

/-- A steep table. -/
def steepTable : List (ℝ × ℝ) := [(0, 1), (1, 4)]

theorem steepTable_concave : ConcaveTable steepTable := by
  refine ⟨⟨by decide, ?_⟩, rfl, ?_, ?_⟩ <;> intro i h <;> simp only [steepTable, List.length_cons, List.length_nil] at h
  · have hi : i < 1 := by omega
    interval_cases i; norm_num [steepTable]
  · have hi : i < 1 := by omega
    interval_cases i; norm_num [steepTable]
  · omega

/-- The same step fails with the steep table. -/
example : ∃ s T, vmUpdate .solid 1 0 (piecewiseLinear steepTable) (uniInc 3) (vmInit .solid) = (.nan s, T) := by
  refine (C132_steep_violated admissible_one steepTable_concave ?_ rfl ?_ ?_ ?_).1
  · norm_num [steepTable]
  all_goals
    rw [vm6_uni]
    norm_num [steepTable, shear_one, abs_of_pos]

/-- Room temperature and the middle composition, strained by ten percent in one step. -/
example : ∃ m s, tcParameters "von_mises" 25 (1 / 2) = .ok m ∧
    vmRun .solid m.young m.poisson (piecewiseLinear m.points) [uniInc (1 / 10)] = .good s := by
  have h : tcParameters "von_mises" 25 (1 / 2) = .ok ⟨tcYoung 25 (1 / 2),
      tcYoung 25 (1 / 2) / (2 * tcShear 25 (1 / 2)) - 1,
      (npLinspace 0 2 1000).map fun x => (x, tcYield 25 (1 / 2) + tcHardening 25 (1 / 2) * x)⟩ :=
    C130_parameters.mpr ⟨rfl, ⟨by norm_num, by norm_num, by norm_num, by norm_num⟩, rfl, rfl, by with_reducible rfl⟩
  obtain ⟨s, hs⟩ := C132_material (p := .solid) h [uniInc (1 / 10)] (by
    intro inc hm i j
    rw [List.mem_singleton.mp hm]
    unfold uniInc
    split <;> norm_num [abs_of_pos])
  exact ⟨_, s, h, hs⟩

end Hooke
