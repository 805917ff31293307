import Verif.Spec.Stability
import Verif.Props.Proportional
import Mathlib.Analysis.InnerProductSpace.PiL2

/-!
# C143: perturbations of the strain history are not amplified
-/

noncomputable section

namespace Hooke

open Spec

/-! ### The energy norm as a Euclidean norm -/

/-- Elastic strain and accumulated plastic strain, scaled so that the Euclidean norm is the energy norm. -/
def stateVec (E v a : ℝ) (e : V6) (x : ℝ) : EuclideanSpace ℝ (Fin 8) :=
  !₂[√(bulk E v) * tr6 e, √(2 * shear E v) * dev6 e 0, √(2 * shear E v) * dev6 e 1,
    √(2 * shear E v) * dev6 e 2, √(2 * shear E v) * dev6 e 3, √(2 * shear E v) * dev6 e 4,
    √(2 * shear E v) * dev6 e 5, √a * x]

theorem stateVec_inner {E v a : ℝ} (hA : Admissible E v) (ha : 0 ≤ a) (e f : V6) (x y : ℝ) :
    inner ℝ (stateVec E v a e x) (stateVec E v a f y) =
      inner6 (hooke6 (lame E v) (shear E v) e) f + a * x * y := by
  have hK := Real.mul_self_sqrt hA.bulk_pos.le
  have hG := Real.mul_self_sqrt (show 0 ≤ 2 * shear E v by have := hA.shear_pos; linarith)
  have hAa := Real.mul_self_sqrt ha
  have h3 := hA.lame_bulk
  have h5 : lame E v = bulk E v - 2 / 3 * shear E v := by linarith
  have e1 : inner ℝ (stateVec E v a e x) (stateVec E v a f y) =
      √(bulk E v) * √(bulk E v) * (tr6 e * tr6 f) + √(2 * shear E v) * √(2 * shear E v) *
        (dev6 e 0 * dev6 f 0 + dev6 e 1 * dev6 f 1 + dev6 e 2 * dev6 f 2 + dev6 e 3 * dev6 f 3 +
          dev6 e 4 * dev6 f 4 + dev6 e 5 * dev6 f 5) + √a * √a * (x * y) := by
    simp [stateVec, PiLp.inner_apply, Fin.sum_univ_eight]
    ring
  rw [e1, hK, hG, hAa, h5]
  simp only [inner6, Fin.sum_univ_six, hooke6, dev6, tr6, one6]
  simp
  ring

theorem stateVec_norm {E v a : ℝ} (hA : Admissible E v) (ha : 0 ≤ a) (e : V6) (x : ℝ) :
    ‖stateVec E v a e x‖ = √(inner6 (hooke6 (lame E v) (shear E v) e) e + a * x ^ 2) := by
  rw [norm_eq_sqrt_real_inner, stateVec_inner hA ha]
  congr 1
  ring

theorem stateVec_sub (E v a : ℝ) (e f : V6) (x y : ℝ) :
    stateVec E v a (fun k => e k - f k) (x - y) = stateVec E v a e x - stateVec E v a f y := by
  ext i
  fin_cases i <;> simp [stateVec, tr6, dev6] <;> ring

theorem stateVec_add (E v a : ℝ) (e f : V6) (x y : ℝ) :
    stateVec E v a (fun k => e k + f k) (x + y) = stateVec E v a e x + stateVec E v a f y := by
  ext i
  fin_cases i <;> simp [stateVec, tr6, dev6] <;> ring

theorem stateVec_smul (E v a c : ℝ) (e : V6) (x : ℝ) :
    stateVec E v a (fun k => c * e k) (c * x) = c • stateVec E v a e x := by
  ext i
  fin_cases i <;> simp [stateVec, tr6, dev6] <;> ring

theorem energyNorm_eq {E v : ℝ} (hA : Admissible E v) {a : ℝ} (ha : 0 ≤ a) (e : V6) :
    energyNorm E v e = ‖stateVec E v a e 0‖ := by
  rw [stateVec_norm hA ha, energyNorm]
  congr 1
  ring

theorem stateDistance_eq {p : PType} {E v a : ℝ} (hA : Admissible E v) (ha : 0 ≤ a) (s t : VMState p) :
    stateDistance E v a s t =
      ‖stateVec E v a (elastic3D s) s.acc - stateVec E v a (elastic3D t) t.acc‖ := by
  rw [← stateVec_sub, stateVec_norm hA ha, stateDistance]

/-! ### The flow direction is a subgradient of the equivalent stress -/

theorem inner6_comm (a b : V6) : inner6 a b = inner6 b a := by
  simp only [inner6, Fin.sum_univ_six]
  ring

theorem inner6_le (a b : V6) : inner6 a b ≤ norm6 a * norm6 b := by
  unfold inner6 norm6
  exact Real.sum_mul_le_sqrt_mul_sqrt _ _ _

theorem inner6_dev_of_tr {s n : V6} (hn : tr6 n = 0) : inner6 s n = inner6 (dev6 s) n := by
  have e : inner6 s n - inner6 (dev6 s) n = tr6 s / 3 * tr6 n := by
    simp only [inner6, Fin.sum_univ_six, dev6, one6, tr6]
    simp
    ring
  rw [hn, mul_zero] at e
  linarith

theorem vmFlow_zero {s : V6} (h : ¬ norm6 (dev6 s) > suSmall) : vmFlow s = fun _ => 0 := by
  funext k
  simp only [vmFlow, if_neg h]
  ring

theorem inner6_flow_le (s t : V6) : inner6 s (vmFlow t) ≤ vm6 s := by
  by_cases h : norm6 (dev6 t) > suSmall
  · rw [inner6_dev_of_tr (tr6_vmFlow t), vm6_eq, mul_comm, ← vmFlow_norm h]
    exact inner6_le _ _
  · rw [vmFlow_zero h]
    simpa [inner6] using vm6_nonneg s

theorem inner6_flow_self {s : V6} (h : norm6 (dev6 s) > suSmall) : inner6 s (vmFlow s) = vm6 s := by
  have hp : 0 < norm6 (dev6 s) := lt_trans (by unfold suSmall; norm_num) h
  rw [vmFlow_scale h, inner6_smul, inner6_dev, vm6_eq]
  field_simp

theorem inner6_flow_flow {s : V6} (h : norm6 (dev6 s) > suSmall) :
    inner6 (vmFlow s) (vmFlow s) = 3 / 2 := by
  rw [inner6_self, vmFlow_norm h, Real.sq_sqrt (by norm_num)]

/-- Stress after a correction of the trial strain, in the direction of flow. -/
theorem inner6_corrected {E v : ℝ} {e : V6} {x : ℝ}
    (h : norm6 (dev6 (hooke6 (lame E v) (shear E v) e)) > suSmall) :
    inner6 (hooke6 (lame E v) (shear E v)
        fun k => e k - x * vmFlow (hooke6 (lame E v) (shear E v) e) k)
      (vmFlow (hooke6 (lame E v) (shear E v) e)) =
      vm6 (hooke6 (lame E v) (shear E v) e) - 3 * shear E v * x := by
  rw [hooke6_sub_smul, hooke6_dev (tr6_vmFlow _), inner6_sub_smul, inner6_flow_self h]
  have : inner6 (fun k => 2 * shear E v * vmFlow (hooke6 (lame E v) (shear E v) e) k)
      (vmFlow (hooke6 (lame E v) (shear E v) e)) = 3 * shear E v := by
    rw [inner6_comm, inner6_smul, inner6_flow_flow h]
    ring
  rw [this]
  ring

/-! ### The exact return -/

/-- The exact return of a trial strain with linear hardening: the correction. -/
def exactInc (E v s0 a : ℝ) (e : V6) (x : ℝ) : ℝ :=
  max 0 ((vm6 (hooke6 (lame E v) (shear E v) e) - (s0 + a * x)) / (3 * shear E v + a))

/-- The exact return of a trial strain with linear hardening: the elastic strain. -/
def exactElastic (E v s0 a : ℝ) (e : V6) (x : ℝ) : V6 := fun k =>
  e k - exactInc E v s0 a e x * vmFlow (hooke6 (lame E v) (shear E v) e) k

theorem exactInc_nonneg (E v s0 a : ℝ) (e : V6) (x : ℝ) : 0 ≤ exactInc E v s0 a e x := le_max_left _ _

theorem large_of_yield {s : V6} {y : ℝ} (hy : 2e-8 ≤ y) (h : y < vm6 s) : norm6 (dev6 s) > suSmall := by
  rw [vm6_eq] at h
  have hn := norm6_nonneg (dev6 s)
  have := sqrt32_lt
  unfold suSmall
  norm_num at hy ⊢
  nlinarith

theorem exact_pos {E v s0 a : ℝ} (hA : Admissible E v) (ha : 0 ≤ a) (hs : 2e-8 ≤ s0) {e : V6} {x : ℝ}
    (hx : 0 ≤ x) (h : 0 < exactInc E v s0 a e x) :
    exactInc E v s0 a e x * (3 * shear E v + a) =
        vm6 (hooke6 (lame E v) (shear E v) e) - (s0 + a * x) ∧
      norm6 (dev6 (hooke6 (lame E v) (shear E v) e)) > suSmall := by
  have hG := hA.shear_pos
  have hd : 0 < 3 * shear E v + a := by linarith
  have hm : exactInc E v s0 a e x =
      (vm6 (hooke6 (lame E v) (shear E v) e) - (s0 + a * x)) / (3 * shear E v + a) := by
    unfold exactInc at h ⊢
    rcases le_total 0 ((vm6 (hooke6 (lame E v) (shear E v) e) - (s0 + a * x)) / (3 * shear E v + a))
      with h' | h'
    · exact max_eq_right h'
    · rw [max_eq_left h'] at h
      exact absurd h (lt_irrefl _)
  rw [hm] at h ⊢
  refine ⟨div_mul_cancel₀ _ hd.ne', large_of_yield (y := s0 + a * x) ?_ ?_⟩
  · have := mul_nonneg ha hx
    linarith
  · have := (div_pos_iff_of_pos_right hd).mp h
    linarith

/-- The exact return is on the yield surface if there is a correction, and never outside of it. -/
theorem exact_yield {E v s0 a : ℝ} (hA : Admissible E v) (ha : 0 ≤ a) (hs : 2e-8 ≤ s0) {e : V6} {x : ℝ}
    (hx : 0 ≤ x) :
    (0 < exactInc E v s0 a e x →
      inner6 (hooke6 (lame E v) (shear E v) (exactElastic E v s0 a e x))
        (vmFlow (hooke6 (lame E v) (shear E v) e)) = s0 + a * (x + exactInc E v s0 a e x)) ∧
    vm6 (hooke6 (lame E v) (shear E v) (exactElastic E v s0 a e x)) ≤
      s0 + a * (x + exactInc E v s0 a e x) := by
  have hG := hA.shear_pos
  rcases (exactInc_nonneg E v s0 a e x).eq_or_lt with h0 | h0
  · refine ⟨fun h => absurd h0 h.ne, ?_⟩
    have he : exactElastic E v s0 a e x = e := by
      funext k
      simp only [exactElastic, ← h0]
      ring
    rw [he, ← h0, add_zero]
    have : (vm6 (hooke6 (lame E v) (shear E v) e) - (s0 + a * x)) / (3 * shear E v + a) ≤ 0 := by
      rw [h0]
      exact le_max_right _ _
    have h2 := (div_nonpos_iff.mp this)
    rcases h2 with ⟨-, h3⟩ | ⟨h3, -⟩
    · linarith
    · linarith
  · obtain ⟨h1, h2⟩ := exact_pos hA ha hs hx h0
    have e1 := inner6_corrected (x := exactInc E v s0 a e x) h2
    have e2 := vm6_corrected (inc := exactInc E v s0 a e x) h2
    have e3 : vm6 (hooke6 (lame E v) (shear E v) e) - 3 * shear E v * exactInc E v s0 a e x =
        s0 + a * (x + exactInc E v s0 a e x) := by linarith
    refine ⟨fun _ => e1.trans e3, ?_⟩
    refine (e2.trans ?_).le
    rw [e3, abs_of_nonneg]
    have := mul_nonneg ha (add_nonneg hx h0.le)
    have : (0 : ℝ) < 2e-8 := by norm_num
    linarith

theorem exact_vec (E v s0 a : ℝ) (e : V6) (x : ℝ) :
    stateVec E v a (exactElastic E v s0 a e x) (x + exactInc E v s0 a e x) = stateVec E v a e x -
      exactInc E v s0 a e x • stateVec E v a (vmFlow (hooke6 (lame E v) (shear E v) e)) (-1) := by
  rw [← stateVec_smul, ← stateVec_sub]
  congr 1
  ring

/-- Half of the monotonicity of the corrections. -/
theorem exact_half {E v s0 a : ℝ} (hA : Admissible E v) (ha : 0 ≤ a) (hs : 2e-8 ≤ s0) {e f : V6} {x y : ℝ}
    (hx : 0 ≤ x) (hy : 0 ≤ y) :
    0 ≤ exactInc E v s0 a e x * inner ℝ
      (stateVec E v a (exactElastic E v s0 a e x) (x + exactInc E v s0 a e x) -
        stateVec E v a (exactElastic E v s0 a f y) (y + exactInc E v s0 a f y))
      (stateVec E v a (vmFlow (hooke6 (lame E v) (shear E v) e)) (-1)) := by
  rcases (exactInc_nonneg E v s0 a e x).eq_or_lt with h0 | h0
  · rw [← h0, zero_mul]
  · refine mul_nonneg h0.le ?_
    rw [inner_sub_left, stateVec_inner hA ha, stateVec_inner hA ha, (exact_yield hA ha hs hx).1 h0]
    have h1 := (exact_yield (e := f) hA ha hs hy).2
    have h2 := inner6_flow_le (hooke6 (lame E v) (shear E v) (exactElastic E v s0 a f y))
      (hooke6 (lame E v) (shear E v) e)
    linarith

/-- A correction which is monotone does not increase distances. -/
theorem norm_le_of_monotone {V : Type} [NormedAddCommGroup V] [InnerProductSpace ℝ V] {d t c : V}
    (h : d = t - c) (hc : 0 ≤ inner ℝ d c) : ‖d‖ ≤ ‖t‖ := by
  have h1 : inner ℝ d t = ‖d‖ ^ 2 + inner ℝ d c := by
    rw [show t = d + c by rw [h]; abel, inner_add_right, real_inner_self_eq_norm_sq]
  have h2 := real_inner_le_norm d t
  by_contra hlt
  have h3 := norm_nonneg t
  nlinarith

/-- The exact return does not increase distances. -/
theorem exact_nonexpansive {E v s0 a : ℝ} (hA : Admissible E v) (ha : 0 ≤ a) (hs : 2e-8 ≤ s0) {e f : V6}
    {x y : ℝ} (hx : 0 ≤ x) (hy : 0 ≤ y) :
    ‖stateVec E v a (exactElastic E v s0 a e x) (x + exactInc E v s0 a e x) -
        stateVec E v a (exactElastic E v s0 a f y) (y + exactInc E v s0 a f y)‖ ≤
      ‖stateVec E v a e x - stateVec E v a f y‖ := by
  refine norm_le_of_monotone
    (c := exactInc E v s0 a e x • stateVec E v a (vmFlow (hooke6 (lame E v) (shear E v) e)) (-1) -
      exactInc E v s0 a f y • stateVec E v a (vmFlow (hooke6 (lame E v) (shear E v) f)) (-1)) ?_ ?_
  · rw [exact_vec, exact_vec]
    abel
  · have h1 := exact_half (e := e) (f := f) hA ha hs hx hy
    have h2 := exact_half (e := f) (f := e) hA ha hs hy hx
    rw [inner_sub_right, inner_smul_right, inner_smul_right]
    rw [← neg_sub, inner_neg_left] at h2
    linarith

/-- The correction as a distance. -/
theorem exact_dist {E v s0 a : ℝ} (hA : Admissible E v) (ha : 0 ≤ a) (hs : 2e-8 ≤ s0) {e : V6}
    {x : ℝ} (hx : 0 ≤ x) :
    ‖stateVec E v a e x - stateVec E v a (exactElastic E v s0 a e x) (x + exactInc E v s0 a e x)‖ =
      exactInc E v s0 a e x * √(3 * shear E v + a) := by
  rw [exact_vec, sub_sub_cancel, norm_smul, Real.norm_of_nonneg (exactInc_nonneg E v s0 a e x)]
  rcases (exactInc_nonneg E v s0 a e x).eq_or_lt with h0 | h0
  · rw [← h0, zero_mul, zero_mul]
  · congr 1
    obtain ⟨-, h2⟩ := exact_pos hA ha hs hx h0
    rw [stateVec_norm hA ha, hooke6_dev (tr6_vmFlow _), inner6_comm, inner6_smul, inner6_flow_flow h2]
    congr 1
    ring

/-! ### A step of the code -/

theorem linear_value {s0 a x : ℝ} (hx : 0 ≤ x) : (linearHardening s0 a x).1 = s0 + a * x := by
  simp [linearHardening, relu, max_eq_left hx]

theorem exact_of_step {p : PType} {E v s0 a : ℝ} (hA : Admissible E v) (ha : 0 ≤ a) (hs : 2e-8 ≤ s0)
    {inc : T2 p.dim} {old new : VMState p} {T : Option (Fin p.len → Fin p.len → ℝ)} (hx : 0 ≤ old.acc)
    (h : vmUpdate p E v (linearHardening s0 a) inc old = (.good new, T)) :
    ‖stateVec E v a (elastic3D new) new.acc -
        stateVec E v a (exactElastic E v s0 a (trial3D old inc) old.acc)
          (old.acc + exactInc E v s0 a (trial3D old inc) old.acc)‖ ≤
      1e-6 * (s0 + a * old.acc) / √(3 * shear E v + a) ∧ old.acc ≤ new.acc := by
  have hG := hA.shear_pos
  have hd : 0 < 3 * shear E v + a := by linarith
  have hsy : 0 < s0 + a * old.acc := by
    have := mul_nonneg ha hx
    have : (0 : ℝ) < 2e-8 := by norm_num
    linarith
  have hrhs : 0 ≤ 1e-6 * (s0 + a * old.acc) / √(3 * shear E v + a) :=
    div_nonneg (mul_nonneg (by norm_num) hsy.le) (Real.sqrt_nonneg _)
  by_cases hel : TrialElastic E v (linearHardening s0 a) old inc
  · obtain ⟨new', hu, -, -, hacc, he, -⟩ := C29_elastic_step hel
    rw [hu] at h
    obtain rfl : new' = new := by simpa using congrArg Prod.fst h
    have he' : elastic3D new' = trial3D old inc := funext he
    rw [he', hacc]
    refine ⟨?_, le_rfl⟩
    rw [exact_dist hA ha hs hx]
    obtain ⟨-, h2⟩ := hel
    rw [linear_value hx, div_le_iff₀ hsy] at h2
    have h3 : exactInc E v s0 a (trial3D old inc) old.acc ≤
        1e-6 * (s0 + a * old.acc) / (3 * shear E v + a) := by
      refine max_le (div_nonneg (mul_nonneg (by norm_num) hsy.le) hd.le) ?_
      exact div_le_div_of_nonneg_right h2 hd.le
    refine (mul_le_mul_of_nonneg_right h3 (Real.sqrt_nonneg _)).trans (le_of_eq ?_)
    have hr := Real.mul_self_sqrt hd.le
    have hr0 := Real.sqrt_pos.mpr hd
    rw [div_mul_eq_mul_div, div_eq_div_iff hd.ne' hr0.ne', mul_assoc, hr]
  · obtain ⟨new', T', hu, hpl, hacc, hlt, -⟩ := C32_linear_exact hA ha hs hx hel
    rw [hu] at h
    obtain rfl : new' = new := by simpa using congrArg Prod.fst h
    refine ⟨?_, hlt.le⟩
    have hi : exactInc E v s0 a (trial3D old inc) old.acc = new'.acc - old.acc := by
      have e : new'.acc - old.acc =
          (vm6 (hooke6 (lame E v) (shear E v) (trial3D old inc)) - (s0 + a * old.acc)) /
            (3 * shear E v + a) := by rw [hacc]; ring
      rw [exactInc, ← e]
      exact max_eq_right (by linarith)
    have hee : elastic3D new' = exactElastic E v s0 a (trial3D old inc) old.acc := by
      obtain ⟨r, hr, h1, -, h3, h4, -⟩ := vmUpdate_good hu
      obtain ⟨-, hc⟩ := vmReturn_cases hr
      rw [← h4, hpl] at hc
      rcases hc with ⟨hf, -⟩ | ⟨-, -, x, -, hacc', he⟩
      · cases hf
      · rw [h1, he]
        funext k
        simp only [exactElastic, hi]
        rw [h3, hacc']
        ring
    rw [hee, hi, add_sub_cancel, sub_self, norm_zero]
    exact hrhs

/-- **C143 (a step).** With linear hardening, a step from two states with two strain increments: the new
states are no further apart than the old ones and the increments, up to the yield tolerance. -/
theorem C143_step {p : PType} {E v s0 a : ℝ} (hA : Admissible E v) (ha : 0 ≤ a) (hs : 2e-8 ≤ s0)
    {i j : T2 p.dim} {s t s' t' : VMState p} {T T' : Option (Fin p.len → Fin p.len → ℝ)}
    (h1 : 0 ≤ s.acc) (h2 : 0 ≤ t.acc)
    (hu : vmUpdate p E v (linearHardening s0 a) i s = (.good s', T))
    (hv : vmUpdate p E v (linearHardening s0 a) j t = (.good t', T')) :
    stateDistance E v a s' t' ≤ stateDistance E v a s t + energyNorm E v (increment3D p (i - j)) +
      1e-6 * ((s0 + a * s.acc) + (s0 + a * t.acc)) / √(3 * shear E v + a) := by
  obtain ⟨e1, -⟩ := exact_of_step hA ha hs h1 hu
  obtain ⟨e2, -⟩ := exact_of_step hA ha hs h2 hv
  have e3 := exact_nonexpansive (e := trial3D s i) (f := trial3D t j) hA ha hs h1 h2
  have hinc : ∀ k, increment3D p (i - j) k = increment3D p i k - increment3D p j k := by
    intro k
    cases p
    · fin_cases k <;> simp [increment3D, to3D, mf] <;> ring
    · simp [increment3D, to3D, mf, kel6]
      ring
  have e4 : stateVec E v a (trial3D s i) s.acc - stateVec E v a (trial3D t j) t.acc =
      (stateVec E v a (elastic3D s) s.acc - stateVec E v a (elastic3D t) t.acc) +
        stateVec E v a (increment3D p (i - j)) 0 := by
    rw [← stateVec_sub, ← stateVec_sub, ← stateVec_add, add_zero]
    congr 1
    funext k
    simp only [trial3D, hinc]
    ring
  rw [e4] at e3
  have e5 := norm_add_le (stateVec E v a (elastic3D s) s.acc - stateVec E v a (elastic3D t) t.acc)
    (stateVec E v a (increment3D p (i - j)) 0)
  rw [stateDistance_eq hA ha, stateDistance_eq hA ha, energyNorm_eq hA ha, mul_add, add_div]
  refine (norm_sub_le_norm_sub_add_norm_sub _
    (stateVec E v a (exactElastic E v s0 a (trial3D s i) s.acc)
      (s.acc + exactInc E v s0 a (trial3D s i) s.acc)) _).trans ?_
  have e6 := norm_sub_le_norm_sub_add_norm_sub
    (stateVec E v a (exactElastic E v s0 a (trial3D s i) s.acc)
      (s.acc + exactInc E v s0 a (trial3D s i) s.acc))
    (stateVec E v a (exactElastic E v s0 a (trial3D t j) t.acc)
      (t.acc + exactInc E v s0 a (trial3D t j) t.acc))
    (stateVec E v a (elastic3D t') t'.acc)
  rw [norm_sub_rev] at e2
  linarith

/-! ### Histories -/

theorem stateDistance_nonneg {p : PType} (E v a : ℝ) (s t : VMState p) : 0 ≤ stateDistance E v a s t :=
  Real.sqrt_nonneg _

/-- **C143 (histories).** With linear hardening, two histories of the same number of steps from two states:
the final states exist, and are no further apart than the initial ones and the histories, up to the yield
tolerance in every step. -/
theorem C143_history {p : PType} {E v s0 a : ℝ} (hA : Admissible E v) (ha : 0 ≤ a) (hs : 2e-8 ≤ s0)
    (l m : List (T2 p.dim)) (hlm : l.length = m.length) (s t : VMState p) (h1 : 0 ≤ s.acc)
    (h2 : 0 ≤ t.acc) :
    ∃ s' t', l.foldl (vmStep p E v (linearHardening s0 a)) (.good s) = .good s' ∧
      m.foldl (vmStep p E v (linearHardening s0 a)) (.good t) = .good t' ∧
      s.acc ≤ s'.acc ∧ t.acc ≤ t'.acc ∧
      stateDistance E v a s' t' ≤ stateDistance E v a s t + historyDistance E v l m +
        l.length * (1e-6 * ((s0 + a * s'.acc) + (s0 + a * t'.acc)) / √(3 * shear E v + a)) := by
  induction l generalizing m s t with
  | nil =>
    obtain rfl : m = [] := List.length_eq_zero_iff.mp hlm.symm
    exact ⟨s, t, rfl, rfl, le_rfl, le_rfl, by simp [historyDistance]⟩
  | cons i l ih =>
    obtain ⟨j, m, rfl⟩ : ∃ j m', m = j :: m' := by
      cases m with
      | nil => simp at hlm
      | cons j m => exact ⟨j, m, rfl⟩
    have hstep : ∀ (k : T2 p.dim) (u : VMState p), 0 ≤ u.acc → ∃ u' T,
        vmUpdate p E v (linearHardening s0 a) k u = (.good u', T) := by
      intro k u hu
      by_cases hel : TrialElastic E v (linearHardening s0 a) u k
      · obtain ⟨new, hn, -⟩ := C29_elastic_step hel
        exact ⟨new, _, hn⟩
      · obtain ⟨new, T, hn, -⟩ := C32_linear_exact hA ha hs hu hel
        exact ⟨new, T, hn⟩
    obtain ⟨u, T, hu⟩ := hstep i s h1
    obtain ⟨w, T', hw⟩ := hstep j t h2
    obtain ⟨-, a1⟩ := exact_of_step hA ha hs h1 hu
    obtain ⟨-, a2⟩ := exact_of_step hA ha hs h2 hw
    obtain ⟨s', t', b1, b2, b3, b4, b5⟩ := ih m (by simpa using hlm) u w (h1.trans a1) (h2.trans a2)
    have c1 := C143_step hA ha hs h1 h2 hu hw
    refine ⟨s', t', ?_, ?_, a1.trans b3, a2.trans b4, ?_⟩
    · rw [List.foldl_cons, vmStep, hu]
      exact b1
    · rw [List.foldl_cons, vmStep, hw]
      exact b2
    · have c2 : 1e-6 * ((s0 + a * s.acc) + (s0 + a * t.acc)) / √(3 * shear E v + a) ≤
          1e-6 * ((s0 + a * s'.acc) + (s0 + a * t'.acc)) / √(3 * shear E v + a) := by
        refine div_le_div_of_nonneg_right (mul_le_mul_of_nonneg_left ?_ (by norm_num)) (Real.sqrt_nonneg _)
        have d1 := mul_le_mul_of_nonneg_left (a1.trans b3) ha
        have d2 := mul_le_mul_of_nonneg_left (a2.trans b4) ha
        linarith
      have c3 : historyDistance E v (i :: l) (j :: m) =
          energyNorm E v (increment3D p (i - j)) + historyDistance E v l m := by
        simp [historyDistance]
      rw [c3, List.length_cons, Nat.cast_succ, add_mul, one_mul]
      linarith

/-- **C143 (runs).** With linear hardening, two runs of the same number of steps from the initial state. -/
theorem C143_run {p : PType} {E v s0 a : ℝ} (hA : Admissible E v) (ha : 0 ≤ a) (hs : 2e-8 ≤ s0)
    (l m : List (T2 p.dim)) (hlm : l.length = m.length) :
    ∃ s t, vmRun p E v (linearHardening s0 a) l = .good s ∧ vmRun p E v (linearHardening s0 a) m = .good t ∧
      stateDistance E v a s t ≤ historyDistance E v l m +
        l.length * (1e-6 * ((s0 + a * s.acc) + (s0 + a * t.acc)) / √(3 * shear E v + a)) := by
  obtain ⟨s, t, h1, h2, -, -, h5⟩ :=
    C143_history hA ha hs l m hlm (vmInit p) (vmInit p) le_rfl le_rfl
  have h0 : stateDistance E v a (vmInit p) (vmInit p) = 0 := by
    simp [stateDistance, inner6]
  exact ⟨s, t, h1, h2, by rw [h0, zero_add] at h5; exact h5⟩

/-- **C143 (stress).** The stresses of two states which follow Hooke's law are no further apart than the
states times the root of the largest stiffness `max (E / (1 - 2 v)) (E / (1 + v))`. -/
theorem C143_stress {p : PType} {E v a : ℝ} (hA : Admissible E v) (ha : 0 ≤ a) {s t : VMState p}
    (h1 : stress3D s = hooke6 (lame E v) (shear E v) (elastic3D s))
    (h2 : stress3D t = hooke6 (lame E v) (shear E v) (elastic3D t)) :
    norm6 (fun k => stress3D s k - stress3D t k) ≤
      √(max (3 * bulk E v) (2 * shear E v)) * stateDistance E v a s t := by
  have hK := hA.bulk_pos
  have hG := hA.shear_pos
  have h3 := hA.lame_bulk
  have h5 : lame E v = bulk E v - 2 / 3 * shear E v := by linarith
  rw [stateDistance, ← Real.sqrt_mul (le_max_of_le_left (by linarith)), norm6]
  refine Real.sqrt_le_sqrt ?_
  set d : V6 := fun k => elastic3D s k - elastic3D t k with hd
  have hsd : ∀ k, stress3D s k - stress3D t k = hooke6 (lame E v) (shear E v) d k := by
    intro k
    rw [h1, h2]
    simp only [hooke6, tr6, hd]
    ring
  simp only [hsd]
  set M := max (3 * bulk E v) (2 * shear E v) with hM
  have m1 : 3 * bulk E v ≤ M := le_max_left _ _
  have m2 : 2 * shear E v ≤ M := le_max_right _ _
  have q := sq_nonneg (s.acc - t.acc)
  have hMa : 0 ≤ M * (a * (s.acc - t.acc) ^ 2) := mul_nonneg (by linarith) (mul_nonneg ha q)
  have e1 : ∑ k, hooke6 (lame E v) (shear E v) d k ^ 2 =
      3 * bulk E v * (bulk E v * tr6 d ^ 2) + 2 * shear E v * (2 * shear E v * norm6 (dev6 d) ^ 2) := by
    rw [← inner6_self, h5]
    simp only [inner6, Fin.sum_univ_six, hooke6, dev6, tr6, one6]
    simp
    ring
  have e2 : inner6 (hooke6 (lame E v) (shear E v) d) d =
      bulk E v * tr6 d ^ 2 + 2 * shear E v * norm6 (dev6 d) ^ 2 := by
    rw [← inner6_self, h5]
    simp only [inner6, Fin.sum_univ_six, hooke6, dev6, tr6, one6]
    simp
    ring
  rw [e1, e2, mul_add, mul_add]
  have g1 : 0 ≤ bulk E v * tr6 d ^ 2 := by positivity
  have g2 : 0 ≤ 2 * shear E v * norm6 (dev6 d) ^ 2 := by positivity
  have := mul_le_mul_of_nonneg_right m1 g1
  have := mul_le_mul_of_nonneg_right m2 g2
  linarith

/-! ### Every hardening law, one step -/

/-- What a step does, whatever the law: a correction in a direction which is a subgradient of the
equivalent stress, and the yield condition. -/
theorem step_facts {p : PType} {E v : ℝ} (hA : Admissible E v) {law : HardLaw} (hm : NonSoftening law)
    (hpos : ∀ x, 2e-8 ≤ (law x).1) {inc : T2 p.dim} {old new : VMState p}
    {T : Option (Fin p.len → Fin p.len → ℝ)} (h : vmUpdate p E v law inc old = (.good new, T)) :
    ∃ n : V6, (∀ k, elastic3D new k = trial3D old inc k - (new.acc - old.acc) * n k) ∧
      old.acc ≤ new.acc ∧ (∀ s, inner6 s n ≤ vm6 s) ∧
      vm6 (hooke6 (lame E v) (shear E v) (elastic3D new)) ≤ (1 + 1e-6) * (law new.acc).1 ∧
      (old.acc < new.acc →
        inner6 (hooke6 (lame E v) (shear E v) (elastic3D new)) n =
          vm6 (hooke6 (lame E v) (shear E v) (elastic3D new)) ∧
        (1 - 1e-6) * (law new.acc).1 ≤ vm6 (hooke6 (lame E v) (shear E v) (elastic3D new))) := by
  have hn : 0 < (law new.acc).1 := lt_of_lt_of_le (by norm_num) (hpos _)
  obtain ⟨hup, hstay⟩ := C31_accumulated hA hm hpos h
  obtain ⟨-, -, hel, -⟩ := C28_success h
  obtain ⟨r, hr, r1, r2, r3, r4, -⟩ := vmUpdate_good h
  obtain ⟨hs, hc⟩ := vmReturn_cases hr
  refine ⟨vmFlow (hooke6 (lame E v) (shear E v) (trial3D old inc)), ?_⟩
  rcases hc with ⟨hf, he, hacc, hne, hty⟩ | ⟨hf, -, x, hx, hacc, he⟩
  · have ha : new.acc = old.acc := by rw [r3, hacc]
    refine ⟨fun k => ?_, ha.ge, fun s => inner6_flow_le _ _, ?_, fun hlt => absurd ha hlt.ne'⟩
    · rw [ha, sub_self, zero_mul, sub_zero, r1, he]
    · rw [r1, he, ha]
      rw [ha] at hn
      rw [div_le_iff₀ hn] at hty
      rw [show suTol = 1e-6 from rfl] at hty
      linarith
  · have hpl : new.isPlast = true := by rw [r4]; exact hf
    have hlt := hup hpl
    have hne : ¬ TrialElastic E v law old inc := by rw [← hel, hpl]; simp
    obtain ⟨hd, -⟩ := trial_dev_large (hpos _) hne
    have hxa : new.acc - old.acc = x := by rw [r3, hacc]; ring
    obtain ⟨k, -, -, -, ⟨-, hcv⟩, -⟩ := newton_iff.mp hx
    simp only [vmEval] at hcv
    rw [← hacc, ← r3, abs_of_pos hn, show suTol = 1e-6 from rfl, abs_lt] at hcv
    have e1 := vm6_corrected (inc := x) hd
    have e2 := inner6_corrected (x := x) hd
    rw [← he, ← r1] at e1 e2
    have hp : 0 ≤ vm6 (hooke6 (lame E v) (shear E v) (trial3D old inc)) - 3 * shear E v * x := by
      have : (1e-6 : ℝ) * (law new.acc).1 ≤ (law new.acc).1 := by
        have : (1e-6 : ℝ) ≤ 1 := by norm_num
        nlinarith
      linarith [hcv.1]
    rw [abs_of_nonneg hp] at e1
    refine ⟨fun k => ?_, hlt.le, fun s => inner6_flow_le _ _, ?_, fun _ => ⟨e2.trans e1.symm, ?_⟩⟩
    · rw [r1, he, hxa]
    · rw [e1]; linarith [hcv.2]
    · rw [e1]; linarith [hcv.1]

/-- **C143 (increments).** With every hardening law that never softens: two strain increments from the same
state give elastic strains which are no further apart than the increments, up to the tolerance of the
return mapping. -/
theorem C143_increment {p : PType} {E v : ℝ} (hA : Admissible E v) {law : HardLaw} (hm : NonSoftening law)
    (hpos : ∀ x, 2e-8 ≤ (law x).1) {i j : T2 p.dim} {old s t : VMState p}
    {T T' : Option (Fin p.len → Fin p.len → ℝ)} (hu : vmUpdate p E v law i old = (.good s, T))
    (hv : vmUpdate p E v law j old = (.good t, T')) :
    energyNorm E v (fun k => elastic3D s k - elastic3D t k) ≤ energyNorm E v (increment3D p (i - j)) +
      √(1e-6 * ((law s.acc).1 + (law t.acc).1) * |s.acc - t.acc|) := by
  obtain ⟨n, a1, a2, a3, a4, a5⟩ := step_facts hA hm hpos hu
  obtain ⟨q, b1, b2, b3, b4, b5⟩ := step_facts hA hm hpos hv
  have hinc : ∀ k, increment3D p (i - j) k = increment3D p i k - increment3D p j k := by
    intro k
    cases p
    · fin_cases k <;> simp [increment3D, to3D, mf] <;> ring
    · simp [increment3D, to3D, mf, kel6]
      ring
  have hS : 0 < (law s.acc).1 := lt_of_lt_of_le (by norm_num) (hpos _)
  have hT : 0 < (law t.acc).1 := lt_of_lt_of_le (by norm_num) (hpos _)
  set D : V6 := fun k => elastic3D s k - elastic3D t k with hD
  set x := s.acc - old.acc with hx
  set y := t.acc - old.acc with hy
  set Q := vm6 (hooke6 (lame E v) (shear E v) (elastic3D s)) with hQ
  set R := vm6 (hooke6 (lame E v) (shear E v) (elastic3D t)) with hR
  have hx0 : 0 ≤ x := by rw [hx]; linarith
  have hy0 : 0 ≤ y := by rw [hy]; linarith
  have hlin : ∀ f : V6, inner6 (hooke6 (lame E v) (shear E v) D) f =
      inner6 (hooke6 (lame E v) (shear E v) (elastic3D s)) f -
        inner6 (hooke6 (lame E v) (shear E v) (elastic3D t)) f := by
    intro f
    simp only [inner6, Fin.sum_univ_six, hooke6, tr6, one6, hD]
    simp
    ring
  have hsum : inner6 (hooke6 (lame E v) (shear E v) D) (increment3D p (i - j)) =
      inner6 (hooke6 (lame E v) (shear E v) D) D + x * inner6 (hooke6 (lame E v) (shear E v) D) n -
        y * inner6 (hooke6 (lame E v) (shear E v) D) q := by
    have : ∀ k, increment3D p (i - j) k = D k + x * n k - y * q k := by
      intro k
      rw [hinc, hD]
      simp only
      rw [a1, b1]
      simp only [trial3D]
      ring
    simp only [inner6, this, Fin.sum_univ_six]
    ring
  have t1 : x * (Q - R) ≤ x * inner6 (hooke6 (lame E v) (shear E v) D) n := by
    rcases hx0.eq_or_lt with h0 | h0
    · rw [← h0, zero_mul, zero_mul]
    · refine mul_le_mul_of_nonneg_left ?_ hx0
      rw [hlin, (a5 (by rw [hx] at h0; linarith)).1]
      have := a3 (hooke6 (lame E v) (shear E v) (elastic3D t))
      linarith
  have t2 : y * inner6 (hooke6 (lame E v) (shear E v) D) q ≤ y * (Q - R) := by
    rcases hy0.eq_or_lt with h0 | h0
    · rw [← h0, zero_mul, zero_mul]
    · refine mul_le_mul_of_nonneg_left ?_ hy0
      rw [hlin, (b5 (by rw [hy] at h0; linarith)).1]
      have := b3 (hooke6 (lame E v) (shear E v) (elastic3D s))
      linarith
  have hxy : x - y = s.acc - t.acc := by rw [hx, hy]; ring
  have t3 : -(1e-6 * ((law s.acc).1 + (law t.acc).1) * |s.acc - t.acc|) ≤ (x - y) * (Q - R) := by
    rw [hxy]
    rcases lt_trichotomy s.acc t.acc with hlt | heq | hlt
    · have h1 := (b5 (by linarith)).2
      have h2 := hm _ _ hlt.le
      rw [abs_of_neg (by linarith)]
      have h3 : Q - R ≤ 1e-6 * ((law s.acc).1 + (law t.acc).1) := by linarith
      nlinarith
    · rw [heq, sub_self, abs_zero, mul_zero, zero_mul, neg_zero]
    · have h1 := (a5 (by linarith)).2
      have h2 := hm _ _ hlt.le
      rw [abs_of_pos (by linarith)]
      have h3 : -(1e-6 * ((law s.acc).1 + (law t.acc).1)) ≤ Q - R := by linarith
      nlinarith
  have hcs : inner6 (hooke6 (lame E v) (shear E v) D) (increment3D p (i - j)) ≤
      energyNorm E v D * energyNorm E v (increment3D p (i - j)) := by
    rw [energyNorm_eq hA le_rfl, energyNorm_eq hA le_rfl]
    have := real_inner_le_norm (stateVec E v 0 D 0) (stateVec E v 0 (increment3D p (i - j)) 0)
    rwa [stateVec_inner hA le_rfl, mul_zero, add_zero] at this
  have hsq : energyNorm E v D ^ 2 = inner6 (hooke6 (lame E v) (shear E v) D) D :=
    Real.sq_sqrt (inner6_hooke_nonneg hA D)
  have hN : 0 ≤ energyNorm E v D := Real.sqrt_nonneg _
  have hI : 0 ≤ energyNorm E v (increment3D p (i - j)) := Real.sqrt_nonneg _
  have hε : 0 ≤ 1e-6 * ((law s.acc).1 + (law t.acc).1) * |s.acc - t.acc| :=
    mul_nonneg (mul_nonneg (by norm_num) (by linarith)) (abs_nonneg _)
  set ε := 1e-6 * ((law s.acc).1 + (law t.acc).1) * |s.acc - t.acc| with hε'
  have hfin : energyNorm E v D ^ 2 ≤ energyNorm E v D * energyNorm E v (increment3D p (i - j)) + ε := by
    rw [hsq]
    nlinarith
  have hre := Real.sq_sqrt hε
  have hr0 := Real.sqrt_nonneg ε
  by_contra hlt
  push Not at hlt
  nlinarith

/-! ### Concrete cases -/

/-- Uniaxial straining of a material with `E = 1`, `ν = 0` and yield stress `1 + acc`, and the same with a
disturbed second increment. -/
example : ∃ s t, vmRun .solid 1 0 (linearHardening 1 1) [uniInc 2, uniInc 1] = .good s ∧
    vmRun .solid 1 0 (linearHardening 1 1) [uniInc 2, uniInc 1.1] = .good t ∧
    stateDistance 1 0 1 s t ≤ historyDistance (p := .solid) 1 0 [uniInc 2, uniInc 1] [uniInc 2, uniInc 1.1] +
      2 * (1e-6 * ((1 + 1 * s.acc) + (1 + 1 * t.acc)) / √(3 * shear 1 0 + 1)) :=
  C143_run (p := .solid) ⟨by norm_num, by norm_num, by norm_num⟩ (by norm_num) (by norm_num)
    [uniInc 2, uniInc 1] [uniInc 2, uniInc 1.1] rfl

end Hooke
