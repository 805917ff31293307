import Verif.Spec.Units
import Verif.Props.FrameForces

/-!
# Scaled return mappings
-/

noncomputable section

namespace Hooke

open Spec

theorem lamOf_mul (k E v : ℝ) : lamOf (k * E) v = k * lamOf E v := by
  unfold lamOf
  rw [mul_assoc, mul_div_assoc]

theorem miuOf_mul (k E v : ℝ) : miuOf (k * E) v = k * miuOf E v := by
  unfold miuOf
  rw [mul_div_assoc]

theorem isoTensor_mul (k lam G : ℝ) (a b c d : Fin 3) :
    isoTensor (k * lam) (k * G) a b c d = k * isoTensor lam G a b c d := by
  unfold isoTensor
  ring

theorem hooke6_mul (k lam G : ℝ) (e : V6) : hooke6 (k * lam) (k * G) e = fun i => k * hooke6 lam G e i := by
  funext i
  simp only [hooke6]
  ring

theorem dev6_mul (k : ℝ) (x : V6) : dev6 (fun i => k * x i) = fun i => k * dev6 x i := by
  funext i
  simp only [dev6, tr6]
  ring

theorem newtonLoop_unit {f f' : ℝ → NewtonEval} {k : ℝ} (hk : k ≠ 0)
    (h : ∀ x, f' x = ⟨k * (f x).residual, k * (f x).scale, k * (f x).jacobian⟩) (tol : ℝ) (fuel : ℕ) :
    ∀ n x, newtonLoop f' tol fuel n x = newtonLoop f tol fuel n x := by
  have hs : ∀ x, (f' x).small tol ↔ (f x).small tol := by
    intro x
    unfold NewtonEval.small
    rw [h x]
    simp only [mul_ne_zero_iff, ne_eq, hk, not_false_eq_true, true_and, mul_div_mul_left _ _ hk]
  have hj : ∀ x, (f' x).jacobian = 0 ↔ (f x).jacobian = 0 := by
    intro x
    rw [h x]
    simp only [mul_eq_zero, hk, false_or]
  have hr : ∀ x, -(f' x).residual / (f' x).jacobian = -(f x).residual / (f x).jacobian := by
    intro x
    rw [h x, ← mul_neg, mul_div_mul_left _ _ hk]
  induction fuel with
  | zero =>
    intro n x
    unfold newtonLoop
    simp only [hs]
  | succ fuel ih =>
    intro n x
    unfold newtonLoop
    simp only [hs, hj, hr, ih]

theorem ratio_unit {k : ℝ} (hk : 0 < k) (q sy : ℝ) :
    (k * sy ≠ 0 ∧ (k * q - k * sy) / (k * sy) ≤ suTol) ↔ (sy ≠ 0 ∧ (q - sy) / sy ≤ suTol) := by
  rw [← mul_sub, mul_div_mul_left _ _ hk.ne', mul_ne_zero_iff]
  simp [hk.ne']

/-- A return mapping with the stresses in another unit. -/
def UnitVMReturn (k : ℝ) (r r' : VMReturn) : Prop :=
  r'.eStrain = r.eStrain ∧ (r'.stress = fun i => k * r.stress i) ∧ r'.acc = r.acc ∧ r'.isPlast = r.isPlast ∧
    r'.tangent = fun i j => k * r.tangent i j

theorem unitNorm {k : ℝ} (hk : 0 < k) (x : V6) : norm6 (fun i => k * x i) = k * norm6 x := by
  rw [norm6_smul, abs_of_pos hk]

/-- A trial state that is not elastic has a deviator above the threshold. -/
theorem above_of_plastic {n sy : ℝ} (h : 2e-8 ≤ sy) (hne : ¬ (sy ≠ 0 ∧ (√(3 / 2) * n - sy) / sy ≤ suTol)) :
    suSmall < n := by
  have hsy : 0 < sy := lt_of_lt_of_le (by norm_num) h
  have hlt : suTol < (√(3 / 2) * n - sy) / sy := by
    by_contra hc
    exact hne ⟨hsy.ne', not_lt.1 hc⟩
  rw [lt_div_iff₀ hsy] at hlt
  have ht : (0 : ℝ) < suTol := by unfold suTol; norm_num
  have h2 : √(3 / 2 : ℝ) < 2 := by
    rw [show (2 : ℝ) = √4 by rw [show (4 : ℝ) = 2 ^ 2 by norm_num, Real.sqrt_sq (by norm_num)]]
    exact Real.sqrt_lt_sqrt (by norm_num) (by norm_num)
  have h0 : 0 < √(3 / 2 : ℝ) := by positivity
  have hn : 0 < n := by
    by_contra hc
    have : √(3 / 2 : ℝ) * n ≤ 0 := mul_nonpos_of_nonneg_of_nonpos h0.le (not_lt.1 hc)
    nlinarith [mul_pos ht hsy]
  have hs : suSmall = 1e-8 := rfl
  rw [hs]
  nlinarith [mul_pos ht hsy]

theorem vmReturn_unit {k : ℝ} (hk : 0 < k) (E v : ℝ) (law : HardLaw) (e : V6) (acc : ℝ)
    (hw : WellAbove k (law acc).1) :
    Option.Rel (UnitVMReturn k) (vmReturn E v law e acc) (vmReturn (k * E) v (unitLaw k law) e acc) := by
  have hG : k * E / (2 * (1 + v)) = k * (E / (2 * (1 + v))) := mul_div_assoc _ _ _
  unfold vmReturn
  simp only [mv6_iso, mv6_devprojsym, lamOf_mul, miuOf_mul, hooke6_mul, dev6_mul, unitNorm hk, hG]
  have hq : √(3 / 2) * (k * norm6 (dev6 (hooke6 (lamOf E v) (miuOf E v) e))) =
      k * (√(3 / 2) * norm6 (dev6 (hooke6 (lamOf E v) (miuOf E v) e))) := by ring
  simp only [hq, unitLaw, ratio_unit hk]
  split
  · refine .some ⟨rfl, rfl, rfl, rfl, ?_⟩
    funext i j
    simp only [kel66, isoTensor_mul]
    ring
  · rename_i hne
    have h1 : norm6 (dev6 (hooke6 (lamOf E v) (miuOf E v) e)) > suSmall := above_of_plastic hw.1 hne
    have h2 : k * norm6 (dev6 (hooke6 (lamOf E v) (miuOf E v) e)) > suSmall := by
      refine above_of_plastic hw.2 ?_
      rw [hq, ratio_unit hk]
      exact hne
    set dev := dev6 (hooke6 (lamOf E v) (miuOf E v) e) with hdev
    have hn : norm6 dev ≠ 0 := (lt_trans (by unfold suSmall; norm_num) h1).ne'
    have hloop : newtonLoop (vmEval (k * (E / (2 * (1 + v)))) (k * (√(3 / 2) * norm6 dev)) acc
        (unitLaw k law)) suTol suMaxIter 0 0 =
        newtonLoop (vmEval (E / (2 * (1 + v))) (√(3 / 2) * norm6 dev) acc law) suTol suMaxIter 0 0 := by
      refine newtonLoop_unit hk.ne' (fun x => ?_) _ _ _ _
      simp only [vmEval, unitLaw, NewtonEval.mk.injEq]
      refine ⟨by ring, trivial, by ring⟩
    have hfl : ∀ i, √(3 / 2) * (1 / (k * norm6 dev)) * (k * dev i) =
        √(3 / 2) * (1 / norm6 dev) * dev i := by
      intro i
      field_simp
    simp only [if_pos h1, if_pos h2, hloop, hfl]
    generalize newtonLoop (vmEval (E / (2 * (1 + v))) (√(3 / 2) * norm6 dev) acc law) suTol suMaxIter 0 0 = o
    cases o with
    | none => exact .none
    | some inc =>
      refine .some ⟨rfl, rfl, rfl, rfl, ?_⟩
      funext i j
      have f1 : inc * 6 * (k * (E / (2 * (1 + v)))) ^ 2 / (k * (√(3 / 2) * norm6 dev)) =
          k * (inc * 6 * (E / (2 * (1 + v))) ^ 2 / (√(3 / 2) * norm6 dev)) := by
        have : √(3 / 2 : ℝ) ≠ 0 := by positivity
        rw [show inc * 6 * (k * (E / (2 * (1 + v)))) ^ 2 = k * (k * (inc * 6 * (E / (2 * (1 + v))) ^ 2)) by ring,
          mul_div_mul_left _ _ hk.ne', mul_div_assoc]
      have f2 : 6 * (k * (E / (2 * (1 + v)))) ^ 2 * (inc / (k * (√(3 / 2) * norm6 dev)) -
          1 / (3 * (k * (E / (2 * (1 + v)))) + k * (law (acc + inc)).2)) =
          k * (6 * (E / (2 * (1 + v))) ^ 2 * (inc / (√(3 / 2) * norm6 dev) -
            1 / (3 * (E / (2 * (1 + v))) + (law (acc + inc)).2))) := by
        have g1 : inc / (k * (√(3 / 2) * norm6 dev)) = k⁻¹ * (inc / (√(3 / 2) * norm6 dev)) := by
          rw [div_mul_eq_div_div, div_right_comm, div_eq_inv_mul _ k]
        have g2 : 1 / (3 * (k * (E / (2 * (1 + v)))) + k * (law (acc + inc)).2) =
            k⁻¹ * (1 / (3 * (E / (2 * (1 + v))) + (law (acc + inc)).2)) := by
          rw [show 3 * (k * (E / (2 * (1 + v)))) + k * (law (acc + inc)).2 =
            k * (3 * (E / (2 * (1 + v))) + (law (acc + inc)).2) by ring, one_div, mul_inv, one_div]
        rw [g1, g2]
        field_simp
      simp only [kel66, isoTensor_mul, f1, f2]
      ring

theorem to2D_mul (p : PType) (k : ℝ) (x : V6) : to2D p (fun i => k * x i) = fun i => k * to2D p x i := by
  cases p with
  | solid => rfl
  | plane =>
    funext i
    fin_cases i <;> rfl

theorem get33_mul (p : PType) (k : ℝ) (x : V6) : get33 p (fun i => k * x i) = k * get33 p x := by
  cases p with
  | solid => simp [get33]
  | plane => rfl

theorem to3D_mul (p : PType) (k : ℝ) (x : Vmf p) (c : ℝ) :
    to3D p (fun i => k * x i) (k * c) = fun i => k * to3D p x c i := by
  cases p with
  | solid => rfl
  | plane =>
    funext i
    fin_cases i <;> simp [to3D]

theorem to2DM_scale (p : PType) (k : ℝ) (T : M6) :
    to2DM p (fun i j => k * T i j) = fun i j => k * to2DM p T i j := by
  cases p <;> rfl

/-- One step of the von Mises model in another unit. -/
theorem vmUpdate_unit {p : PType} {k : ℝ} (hk : 0 < k) (E v : ℝ) (law : HardLaw) (inc : T2 p.dim)
    (old : VMState p) (hw : WellAbove k (law old.acc).1) :
    (vmUpdate p (k * E) v (unitLaw k law) inc (unitVM p k old)).1 =
        unitVMVars p k (vmUpdate p E v law inc old).1 ∧
      (vmUpdate p (k * E) v (unitLaw k law) inc (unitVM p k old)).2 =
        (vmUpdate p E v law inc old).2.map fun T i j => k * T i j := by
  have hr := vmReturn_unit hk E v law (to3D p old.eStrain old.e33 + to3D p (mf p inc) 0) old.acc hw
  unfold vmUpdate
  simp only [unitVM]
  generalize vmReturn (k * E) v (unitLaw k law) (to3D p old.eStrain old.e33 + to3D p (mf p inc) 0)
    old.acc = o' at hr ⊢
  generalize vmReturn E v law (to3D p old.eStrain old.e33 + to3D p (mf p inc) 0) old.acc = o at hr ⊢
  cases hr with
  | none => exact ⟨rfl, rfl⟩
  | some hr =>
    obtain ⟨h1, h2, h3, h4, h5⟩ := hr
    simp only [unitVMVars, unitVM, h1, h2, h3, h4, h5, to2D_mul, get33_mul, to2DM_scale, Option.map_some]
    exact ⟨trivial, trivial⟩

/-- A return mapping with mixed hardening with the stresses in another unit. -/
def UnitMixReturn (k : ℝ) (r r' : MixReturn) : Prop :=
  r'.eStrain = r.eStrain ∧ (r'.stress = fun i => k * r.stress i) ∧ r'.acc = r.acc ∧
    (r'.back = fun i => k * r.back i) ∧ r'.isPlast = r.isPlast ∧ r'.tangent = fun i j => k * r.tangent i j

theorem mixReturn_unit {k : ℝ} (hk : 0 < k) (E v : ℝ) (law kin : HardLaw) (e : V6) (acc : ℝ) (back : V6)
    (hw : WellAbove k (law acc).1) :
    Option.Rel (UnitMixReturn k) (mixReturn E v law kin e acc back)
      (mixReturn (k * E) v (unitLaw k law) (unitLaw k kin) e acc fun i => k * back i) := by
  have hG : k * E / (2 * (1 + v)) = k * (E / (2 * (1 + v))) := mul_div_assoc _ _ _
  unfold mixReturn
  simp only [mv6_iso, mv6_devprojsym, lamOf_mul, miuOf_mul, hooke6_mul, dev6_mul, ← mul_sub, unitNorm hk, hG]
  set rel : V6 := fun i => dev6 (hooke6 (lamOf E v) (miuOf E v) e) i - back i with hrel
  have hq : √(3 / 2) * (k * norm6 rel) = k * (√(3 / 2) * norm6 rel) := by ring
  simp only [hq, unitLaw, ratio_unit hk]
  split
  · refine .some ⟨rfl, rfl, rfl, rfl, rfl, ?_⟩
    funext i j
    simp only [kel66, isoTensor_mul]
    ring
  · rename_i hne
    have h1 : norm6 rel > suSmall := above_of_plastic hw.1 hne
    have h2 : k * norm6 rel > suSmall := by
      refine above_of_plastic hw.2 ?_
      rw [hq, ratio_unit hk]
      exact hne
    have hn : norm6 rel ≠ 0 := (lt_trans (by unfold suSmall; norm_num) h1).ne'
    have hloop : newtonLoop (mixEval (k * (E / (2 * (1 + v)))) (k * (√(3 / 2) * norm6 rel)) acc
        (unitLaw k law) (unitLaw k kin)) suTol suMaxIter 0 0 =
        newtonLoop (mixEval (E / (2 * (1 + v))) (√(3 / 2) * norm6 rel) acc law kin) suTol suMaxIter 0 0 := by
      refine newtonLoop_unit hk.ne' (fun x => ?_) _ _ _ _
      simp only [mixEval, unitLaw, NewtonEval.mk.injEq]
      refine ⟨by ring, trivial, by ring⟩
    have hfl : (fun i => √(3 / 2) * (1 / (k * norm6 rel)) *
        (k * (dev6 (hooke6 (lamOf E v) (miuOf E v) e) i - back i))) =
        fun i => √(3 / 2) * (1 / norm6 rel) * (dev6 (hooke6 (lamOf E v) (miuOf E v) e) i - back i) := by
      funext i
      field_simp
    have hfl' : ∀ i, √(3 / 2) * (1 / (k * norm6 rel)) *
        (k * (dev6 (hooke6 (lamOf E v) (miuOf E v) e) i - back i)) =
        √(3 / 2) * (1 / norm6 rel) * (dev6 (hooke6 (lamOf E v) (miuOf E v) e) i - back i) := congrFun hfl
    simp only [if_pos h1, if_pos h2, hloop, hfl']
    generalize newtonLoop (mixEval (E / (2 * (1 + v))) (√(3 / 2) * norm6 rel) acc law kin) suTol suMaxIter 0 0 = o
    cases o with
    | none => exact .none
    | some inc =>
      refine .some ⟨rfl, rfl, rfl, ?_, rfl, ?_⟩
      · funext i
        ring
      funext i j
      have f1 : inc * 6 * (k * (E / (2 * (1 + v)))) ^ 2 / (k * (√(3 / 2) * norm6 rel)) =
          k * (inc * 6 * (E / (2 * (1 + v))) ^ 2 / (√(3 / 2) * norm6 rel)) := by
        rw [show inc * 6 * (k * (E / (2 * (1 + v)))) ^ 2 = k * (k * (inc * 6 * (E / (2 * (1 + v))) ^ 2)) by ring,
          mul_div_mul_left _ _ hk.ne', mul_div_assoc]
      have f2 : 6 * (k * (E / (2 * (1 + v)))) ^ 2 * (inc / (k * (√(3 / 2) * norm6 rel)) -
          1 / (3 * (k * (E / (2 * (1 + v)))) + k * (kin (acc + inc)).2 + k * (law (acc + inc)).2)) =
          k * (6 * (E / (2 * (1 + v))) ^ 2 * (inc / (√(3 / 2) * norm6 rel) -
            1 / (3 * (E / (2 * (1 + v))) + (kin (acc + inc)).2 + (law (acc + inc)).2))) := by
        have g1 : inc / (k * (√(3 / 2) * norm6 rel)) = k⁻¹ * (inc / (√(3 / 2) * norm6 rel)) := by
          rw [div_mul_eq_div_div, div_right_comm, div_eq_inv_mul _ k]
        have g2 : 1 / (3 * (k * (E / (2 * (1 + v)))) + k * (kin (acc + inc)).2 + k * (law (acc + inc)).2) =
            k⁻¹ * (1 / (3 * (E / (2 * (1 + v))) + (kin (acc + inc)).2 + (law (acc + inc)).2)) := by
          rw [show 3 * (k * (E / (2 * (1 + v)))) + k * (kin (acc + inc)).2 + k * (law (acc + inc)).2 =
            k * (3 * (E / (2 * (1 + v))) + (kin (acc + inc)).2 + (law (acc + inc)).2) by ring, one_div, mul_inv,
            one_div]
        rw [g1, g2]
        field_simp
      simp only [kel66, isoTensor_mul, f1, f2]
      ring

/-- One step of the model with mixed hardening in another unit. -/
theorem mixUpdate_unit {p : PType} {k : ℝ} (hk : 0 < k) (E v : ℝ) (law kin : HardLaw) (inc : T2 p.dim)
    (old : MixState p) (hw : WellAbove k (law old.acc).1) :
    (mixUpdate p (k * E) v (unitLaw k law) (unitLaw k kin) inc (unitMix p k old)).1 =
        unitMixVars p k (mixUpdate p E v law kin inc old).1 ∧
      (mixUpdate p (k * E) v (unitLaw k law) (unitLaw k kin) inc (unitMix p k old)).2 =
        (mixUpdate p E v law kin inc old).2.map fun T i j => k * T i j := by
  have hr := mixReturn_unit hk E v law kin (to3D p old.eStrain old.e33 + to3D p (mf p inc) 0) old.acc
    (to3D p old.back old.b33) hw
  unfold mixUpdate
  simp only [unitMix, unitVM, to3D_mul]
  generalize mixReturn (k * E) v (unitLaw k law) (unitLaw k kin)
    (to3D p old.eStrain old.e33 + to3D p (mf p inc) 0) old.acc
    (fun i => k * to3D p old.back old.b33 i) = o' at hr ⊢
  generalize mixReturn E v law kin (to3D p old.eStrain old.e33 + to3D p (mf p inc) 0) old.acc
    (to3D p old.back old.b33) = o at hr ⊢
  cases hr with
  | none => exact ⟨rfl, rfl⟩
  | some hr =>
    obtain ⟨h1, h2, h3, h4, h5, h6⟩ := hr
    simp only [unitMixVars, unitMix, unitVM, h1, h2, h3, h4, h5, h6, to2D_mul, get33_mul, to2DM_scale,
      Option.map_some]
    exact ⟨trivial, trivial⟩

end Hooke
