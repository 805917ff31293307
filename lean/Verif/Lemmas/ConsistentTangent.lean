import Verif.Spec.ConsistentTangent
import Verif.Lemmas.Plasticity
import Mathlib.Analysis.Calculus.FDeriv.Add
import Mathlib.Analysis.Calculus.FDeriv.Mul
import Mathlib.Analysis.Calculus.FDeriv.Pi
import Mathlib.Analysis.Calculus.FDeriv.Comp
import Mathlib.Analysis.Calculus.FDeriv.Pow
import Mathlib.Analysis.Calculus.FDeriv.Linear
import Mathlib.Analysis.SpecialFunctions.Sqrt
import Mathlib.Analysis.Calculus.Deriv.Inv

/-! # Derivative of the von Mises return mapping -/

noncomputable section

namespace Hooke

open Spec
open scoped Topology

/-- Hooke's law as a continuous linear map. -/
def hookeL (lam G : ℝ) : V6 →L[ℝ] V6 := LinearMap.toContinuousLinearMap
  { toFun := hooke6 lam G
    map_add' := fun a b => by funext k; simp only [hooke6, tr6, Pi.add_apply]; ring
    map_smul' := fun c a => by
      funext k; simp only [hooke6, tr6, Pi.smul_apply, smul_eq_mul, RingHom.id_apply]; ring }

/-- The deviator of Hooke's law as a continuous linear map. -/
def devHookeL (lam G : ℝ) : V6 →L[ℝ] V6 := LinearMap.toContinuousLinearMap
  { toFun := fun e => dev6 (hooke6 lam G e)
    map_add' := fun a b => by
      funext k; simp only [dev6, hooke6, tr6, Pi.add_apply]; ring
    map_smul' := fun c a => by
      funext k; simp only [dev6, hooke6, tr6, Pi.smul_apply, smul_eq_mul, RingHom.id_apply]; ring }

@[simp] theorem hookeL_apply (lam G : ℝ) (e : V6) : hookeL lam G e = hooke6 lam G e := rfl
@[simp] theorem devHookeL_apply (lam G : ℝ) (e : V6) :
    devHookeL lam G e = dev6 (hooke6 lam G e) := rfl

/-- Component of a Kelvin vector as a continuous linear map. -/
abbrev pr6 (k : Fin 6) : V6 →L[ℝ] ℝ := ContinuousLinearMap.proj k

theorem hasFDerivAt_norm6 (A : V6 →L[ℝ] V6) {e : V6} (h : norm6 (A e) ≠ 0) :
    HasFDerivAt (fun e => norm6 (A e))
      ((1 / norm6 (A e)) • ∑ k, (A e k) • (pr6 k).comp A) e := by
  have hk : ∀ k, HasFDerivAt (fun e => A e k) ((pr6 k).comp A) e := fun k =>
    ((pr6 k).comp A).hasFDerivAt
  have hsum : HasFDerivAt (fun e => ∑ k, A e k ^ 2)
      (∑ k, (2 * A e k) • (pr6 k).comp A) e := by
    refine HasFDerivAt.fun_sum (fun k _ => ?_)
    have := (hk k).pow 2
    simpa using this
  have hne : (∑ k, A e k ^ 2) ≠ 0 := by
    intro h0; apply h; simp [norm6, h0]
  have := hsum.sqrt hne
  have e2 : √(∑ k, A e k ^ 2) = norm6 (A e) := rfl
  rw [e2] at this
  refine this.congr_fderiv ?_
  ext d
  simp only [ContinuousLinearMap.smul_apply, ContinuousLinearMap.sum_apply, smul_eq_mul,
    Finset.mul_sum]
  refine Finset.sum_congr rfl fun k _ => ?_
  field_simp

variable {F : Type*} [NormedAddCommGroup F] [NormedSpace ℝ F]

theorem hasFDerivAt_corrected (lam G : ℝ) {x : F → ℝ} {x' : F →L[ℝ] ℝ} {t : F → V6}
    {t' : F →L[ℝ] V6} {u : F} (h : norm6 (dev6 (hooke6 lam G (t u))) ≠ 0)
    (ht : HasFDerivAt t t' u) (hx : HasFDerivAt x x' u) :
    ∃ L : F →L[ℝ] V6,
      (∀ d k, L d k = hooke6 lam G (t' d) k -
        2 * G * √(3 / 2) * (x' d / norm6 (dev6 (hooke6 lam G (t u))) * dev6 (hooke6 lam G (t u)) k +
          x u / norm6 (dev6 (hooke6 lam G (t u))) * dev6 (hooke6 lam G (t' d)) k -
          x u * (∑ j, dev6 (hooke6 lam G (t u)) j * dev6 (hooke6 lam G (t' d)) j) /
            norm6 (dev6 (hooke6 lam G (t u))) ^ 3 * dev6 (hooke6 lam G (t u)) k)) ∧
      HasFDerivAt (fun u k => hooke6 lam G (t u) k - 2 * G * x u *
        (√(3 / 2) / norm6 (dev6 (hooke6 lam G (t u)))) * dev6 (hooke6 lam G (t u)) k) L u := by
  have hn := (hasFDerivAt_norm6 (devHookeL lam G) h).comp u ht
  have hinv := (hasDerivAt_inv h).comp_hasFDerivAt u hn
  have hk : ∀ k, HasFDerivAt (fun u => hooke6 lam G (t u) k - 2 * G * x u *
        (√(3 / 2) / norm6 (dev6 (hooke6 lam G (t u)))) * dev6 (hooke6 lam G (t u)) k) _ u := fun k =>
    HasFDerivAt.fun_sub (((pr6 k).comp (hookeL lam G)).hasFDerivAt.comp u ht)
      (HasFDerivAt.fun_mul (HasFDerivAt.fun_mul (hx.const_mul (2 * G)) (hinv.const_mul √(3 / 2)))
        (((pr6 k).comp (devHookeL lam G)).hasFDerivAt.comp u ht))
  refine ⟨_, ?_, hasFDerivAt_pi.mpr hk⟩
  intro d k
  simp
  field_simp
  ring

/-- The plastic multiplier is differentiable where the yield condition has a derivative. -/
theorem hasFDerivAt_multiplier {q x : F → ℝ} {q' : F →L[ℝ] ℝ} {e : F} {y : ℝ → ℝ} {G H acc : ℝ}
    (hG : 0 < G) (hH : 0 ≤ H) (hmono : ∀ a b, a ≤ b → y a ≤ y b) (hq : HasFDerivAt q q' e)
    (hx : ∀ᶠ e' in 𝓝 e, q e' - 3 * G * x e' = y (acc + x e'))
    (hy : HasDerivAt y H (acc + x e)) :
    HasFDerivAt x ((1 / (3 * G + H)) • q') e := by
  have hD : 0 < 3 * G + H := by linarith
  have hbound : ∀ᶠ e' in 𝓝 e, |x e' - x e| ≤ |q e' - q e| / (3 * G) := by
    filter_upwards [hx] with e' he'
    have h0 := hx.self_of_nhds
    rw [le_div_iff₀ (by linarith)]
    rcases le_total (x e) (x e') with h | h
    · have := hmono (acc + x e) (acc + x e') (by linarith)
      rw [abs_of_nonneg (by linarith : 0 ≤ x e' - x e)]
      refine le_trans ?_ (le_abs_self _)
      linarith
    · have := hmono (acc + x e') (acc + x e) (by linarith)
      rw [abs_of_nonpos (by linarith : x e' - x e ≤ 0)]
      refine le_trans ?_ (neg_le_abs _)
      linarith
  have hO : (fun e' => x e' - x e) =O[𝓝 e] fun e' => e' - e := by
    refine Asymptotics.IsBigO.trans (g := fun e' => q e' - q e) ?_ hq.isBigO_sub
    refine Asymptotics.IsBigO.of_bound (1 / (3 * G)) ?_
    filter_upwards [hbound] with e' he'
    rw [Real.norm_eq_abs, Real.norm_eq_abs]
    calc _ ≤ _ := he'
      _ = _ := by ring
  have hcont : Filter.Tendsto (fun e' => acc + x e') (𝓝 e) (𝓝 (acc + x e)) := by
    have h1 : Filter.Tendsto (fun e' => x e' - x e) (𝓝 e) (𝓝 0) := by
      refine hO.trans_tendsto ?_
      have : Filter.Tendsto (fun e' : F => e' - e) (𝓝 e) (𝓝 (e - e)) :=
        (continuous_id.sub continuous_const).tendsto e
      simpa using this
    have h2 := h1.const_add (acc + x e)
    simp only [add_zero] at h2
    exact h2.congr (fun e' => by ring)
  have hyo : (fun e' => y (acc + x e') - y (acc + x e) - H * (x e' - x e)) =o[𝓝 e]
      fun e' => e' - e := by
    have := (hasDerivAt_iff_isLittleO.mp hy).comp_tendsto hcont
    have h2 : (fun e' => y (acc + x e') - y (acc + x e) - H * (x e' - x e)) =o[𝓝 e]
        fun e' => x e' - x e := by
      refine this.congr (fun e' => ?_) (fun e' => ?_)
      · simp only [Function.comp, smul_eq_mul]; ring
      · simp only [Function.comp]; ring
    exact h2.trans_isBigO hO
  have hqo := hasFDerivAt_iff_isLittleO.mp hq
  refine hasFDerivAt_iff_isLittleO.mpr ?_
  have := ((hqo.sub hyo).const_mul_left (1 / (3 * G + H)))
  refine this.congr' ?_ Filter.EventuallyEq.rfl
  filter_upwards [hx] with e' he'
  have h0 := hx.self_of_nhds
  simp only [smul_eq_mul, FunLike.coe_smul, Pi.smul_apply]
  field_simp
  linarith

theorem mv6_dyad (f g d : V6) (c : ℝ) (k : Fin 6) :
    mv6 (kel66 (dyad22_1 (fun i j => c * unkel6 f i j) (fun i j => c * unkel6 g i j))) d k =
      c ^ 2 * (∑ j, g j * d j) * f k := by
  have h : ∀ (f : V6) k, unkel6 f (ci k) (cj k) * kf k = f k := fun f k => congrFun (kel6_unkel6 f) k
  simp only [mv6, kel66, dyad22_1, Finset.mul_sum, Finset.sum_mul]
  refine Finset.sum_congr rfl fun j _ => ?_
  calc _ = c ^ 2 * (unkel6 g (ci j) (cj j) * kf j * d j) * (unkel6 f (ci k) (cj k) * kf k) := by ring
    _ = _ := by rw [h, h]

theorem mv6_kel66_lin (A B C : T4 3) (a b : ℝ) (d : V6) (k : Fin 6) :
    mv6 (kel66 fun i j k l => A i j k l - a * B i j k l + b * C i j k l) d k =
      mv6 (kel66 A) d k - a * mv6 (kel66 B) d k + b * mv6 (kel66 C) d k := by
  simp only [mv6, kel66, Fin.sum_univ_succ, Fin.sum_univ_zero]
  ring

/-- The tangent of a plastic step. -/
theorem vmReturn_tangent {E v : ℝ} {law : HardLaw} {eT : V6} {acc : ℝ} {r : VMReturn}
    (h : vmReturn E v law eT acc = some r) (hp : r.isPlast = true) (d : V6) (k : Fin 6) :
    mv6 r.tangent d k = hooke6 (lame E v) (shear E v) d k -
      (r.acc - acc) * 6 * shear E v ^ 2 / vm6 (hooke6 (lame E v) (shear E v) eT) * dev6 d k +
      6 * shear E v ^ 2 * ((r.acc - acc) / vm6 (hooke6 (lame E v) (shear E v) eT) -
        1 / (3 * shear E v + (law r.acc).2)) *
        ((2 / 3) * (∑ j, vmFlow (hooke6 (lame E v) (shear E v) eT) j * d j) *
          vmFlow (hooke6 (lame E v) (shear E v) eT) k) := by
  have hl : lamOf E v = lame E v := rfl
  have hm : miuOf E v = shear E v := rfl
  have hG : E / (2 * (1 + v)) = shear E v := rfl
  unfold vmReturn at h
  simp only [mv6_iso, mv6_devprojsym, hl, hm, hG, ← vm6_eq] at h
  split at h
  · cases h; cases hp
  · split at h
    · cases h
    · rename_i inc hinc
      cases h
      have hadd : acc + inc - acc = inc := by ring
      simp only [hadd]
      have h23 : √(2 / 3 : ℝ) ^ 2 = 2 / 3 := Real.sq_sqrt (by norm_num)
      refine (mv6_kel66_lin _ _ _ _ _ _ _).trans ?_
      rw [mv6_iso, mv6_devprojsym, mv6_dyad, h23]
      rfl

end Hooke
