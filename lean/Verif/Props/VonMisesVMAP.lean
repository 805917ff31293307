import Verif.Lemmas.PlasticityVMAP
import Verif.Props.VonMises

/-! # C33, C34: batched von Mises model -/

noncomputable section

namespace Hooke

open Spec

/-! ### C33 -/

/-- C33a: the masked loop, which always runs all its iterations, ends with its flag set exactly
when the early-exit loop with the same limit converges, and then holds the same multiplier. -/
theorem C33_masked_loop (f : ℝ → NewtonEval) (tol : ℝ) (n : ℕ) :
    ((maskedLoop f tol false n).2 = true ↔ (newtonLoop f tol n 0 0).isSome) ∧
    ((maskedLoop f tol false n).2 = true → (maskedLoop f tol false n).1 = newtonLoop f tol n 0 0) := by
  have h := maskedLoop_eq f tol n
  have h2 : (maskedLoop f tol false n).2 = true → (maskedLoop f tol false n).1.isSome := by
    have h' : maskedLoop f tol false n = maskRun f tol (n + 1) := rfl
    rw [h']
    rcases maskRun_inv f tol (n + 1) with ⟨k, y, -, -, -, -, -, h6⟩ | ⟨-, h6⟩
    · rw [h6]; intro; rfl
    · rw [h6]; intro h; cases h
  constructor
  · constructor
    · intro hc
      rw [if_pos hc] at h
      rw [← h]; exact h2 hc
    · intro hs
      by_contra hc
      rw [if_neg hc] at h
      rw [← h] at hs; cases hs
  · intro hc
    rw [if_pos hc] at h
    exact h

/-- C33b: an elastic sample leaves the masked loop as it entered it. -/
theorem C33_masked_elastic (f : ℝ → NewtonEval) (tol : ℝ) (n : ℕ) :
    maskedLoop f tol true n = (some 0, true) := by
  have : ∀ m, (List.range (m + 1)).foldl (fun s nrIter => maskStep f tol true s.1 nrIter)
      (some 0, false) = (some 0, true) := by
    intro m
    induction m with
    | zero => simp [maskStep]
    | succ m ih => rw [List.range_succ, List.foldl_append, ih]; simp [maskStep]
  exact this n

/-- Relation between the update of a state and the 3D return mapping. -/
theorem vmapUpdate_good {p : PType} {E v : ℝ} {law : HardLaw} {inc : T2 p.dim}
    {old new : VMState p} {T : Option (Fin p.len → Fin p.len → ℝ)}
    (h : vmapUpdate p E v law inc old = (.good new, T)) :
    ∃ r, vmapReturn E v law (trial3D old inc) old.acc = some r ∧ elastic3D new = r.eStrain ∧
      stress3D new = r.stress ∧ new.acc = r.acc ∧ new.isPlast = r.isPlast ∧ new.isSuFail = false ∧
      new.strain = old.strain + mf p inc ∧ T = some (to2DM p r.tangent) := by
  unfold vmapUpdate at h
  have htr : to3D p old.eStrain old.e33 + to3D p (mf p inc) 0 = trial3D old inc := rfl
  simp only [htr] at h
  cases hr : vmapReturn E v law (trial3D old inc) old.acc with
  | none => rw [hr] at h; simp at h
  | some r =>
    rw [hr] at h
    simp only [Prod.mk.injEq, VMVars.good.injEq] at h
    obtain ⟨rfl, rfl⟩ := h
    have hpl : Planar p r.eStrain := by
      rcases (vmapReturn_cases hr).2 with ⟨-, he, -⟩ | ⟨-, -, i, -, -, he⟩
      · rw [he]; exact planar_trial old inc
      · rw [he]
        refine planar_sub_smul i (planar_trial old inc) ?_
        intro hp
        obtain ⟨h4, h5⟩ := planar_dev6 (planar_hooke6 (lame E v) (shear E v)
          (planar_trial old inc)) hp
        simp [vmapFlow, h4, h5]
    refine ⟨r, rfl, to3D_to2D hpl, ?_, rfl, rfl, rfl, ?_, rfl⟩
    · refine to3D_to2D ?_
      rw [(vmapReturn_cases hr).1]
      exact planar_hooke6 _ _ hpl
    · show to2D p (trial3D old inc) + (old.strain - old.eStrain) = _
      rw [← htr, to2D_add, to2D_to3D, to2D_to3D]
      abel

theorem newtonLoop_mono {f : ℝ → NewtonEval} {tol : ℝ} {m n : ℕ} (hmn : m ≤ n) {y : ℝ}
    (h : newtonLoop f tol m 0 0 = some y) : newtonLoop f tol n 0 0 = some y := by
  obtain ⟨k, h1, h2, h3⟩ := newton_iff.mp h
  exact newton_iff.mpr ⟨k, h1, h2.trans hmn, h3⟩

theorem vmReturn_elastic_tangent {E v : ℝ} {law : HardLaw} {e : V6} {acc : ℝ} {r : VMReturn}
    (h : vmReturn E v law e acc = some r) (hp : r.isPlast = false) :
    r.tangent = kel66 (isoTensor (lamOf E v) (miuOf E v)) := by
  unfold vmReturn at h
  dsimp only at h
  split_ifs at h <;>
    first
      | (obtain rfl := Option.some.inj h; rfl)
      | (split at h
         · cases h
         · obtain rfl := Option.some.inj h; cases hp)

theorem vmapReturn_elastic_tangent {E v : ℝ} {law : HardLaw} {e : V6} {acc : ℝ} {r : VMReturn}
    (h : vmapReturn E v law e acc = some r) (hp : r.isPlast = false) :
    r.tangent = kel66 (isoTensor (lamOf E v) (miuOf E v)) := by
  unfold vmapReturn at h
  dsimp only at h
  split at h
  · cases h
  · obtain rfl := Option.some.inj h
    simp only at hp
    simp [hp]

/-- C33c: whenever the batched state update succeeds, the standard one succeeds from the same state
with the same increment, with the same total strain, the same accumulated plastic strain (hence the
same plastic multiplier) and the same plasticity flag; in an elastic step everything is equal. -/
theorem C33_batched_refines_standard {p : PType} {E v : ℝ} {law : HardLaw} {inc : T2 p.dim}
    {old new : VMState p} {T : Option (Fin p.len → Fin p.len → ℝ)}
    (h : vmapUpdate p E v law inc old = (.good new, T)) :
    ∃ new' T', vmUpdate p E v law inc old = (.good new', T') ∧ new'.strain = new.strain ∧
      new'.acc = new.acc ∧ new'.isPlast = new.isPlast ∧
      (new.isPlast = false → new' = new ∧ T' = T) := by
  obtain ⟨r, hr, h1, h2, h3, h4, h5, h6, -⟩ := vmapUpdate_good h
  have hne : vmReturn E v law (trial3D old inc) old.acc ≠ none := by
    intro hn
    obtain ⟨hc, hn⟩ := vmReturn_none.mp hn
    rcases (vmapReturn_cases hr).2 with ⟨-, -, -, h7, h8⟩ | ⟨-, -, i, h7, -⟩
    · exact hc ⟨h7, h8⟩
    · rw [newtonLoop_mono (by decide) h7] at hn; cases hn
  obtain ⟨new', T', hu⟩ : ∃ new' T', vmUpdate p E v law inc old = (.good new', T') := by
    cases hu : vmUpdate p E v law inc old with
    | mk st T =>
      cases st with
      | good s => exact ⟨s, T, rfl⟩
      | nan s => exact absurd (vmUpdate_nan.mp ⟨s, T, hu⟩) hne
  obtain ⟨r', hr', h1', h2', h3', h4', h5', h6', -⟩ := vmUpdate_good hu
  refine ⟨new', T', hu, by rw [h6, h6'], ?_⟩
  have hinj : ∀ {a b : Vmf p} {c d : ℝ}, to3D p a c = to3D p b d → a = b := by
    intro a b c d hab
    rw [← to2D_to3D p a c, hab, to2D_to3D]
  rcases (vmapReturn_cases hr).2 with ⟨h7, h8, h9, h10, h11⟩ | ⟨h7, h8, i, h9, h10, -⟩ <;>
  rcases (vmReturn_cases hr').2 with ⟨g7, g8, g9, g10, g11⟩ | ⟨g7, g8, i', g9, g10, -⟩
  · refine ⟨by rw [h3, h3', h9, g9], by rw [h4, h4', h7, g7], fun _ => ?_⟩
    have hst : r'.stress = r.stress := by
      rw [(vmapReturn_cases hr).1, (vmReturn_cases hr').1, h8, g8]
    unfold vmUpdate at hu
    unfold vmapUpdate at h
    have htr : to3D p old.eStrain old.e33 + to3D p (mf p inc) 0 = trial3D old inc := rfl
    simp only [htr, hr, hr', Prod.mk.injEq, VMVars.good.injEq] at hu h
    refine ⟨by rw [← hu.1, ← h.1, hst, g8, h8, g9, h9, g7, h7], ?_⟩
    rw [← hu.2, ← h.2, vmReturn_elastic_tangent hr' g7, vmapReturn_elastic_tangent hr h7]
  · exact absurd ⟨h10, h11⟩ g8
  · exact absurd ⟨g10, g11⟩ h8
  · have : i' = i := by
      rw [newtonLoop_mono (by decide) h9] at g9
      exact (Option.some.inj g9).symm
    refine ⟨by rw [h3, h3', h10, g10, this], by rw [h4, h4', h7, g7], fun hf => ?_⟩
    rw [h4, h7] at hf; cases hf

/-- C33d: conversely, the batched state update fails exactly when the trial state is not elastic
and none of the Newton iterates number 1 to 10 meets the tolerance. -/
theorem C33_batched_failure_iff {p : PType} {E v : ℝ} {law : HardLaw} {inc : T2 p.dim}
    {old : VMState p} :
    (∃ s T, vmapUpdate p E v law inc old = (.nan s, T)) ↔
      ¬ TrialElastic E v law old inc ∧
      ∀ k, 1 ≤ k → k ≤ 10 → ∀ x, newtonIterate (plasticEquation E v law old inc) k = some x →
        ¬ Converged (plasticEquation E v law old inc) 1e-6 x := by
  have : (∃ s T, vmapUpdate p E v law inc old = (.nan s, T)) ↔
      vmapReturn E v law (trial3D old inc) old.acc = none := by
    unfold vmapUpdate
    have htr : to3D p old.eStrain old.e33 + to3D p (mf p inc) 0 = trial3D old inc := rfl
    simp only [htr]
    cases hr : vmapReturn E v law (trial3D old inc) old.acc <;> simp
  rw [this, vmapReturn_none, newton_none_iff]
  rfl

/-! ### C34 -/

/-- C34a: exact condition for the batched flow vector to have the norm `√(3/2)` of the flow vector
of the standard model. -/
theorem C34_unit_iff {small : ℝ} (hs : 0 ≤ small) {dev : V6} (ht : tr6 dev = 0)
    (hd : small < norm6 dev) (hne : norm6 (fun k => dev k + small) ≠ 0) :
    norm6 (vmapFlow small dev) = √(3 / 2) ↔
      small = 0 ∨ dev 3 + dev 4 + dev 5 = -3 * small := by
  have hN : 0 < norm6 dev := hs.trans_lt hd
  have hM : 0 < norm6 (fun k => dev k + small) := lt_of_le_of_ne (norm6_nonneg _) (Ne.symm hne)
  have h1 : norm6 (vmapFlow small dev) =
      √(3 / 2) / norm6 (fun k => dev k + small) * norm6 dev := by
    unfold vmapFlow
    simp only [if_pos hd]
    rw [norm6_smul, abs_of_pos (by positivity)]
    ring
  rw [h1]
  have h2 : √(3 / 2) / norm6 (fun k => dev k + small) * norm6 dev = √(3 / 2) ↔
      norm6 dev ^ 2 = norm6 (fun k => dev k + small) ^ 2 := by
    rw [sq_eq_sq₀ hN.le hM.le, div_mul_eq_mul_div, div_eq_iff hne]
    constructor
    · intro h; exact mul_left_cancel₀ sqrt32_pos.ne' h
    · intro h; rw [h]
  rw [h2, norm6_add_small ht]
  constructor
  · intro h
    have : small * (dev 3 + dev 4 + dev 5 + 3 * small) = 0 := by linarith [h]
    rcases mul_eq_zero.mp this with h | h
    · exact Or.inl h
    · right; linarith
  · rintro (h | h)
    · rw [h]; ring
    · rw [h]; ring

/-- C34b: the equality holds for `small = 0`: then the flow vector is that of the standard model. -/
theorem C34_small_zero (dev : V6) :
    vmapFlow 0 dev = fun k => √(3 / 2) / norm6 dev * dev k := by
  funext k
  unfold vmapFlow
  simp only [add_zero]
  split
  · ring
  · rename_i h
    have : norm6 dev = 0 := le_antisymm (not_lt.mp h) (norm6_nonneg _)
    simp [this]

theorem norm6_add_small_bound {dev : V6} (ht : tr6 dev = 0) {small : ℝ} (hs : 0 ≤ small)
    (hd : √6 * small ≤ norm6 dev) :
    |norm6 (fun k => dev k + small) - norm6 dev| ≤ √6 * small := by
  have h6 : √6 ^ 2 = (6 : ℝ) := Real.sq_sqrt (by norm_num)
  have hsum : (dev 3 + dev 4 + dev 5) ^ 2 ≤ (√6 * norm6 dev) ^ 2 := by
    rw [mul_pow, h6]
    unfold norm6
    rw [Real.sq_sqrt (Finset.sum_nonneg fun _ _ => sq_nonneg _), Fin.sum_univ_six]
    nlinarith [sq_nonneg (dev 0), sq_nonneg (dev 1), sq_nonneg (dev 2), sq_nonneg (dev 3 - dev 4),
      sq_nonneg (dev 4 - dev 5), sq_nonneg (dev 3 - dev 5), sq_nonneg (dev 3), sq_nonneg (dev 4),
      sq_nonneg (dev 5)]
  have hn := norm6_nonneg dev
  have h60 : 0 ≤ √(6 : ℝ) := Real.sqrt_nonneg _
  have habs := abs_le_of_sq_le_sq hsum (by positivity)
  have hM := norm6_nonneg (fun k => dev k + small)
  have hsq := norm6_add_small ht small
  obtain ⟨ha, hb⟩ := abs_le.mp habs
  rw [abs_le]
  constructor
  · have : (norm6 dev - √6 * small) ^ 2 ≤ norm6 (fun k => dev k + small) ^ 2 := by
      rw [hsq]; nlinarith [mul_le_mul_of_nonneg_left ha hs]
    have := abs_le_of_sq_le_sq this hM
    linarith [(abs_le.mp this).2]
  · have : norm6 (fun k => dev k + small) ^ 2 ≤ (norm6 dev + √6 * small) ^ 2 := by
      rw [hsq]; nlinarith [mul_le_mul_of_nonneg_left hb hs]
    have := abs_le_of_sq_le_sq this (by positivity)
    linarith [(abs_le.mp this).2]

/-- C34c: how far the batched flow vector can be from unit: its relative error is at most
`√6 small / (‖dev‖ - √6 small)`. -/
theorem C34_error_bound {small : ℝ} (hs : 0 ≤ small) {dev : V6} (ht : tr6 dev = 0)
    (hd : √6 * small < norm6 dev) :
    |norm6 (vmapFlow small dev) - √(3 / 2)| ≤
      √(3 / 2) * (√6 * small / (norm6 dev - √6 * small)) := by
  have hb := norm6_add_small_bound ht hs hd.le
  have h61 : (1 : ℝ) ≤ √6 := by
    rw [show (1 : ℝ) = √1 by simp]; exact Real.sqrt_le_sqrt (by norm_num)
  have hd' : small < norm6 dev := by nlinarith
  have hN : 0 < norm6 dev := hs.trans_lt hd'
  have hM : norm6 dev - √6 * small ≤ norm6 (fun k => dev k + small) := by
    linarith [(abs_le.mp hb).1]
  have hD : 0 < norm6 dev - √6 * small := by linarith
  have hMp : 0 < norm6 (fun k => dev k + small) := by linarith
  have h1 : norm6 (vmapFlow small dev) - √(3 / 2) =
      √(3 / 2) * ((norm6 dev - norm6 (fun k => dev k + small)) /
        norm6 (fun k => dev k + small)) := by
    unfold vmapFlow
    simp only [if_pos (gt_iff_lt.mpr hd')]
    rw [norm6_smul, abs_of_pos (mul_pos sqrt32_pos (by positivity))]
    field_simp
  rw [h1, abs_mul, abs_of_pos sqrt32_pos, abs_div, abs_of_pos hMp]
  refine mul_le_mul_of_nonneg_left ?_ sqrt32_pos.le
  rw [abs_sub_comm]
  exact div_le_div₀ (by positivity) hb hD hM

/-- C34d: for `small > 0` the claim is false: for the deviator of a uniaxial stress the batched
flow vector is shorter than the unit direction scaled by `√(3/2)`. -/
theorem C34_unit_violated : norm6 (vmapFlow suSmall ![2, -1, -1, 0, 0, 0]) ≠ √(3 / 2) := by
  have hs : (0 : ℝ) < suSmall := by unfold suSmall; norm_num
  have hs1 : suSmall < 1 := by unfold suSmall; norm_num
  have ht : tr6 ![2, -1, -1, 0, 0, 0] = 0 := by simp [tr6]; norm_num
  have hn : norm6 ![2, -1, -1, 0, 0, 0] ^ 2 = 6 := by
    unfold norm6
    rw [Real.sq_sqrt (Finset.sum_nonneg fun _ _ => sq_nonneg _), Fin.sum_univ_six]
    simp
    norm_num
  have hd : suSmall < norm6 ![2, -1, -1, 0, 0, 0] := by
    have := norm6_nonneg ![2, -1, -1, 0, 0, 0]
    nlinarith
  have hne : norm6 (fun k => ![2, -1, -1, 0, 0, 0] k + suSmall) ≠ 0 := by
    intro h
    have := norm6_add_small ht suSmall
    rw [h, hn] at this
    simp at this
    nlinarith
  rw [Ne, C34_unit_iff hs.le ht hd hne]
  rintro (h | h)
  · exact hs.ne' h
  · simp at h
    exact hs.ne' h

/-- C34e: effect on the update: after a batched plastic step the von Mises stress is
`|q - 3 G Δγ ‖dev‖ / ‖dev + small‖|`, where the standard model has `|q - 3 G Δγ|`. -/
theorem C34_stress {p : PType} {E v : ℝ} {law : HardLaw} {inc : T2 p.dim} {old new : VMState p}
    {T : Option (Fin p.len → Fin p.len → ℝ)} (h : vmapUpdate p E v law inc old = (.good new, T))
    (hpl : new.isPlast = true)
    (hd : 1e-8 < norm6 (dev6 (hooke6 (lame E v) (shear E v) (trial3D old inc)))) :
    vm6 (stress3D new) = |vm6 (hooke6 (lame E v) (shear E v) (trial3D old inc)) -
      3 * shear E v * (new.acc - old.acc) *
        (norm6 (dev6 (hooke6 (lame E v) (shear E v) (trial3D old inc))) /
          norm6 (fun k => dev6 (hooke6 (lame E v) (shear E v) (trial3D old inc)) k + 1e-8))| := by
  obtain ⟨r, hr, h1, h2, h3, h4, -, -, -⟩ := vmapUpdate_good h
  obtain ⟨hs, hc⟩ := vmapReturn_cases hr
  rw [← h4, hpl] at hc
  rcases hc with ⟨hf, -⟩ | ⟨-, -, x, hx, hacc, he⟩
  · cases hf
  rw [h2, hs, he, h3, hacc, add_sub_cancel_left]
  set s := hooke6 (lame E v) (shear E v) (trial3D old inc) with hsdef
  set N := norm6 (dev6 s) with hN
  set M := norm6 (fun k => dev6 s k + 1e-8) with hM
  have hfl : vmapFlow suSmall (dev6 s) = fun k => √(3 / 2) / M * dev6 s k := by
    funext k
    unfold vmapFlow
    have : norm6 (dev6 s) > suSmall := hd
    simp only [if_pos this]
    rw [show (fun k => dev6 s k + suSmall) = fun k => dev6 s k + 1e-8 from rfl, ← hM]
    ring
  have htr : tr6 (fun k => √(3 / 2) / M * dev6 s k) = 0 := by
    have := tr6_dev6 s
    simp only [tr6] at this ⊢
    rw [← mul_add, ← mul_add, this, mul_zero]
  rw [hooke6_sub_smul, hfl, hooke6_dev htr, vm6_eq, dev6_sub_smul]
  have h5 : dev6 (fun k => 2 * shear E v * (√(3 / 2) / M * dev6 s k)) =
      fun k => 2 * shear E v * (√(3 / 2) / M * dev6 s k) := by
    apply dev6_of_tr
    simp only [tr6] at htr ⊢
    rw [← mul_add, ← mul_add, htr, mul_zero]
  rw [h5]
  have h6 : (fun k => dev6 s k - x * (2 * shear E v * (√(3 / 2) / M * dev6 s k))) =
      fun k => (1 - x * (2 * shear E v) * (√(3 / 2) / M)) * dev6 s k := by
    funext k; ring
  rw [h6, norm6_smul, vm6_eq, ← hN]
  have hn0 : 0 ≤ N := norm6_nonneg _
  rw [← abs_of_nonneg (show 0 ≤ √(3 / 2) * N by positivity)] 
  rw [show √(3 / 2 : ℝ) * (|1 - x * (2 * shear E v) * (√(3 / 2) / M)| * N) =
    |1 - x * (2 * shear E v) * (√(3 / 2) / M)| * |√(3 / 2) * N| by
      rw [abs_of_nonneg (show 0 ≤ √(3 / 2) * N by positivity)]; ring, ← abs_mul,
    abs_of_nonneg (show 0 ≤ √(3 / 2) * N by positivity)]
  congr 1
  have := sqrt32_mul
  linear_combination (-2 * x * shear E v * N / M) * this

/-- C33e: with linear hardening (positive initial yield stress, nonnegative slope) the batched
plastic step always converges too, to the closed-form plastic multiplier. -/
theorem C33_linear {p : PType} {E v s0 a : ℝ} (hA : Admissible E v) (ha : 0 ≤ a)
    (hs : 2e-8 ≤ s0) {inc : T2 p.dim} {old : VMState p} (hacc : 0 ≤ old.acc)
    (hne : ¬ TrialElastic E v (linearHardening s0 a) old inc) :
    ∃ new T, vmapUpdate p E v (linearHardening s0 a) inc old = (.good new, T) ∧
      new.isPlast = true ∧
      new.acc = old.acc +
        (vm6 (hooke6 (lame E v) (shear E v) (trial3D old inc)) - (s0 + a * old.acc)) /
          (3 * shear E v + a) := by
  have hs0 : 0 < s0 := by linarith [show (0:ℝ) < 2e-8 by norm_num]
  have hlaw : (linearHardening s0 a old.acc).1 = s0 + a * old.acc := by
    simp [linearHardening, relu, max_eq_left hacc]
  have hge : 2e-8 ≤ (linearHardening s0 a old.acc).1 := by
    rw [hlaw]; have := mul_nonneg ha hacc; linarith
  obtain ⟨-, hq⟩ := trial_dev_large hge hne
  rw [hlaw] at hq hge
  have hq' : s0 + a * old.acc < vm6 (hooke6 (lame E v) (shear E v) (trial3D old inc)) := by
    have : 0 < s0 + a * old.acc := by linarith [show (0:ℝ) < 2e-8 by norm_num]
    nlinarith
  have hn := newton_linear (n := vmapMaxIter) (by decide) hA.shear_pos ha hs0 hacc hq'
  cases hu : vmapUpdate p E v (linearHardening s0 a) inc old with
  | mk st T =>
    cases st with
    | nan s =>
      exfalso
      have := (C33_batched_failure_iff.mp ⟨s, T, hu⟩).2
      have h2 := newton_none_iff.mpr this
      exact Option.some_ne_none _ (hn.symm.trans h2)
    | good new =>
      refine ⟨new, T, rfl, ?_⟩
      obtain ⟨r, hr, -, -, h3, h4, -⟩ := vmapUpdate_good hu
      rcases (vmapReturn_cases hr).2 with ⟨h7, h8, h9, h10, h11⟩ | ⟨h7, h8, i, h9, h10, -⟩
      · exact absurd ⟨h10, h11⟩ hne
      · rw [hn] at h9
        cases h9
        exact ⟨h4.trans h7, h3.trans h10⟩

/-! ### Non-vacuity -/

/-- hypotheses of C33c and C34e are met: uniaxial straining with linear hardening -/
example : ∃ new T, vmapUpdate .solid 1 0 (linearHardening 1 1) (uniInc 3) (vmInit .solid) =
    (.good new, T) ∧ new.isPlast = true ∧ new.acc = 4 / 5 := by
  obtain ⟨new, T, h, h', h2⟩ := C33_linear admissible_one zero_le_one
    (by norm_num : (2e-8 : ℝ) ≤ 1) le_rfl uni_plastic
  refine ⟨new, T, h, h', ?_⟩
  rw [h2, vm6_uni]; norm_num [vmInit, shear, abs_of_pos]

end Hooke
