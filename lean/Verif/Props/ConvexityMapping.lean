import Verif.Props.LearnableParameters
import Mathlib.Tactic.Linarith

/-!
# C73: convexity constraint of the Lou-Zhang-Yoon yield parameters
-/

namespace Hooke

open Spec

/-- Half the width of the last search interval. -/
noncomputable def lastStep : ℝ := 5 / 2 ^ 23

theorem lastStep_pos : 0 < lastStep := by unfold lastStep; positivity

theorem bisect_ends (convex : ℝ → Bool) : ∀ (m fuel : ℕ) (lo hi : ℝ) (last : Option ℝ),
    m + 1 ≤ fuel → hi - lo = 2 ^ m * lastStep →
    (m = 0 → bisectRadius convex 1e-6 fuel lo hi last = some last) ∧
    (m ≠ 0 → ∃ lo' hi', bisectRadius convex 1e-6 fuel lo hi last = some (some ((hi' + lo') / 2)) ∧
      lo ≤ lo' ∧ hi' ≤ hi ∧ hi' - lo' = 2 * lastStep ∧
      (lo' = lo ∨ convex lo' = true) ∧ (hi' = hi ∨ convex hi' = false) ∧
      ∃ k : ℕ, lo' = lo + 2 * lastStep * k) := by
  intro m
  induction m with
  | zero =>
    intro fuel lo hi last hf hw
    refine ⟨fun _ => ?_, fun h => absurd rfl h⟩
    obtain ⟨n, rfl⟩ : ∃ n, fuel = n + 1 := ⟨fuel - 1, by omega⟩
    rw [bisectRadius, if_neg]
    rw [hw]
    unfold lastStep
    norm_num
  | succ m ih =>
    intro fuel lo hi last hf hw
    refine ⟨fun h => by omega, fun _ => ?_⟩
    obtain ⟨n, rfl⟩ : ∃ n, fuel = n + 1 := ⟨fuel - 1, by omega⟩
    have hpos := lastStep_pos
    have h2 : (1 : ℝ) ≤ 2 ^ m := one_le_pow₀ (by norm_num)
    have hgt : hi - lo > 1e-6 := by
      rw [hw, pow_succ]
      have : (1e-6 : ℝ) < 2 * lastStep := by unfold lastStep; norm_num
      nlinarith
    have hmean : (hi + lo) / 2 = lo + 2 ^ m * lastStep := by
      rw [pow_succ] at hw; linarith
    rw [bisectRadius, if_pos hgt]
    by_cases hc : convex ((hi + lo) / 2) = true
    · simp only [hc, if_true]
      have hw' : hi - (hi + lo) / 2 = 2 ^ m * lastStep := by
        rw [pow_succ] at hw; linarith
      obtain ⟨h0, h1⟩ := ih n ((hi + lo) / 2) hi (some ((hi + lo) / 2)) (by omega) hw'
      by_cases hm : m = 0
      · subst hm
        simp only [pow_zero, one_mul] at hw' hmean
        refine ⟨lo, hi, h0 rfl, le_refl _, le_refl _, by linarith, Or.inl rfl, Or.inl rfl, 0, by simp⟩
      · obtain ⟨lo', hi', hr, ha, hb, hwid, hl, hh, k, hk⟩ := h1 hm
        have hlo : lo ≤ (hi + lo) / 2 := by rw [hmean]; nlinarith
        refine ⟨lo', hi', hr, hlo.trans ha, hb, hwid, ?_, hh, ?_⟩
        · right
          rcases hl with hl | hl
          · rw [hl]; exact hc
          · exact hl
        · obtain ⟨j, rfl⟩ : ∃ j, m = j + 1 := ⟨m - 1, by omega⟩
          refine ⟨k + 2 ^ j, ?_⟩
          rw [hk, hmean, pow_succ]
          push_cast
          ring
    · have hc' : convex ((hi + lo) / 2) = false := by simpa using hc
      simp only [hc', Bool.false_eq_true, if_false]
      have hw' : (hi + lo) / 2 - lo = 2 ^ m * lastStep := by rw [hmean]; ring
      obtain ⟨h0, h1⟩ := ih n lo ((hi + lo) / 2) (some ((hi + lo) / 2)) (by omega) hw'
      by_cases hm : m = 0
      · subst hm
        simp only [pow_zero, one_mul] at hw' hmean
        refine ⟨lo, hi, h0 rfl, le_refl _, le_refl _, by linarith, Or.inl rfl, Or.inl rfl, 0, by simp⟩
      · obtain ⟨lo', hi', hr, ha, hb, hwid, hl, hh, k, hk⟩ := h1 hm
        have hhi : (hi + lo) / 2 ≤ hi := by rw [hmean]; nlinarith
        refine ⟨lo', hi', hr, ha, hb.trans hhi, hwid, hl, ?_, k, hk⟩
        right
        rcases hh with hh | hh
        · rw [hh]; exact hc'
        · exact hh

/-- The search of `directional_convex_boundary` on its default window. -/
theorem bisect_default (convex : ℝ → Bool) (fuel : ℕ) (hf : 24 ≤ fuel) :
    ∃ lo hi, bisectRadius convex 1e-6 fuel 0 5 none = some (some ((hi + lo) / 2)) ∧
      0 ≤ lo ∧ hi ≤ 5 ∧ hi - lo = 2 * lastStep ∧
      (lo = 0 ∨ convex lo = true) ∧ (hi = 5 ∨ convex hi = false) ∧
      ∃ k : ℕ, lo = 2 * lastStep * k := by
  have := (bisect_ends convex 23 fuel 0 5 none (by omega) (by unfold lastStep; norm_num)).2 (by omega)
  obtain ⟨lo, hi, h1, h2, h3, h4, h5, h6, k, hk⟩ := this
  exact ⟨lo, hi, h1, h2, h3, h4, h5, h6, k, by simpa using hk⟩

theorem ray_of_arg (c d r : ℝ) (h : c ≠ 0 ∨ d ≠ 0) :
    (r * Real.cos (Complex.arg ⟨c, d⟩), r * Real.sin (Complex.arg ⟨c, d⟩))
      = (r / √(c ^ 2 + d ^ 2) * c, r / √(c ^ 2 + d ^ 2) * d) := by
  have hne : (⟨c, d⟩ : ℂ) ≠ 0 := by
    intro h0
    have h1 := congrArg Complex.re h0
    have h2 := congrArg Complex.im h0
    simp at h1 h2
    rcases h with h | h
    · exact h h1
    · exact h h2
  have hn : ‖(⟨c, d⟩ : ℂ)‖ = √(c ^ 2 + d ^ 2) := by
    rw [Complex.norm_def, Complex.normSq_mk]
    congr 1; ring
  rw [Complex.cos_arg hne, Complex.sin_arg, hn]
  simp only [Prod.mk.injEq]
  constructor <;> ring

theorem mapping_eq (convex : ℝ → ℝ → Bool) (fuel : ℕ) (c d r : ℝ) (hnc : convex c d = false)
    (h : bisectRadius (fun r => convex (r * Real.cos (Complex.arg ⟨c, d⟩))
      (r * Real.sin (Complex.arg ⟨c, d⟩))) 1e-6 fuel 0 5 none = some (some r)) :
    convexityReturnMapping convex fuel c d
      = some (.ok (false, r * Real.cos (Complex.arg ⟨c, d⟩), r * Real.sin (Complex.arg ⟨c, d⟩))) := by
  rw [convexityReturnMapping, if_neg (by simp [hnc]), directionalConvexBoundary, h]
  rfl

/-- **C73.** Whatever the convexity test answers, the return mapping ends within 24 tests of the
search condition.  Parameters that pass the test are returned unchanged.  Others, not both zero, are
replaced by the point at a radius `r` on the ray from the origin through them; the test, taken along
the ray, changes within `5/2^23` of `r`: there are radii `r - 5/2^23` and `r + 5/2^23` such that the
first is zero or passes the test and the second is `5` or fails it. -/
theorem C73_mapping (convex : ℝ → ℝ → Bool) (c d : ℝ) (fuel : ℕ) (hf : 24 ≤ fuel) :
    (convex c d = true → convexityReturnMapping convex fuel c d = some (.ok (true, c, d))) ∧
    (convex c d = false → (c ≠ 0 ∨ d ≠ 0) → ∃ r, 0 < r ∧ r < 5 ∧
      convexityReturnMapping convex fuel c d
        = some (.ok (false, r / √(c ^ 2 + d ^ 2) * c, r / √(c ^ 2 + d ^ 2) * d)) ∧
      (r - 5 / 2 ^ 23 = 0 ∨ convex ((r - 5 / 2 ^ 23) / √(c ^ 2 + d ^ 2) * c)
        ((r - 5 / 2 ^ 23) / √(c ^ 2 + d ^ 2) * d) = true) ∧
      (r + 5 / 2 ^ 23 = 5 ∨ convex ((r + 5 / 2 ^ 23) / √(c ^ 2 + d ^ 2) * c)
        ((r + 5 / 2 ^ 23) / √(c ^ 2 + d ^ 2) * d) = false)) := by
  constructor
  · intro h
    simp [convexityReturnMapping, h]
  · intro h hne
    obtain ⟨lo, hi, h1, h2, h3, h4, h5, h6, -⟩ := bisect_default
      (fun r => convex (r * Real.cos (Complex.arg ⟨c, d⟩)) (r * Real.sin (Complex.arg ⟨c, d⟩))) fuel hf
    have hpos := lastStep_pos
    have hlo : (hi + lo) / 2 - 5 / 2 ^ 23 = lo := by
      change (hi + lo) / 2 - lastStep = lo
      linarith
    have hhi : (hi + lo) / 2 + 5 / 2 ^ 23 = hi := by
      change (hi + lo) / 2 + lastStep = hi
      linarith
    have hray := fun r => Prod.mk.inj (ray_of_arg c d r hne)
    refine ⟨(hi + lo) / 2, by linarith, by linarith, ?_, ?_, ?_⟩
    · rw [mapping_eq convex fuel c d _ h h1, (hray _).1, (hray _).2]
    · rw [hlo]
      simpa only [(hray _).1, (hray _).2] using h5
    · rw [hhi]
      simpa only [(hray _).1, (hray _).2] using h6

/-- **C73.** If along the ray exactly the points up to a radius `R < 5` pass the test, the returned
point is within `5/2^23` of the boundary point. -/
theorem C73_boundary (convex : ℝ → ℝ → Bool) (c d R : ℝ) (fuel : ℕ) (hf : 24 ≤ fuel)
    (hne : c ≠ 0 ∨ d ≠ 0) (hR0 : 0 ≤ R) (hR5 : R < 5)
    (hstar : ∀ r, 0 ≤ r → (convex (r / √(c ^ 2 + d ^ 2) * c) (r / √(c ^ 2 + d ^ 2) * d) = true ↔ r ≤ R))
    (hnc : convex c d = false) :
    ∃ r, convexityReturnMapping convex fuel c d
        = some (.ok (false, r / √(c ^ 2 + d ^ 2) * c, r / √(c ^ 2 + d ^ 2) * d)) ∧
      |r - R| ≤ 5 / 2 ^ 23 := by
  obtain ⟨r, hr0, hr5, hmap, hlo, hhi⟩ := (C73_mapping convex c d fuel hf).2 hnc hne
  refine ⟨r, hmap, ?_⟩
  rw [abs_le]
  constructor
  · rcases hhi with h | h
    · linarith
    · by_contra hcon
      have := (hstar (r + 5 / 2 ^ 23) (by linarith [lastStep_pos, show lastStep = 5 / 2 ^ 23 from rfl])).2
        (by linarith)
      rw [this] at h
      cases h
  · rcases hlo with h | h
    · linarith
    · by_cases hneg : 0 ≤ r - 5 / 2 ^ 23
      · have := (hstar _ hneg).1 h
        linarith
      · linarith

/-- The hypotheses hold for a disc of radius one. -/
example : ∃ convex : ℝ → ℝ → Bool, convex 3 4 = false ∧
    ∀ r, 0 ≤ r → (convex (r / √((3 : ℝ) ^ 2 + 4 ^ 2) * 3) (r / √((3 : ℝ) ^ 2 + 4 ^ 2) * 4) = true ↔
      r ≤ 1) := by
  classical
  have h5 : √((3 : ℝ) ^ 2 + 4 ^ 2) = 5 := by
    rw [show ((3 : ℝ) ^ 2 + 4 ^ 2) = 5 ^ 2 by norm_num]
    exact Real.sqrt_sq (by norm_num)
  refine ⟨fun c d => decide (c ^ 2 + d ^ 2 ≤ 1), by norm_num, fun r hr => ?_⟩
  rw [h5]
  simp only [decide_eq_true_eq]
  constructor
  · intro h
    nlinarith
  · intro h
    nlinarith

/-- **C73, violated.** The mapping is meant to return admissible parameters, but it returns the last
trial point, not the last admissible one.  If along the ray exactly the points up to a radius `R`
are convex, the returned point is not convex whenever `R` lies in the lower half of its search cell,
that is in `[2k·5/2^23, (2k+1)·5/2^23)` for some `k < 2^22`. -/
theorem C73_inadmissible_violated (convex : ℝ → ℝ → Bool) (c d R : ℝ) (k : ℕ) (fuel : ℕ)
    (hf : 24 ≤ fuel) (hne : c ≠ 0 ∨ d ≠ 0) (hk : k < 2 ^ 22)
    (hR : 2 * k * (5 / 2 ^ 23) ≤ R) (hR' : R < (2 * k + 1) * (5 / 2 ^ 23))
    (hstar : ∀ r, 0 ≤ r → (convex (r / √(c ^ 2 + d ^ 2) * c) (r / √(c ^ 2 + d ^ 2) * d) = true ↔ r ≤ R))
    (hnc : convex c d = false) :
    ∃ c' d', convexityReturnMapping convex fuel c d = some (.ok (false, c', d')) ∧
      convex c' d' = false := by
  obtain ⟨lo, hi, h1, h2, h3, h4, h5, h6, j, hj⟩ := bisect_default
    (fun r => convex (r * Real.cos (Complex.arg ⟨c, d⟩)) (r * Real.sin (Complex.arg ⟨c, d⟩))) fuel hf
  have hpos := lastStep_pos
  have hray := fun r => Prod.mk.inj (ray_of_arg c d r hne)
  have hls : (5 : ℝ) / 2 ^ 23 = lastStep := rfl
  rw [hls] at hR hR'
  have hconv : ∀ r, 0 ≤ r →
      (convex (r * Real.cos (Complex.arg ⟨c, d⟩)) (r * Real.sin (Complex.arg ⟨c, d⟩)) = true ↔ r ≤ R) := by
    intro r hr
    rw [(hray r).1, (hray r).2]
    exact hstar r hr
  have hk0 : (0 : ℝ) ≤ k := Nat.cast_nonneg k
  have hloR : lo ≤ R := by
    rcases h5 with h5 | h5
    · rw [h5]; nlinarith
    · exact (hconv lo h2).1 h5
  have hhiR : R < hi := by
    rcases h6 with h6 | h6
    · have h23 : ((2 : ℝ) * k + 1) ≤ 2 ^ 23 := by
        have : 2 * k + 1 ≤ 2 ^ 23 := by omega
        exact_mod_cast this
      have : (2 * (k : ℝ) + 1) * lastStep ≤ 5 := by
        calc (2 * (k : ℝ) + 1) * lastStep ≤ 2 ^ 23 * lastStep := by nlinarith
          _ = 5 := by unfold lastStep; norm_num
      rw [h6]; linarith
    · by_contra hcon
      have := (hconv hi (by linarith)).2 (not_lt.1 hcon)
      rw [this] at h6
      cases h6
  -- the search cell is the `k`-th one
  have hjk : j = k := by
    have e1 : (2 * (j : ℝ)) < 2 * k + 1 := by
      by_contra hcon
      have := mul_le_mul_of_nonneg_right (not_lt.1 hcon) hpos.le
      nlinarith
    have e2 : (2 * (k : ℝ)) < 2 * j + 2 := by
      by_contra hcon
      have := mul_le_mul_of_nonneg_right (not_lt.1 hcon) hpos.le
      nlinarith
    have e1' : 2 * j < 2 * k + 1 := by exact_mod_cast e1
    have e2' : 2 * k < 2 * j + 2 := by exact_mod_cast e2
    omega
  subst hjk
  have hout : R < (hi + lo) / 2 := by
    have : (hi + lo) / 2 = (2 * j + 1) * lastStep := by linarith
    linarith
  refine ⟨_, _, mapping_eq convex fuel c d _ hnc h1, ?_⟩
  by_contra hcon
  rw [Bool.not_eq_false] at hcon
  have := (hconv ((hi + lo) / 2) (by linarith)).1 hcon
  linarith

/-! ### Enforcing the constraint on learnable parameters -/

theorem phys_get {isNorm : Bool} {ps : List Learnable} (hn : (ps.map Learnable.name).Nodup)
    (f : String → ℝ) {p : Learnable} (hp : p ∈ ps) (fixed : ℝ) :
    currentYield (stateWith isNorm ps f) p.name fixed = .ok (physOf isNorm p (f p.name)) := by
  have hg : (stateWith isNorm ps f).params.get? p.name = some (f p.name) :=
    get?_map_names ps hn (fun p => f p.name) hp
  unfold currentYield
  rw [hg]
  cases isNorm with
  | false => rfl
  | true => exact (transform_stateWith ps hn f hp _).1

theorem put_map_names {ps : List Learnable} (hn : (ps.map Learnable.name).Nodup) (f : String → ℝ)
    {p : Learnable} (hp : p ∈ ps) (v : ℝ) :
    KDict.put (ps.map fun p => (p.name, f p.name)) p.name v
      = ps.map fun q => (q.name, Function.update f p.name v q.name) := by
  induction ps with
  | nil => simp at hp
  | cons q ps ih =>
    rw [List.map_cons, List.nodup_cons] at hn
    by_cases hq : q.name = p.name
    · simp only [List.map_cons, KDict.put, hq, if_true, Function.update_self]
      congr 1
      apply List.map_congr_left
      intro r hr
      rw [Function.update_of_ne]
      rintro h
      exact hn.1 (hq ▸ h ▸ List.mem_map.2 ⟨r, hr, rfl⟩)
    · rw [List.mem_cons] at hp
      rcases hp with rfl | hp
      · exact absurd rfl hq
      · simp only [List.map_cons, KDict.put, if_neg hq, Function.update_of_ne hq]
        rw [ih hn.2 hp]

theorem get?_map_congr (ps : List Learnable) (F G : Learnable → ℝ) (name : String)
    (h : ∀ p ∈ ps, p.name = name → F p = G p) :
    KDict.get? (ps.map fun p => (p.name, F p)) name
      = KDict.get? (ps.map fun p => (p.name, G p)) name := by
  induction ps with
  | nil => rfl
  | cons p ps ih =>
    by_cases hp : p.name = name
    · simp only [List.map_cons, KDict.get?, hp, if_true, h p (by simp) hp]
    · simp only [List.map_cons, KDict.get?, hp, if_false]
      exact ih fun q hq => h q (by simp [hq])

/-- Storing a physical value. -/
theorem storeYield_stateWith {isNorm : Bool} {ps : List Learnable}
    (hn : (ps.map Learnable.name).Nodup) (f : String → ℝ) {p : Learnable} (hp : p ∈ ps)
    (hb : isNorm = true → p.lower < p.upper) (v : ℝ) :
    ∃ w, storeYield (stateWith isNorm ps f) p.name v
        = .ok (stateWith isNorm ps (Function.update f p.name w)) ∧ physOf isNorm p w = v := by
  have hg : (stateWith isNorm ps f).params.get? p.name = some (f p.name) :=
    get?_map_names ps hn (fun p => f p.name) hp
  have hhas : (stateWith isNorm ps f).params.has p.name = true := by simp [KDict.has, hg]
  cases isNorm with
  | false =>
    refine ⟨v, ?_, rfl⟩
    have := put_map_names hn f hp v
    have hi : (stateWith false ps f).isNormalized = false := rfl
    simp only [storeYield, hhas, if_true, hi, Bool.false_eq_true, if_false, bind, Except.bind]
    simp [stateWith, initState, this]
  | true =>
    refine ⟨normCoord p.lower p.upper v, ?_, physCoord_normCoord (hb rfl) v⟩
    have := put_map_names hn f hp (normCoord p.lower p.upper v)
    have ht := (transform_stateWith ps hn f hp v).2 (hb rfl)
    have hi : (stateWith true ps f).isNormalized = true := rfl
    simp only [storeYield, hhas, if_true, hi, ht, bind, Except.bind]
    simp [stateWith, initState, this]

/-- **C73.** With both yield parameters learnable, in every reachable state, normalised or not,
enforcing the constraints ends.  If the physical values pass the test nothing changes; otherwise
they become those of the return mapping; all other parameters keep their values. -/
theorem C73_constraints (convex : ℝ → ℝ → Bool) (isNorm : Bool) (ps : List Learnable)
    (hn : (ps.map Learnable.name).Nodup) (pc pd : Learnable) (hpc : pc ∈ ps) (hpd : pd ∈ ps)
    (hcn : pc.name = "yield_c_s0") (hdn : pd.name = "yield_d_s0") (fuel : ℕ) (hf : 24 ≤ fuel)
    (fixedC fixedD : ℝ) (s : LearnState) (h : LearnReach isNorm ps s) :
    ∃ s' phys phys' c d c' d' is, enforceConstraints convex fuel fixedC fixedD s = some (.ok s') ∧
      LearnReach isNorm ps s' ∧
      getDetached s false = .ok phys ∧ getDetached s' false = .ok phys' ∧
      phys.get? "yield_c_s0" = some c ∧ phys.get? "yield_d_s0" = some d ∧
      phys'.get? "yield_c_s0" = some c' ∧ phys'.get? "yield_d_s0" = some d' ∧
      convexityReturnMapping convex fuel c d = some (.ok (is, c', d')) ∧
      ∀ name, name ≠ "yield_c_s0" → name ≠ "yield_d_s0" → phys'.get? name = phys.get? name := by
  have hb := reach_bounds hn h
  obtain ⟨f, rfl⟩ := reach_stateWith hn h
  have hgc : (stateWith isNorm ps f).params.get? "yield_c_s0" = some (f "yield_c_s0") := by
    rw [← hcn]; exact get?_map_names ps hn (fun p => f p.name) hpc
  have hgd : (stateWith isNorm ps f).params.get? "yield_d_s0" = some (f "yield_d_s0") := by
    rw [← hdn]; exact get?_map_names ps hn (fun p => f p.name) hpd
  have hhas : ((stateWith isNorm ps f).params.has "yield_c_s0"
      || (stateWith isNorm ps f).params.has "yield_d_s0") = true := by simp [KDict.has, hgc]
  have hcc := phys_get (isNorm := isNorm) hn f hpc fixedC
  have hcd := phys_get (isNorm := isNorm) hn f hpd fixedD
  rw [hcn] at hcc
  rw [hdn] at hcd
  have getp : ∀ (g : String → ℝ) {p : Learnable}, p ∈ ps →
      KDict.get? (ps.map fun p => (p.name, physOf isNorm p (g p.name))) p.name
        = some (physOf isNorm p (g p.name)) := fun g p hp =>
    get?_map_names ps hn (fun p => physOf isNorm p (g p.name)) hp
  have hdet := detached_phys isNorm ps hn f
  have gc := getp f hpc
  have gd := getp f hpd
  rw [hcn] at gc
  rw [hdn] at gd
  set c := physOf isNorm pc (f "yield_c_s0") with hc
  set d := physOf isNorm pd (f "yield_d_s0") with hd
  cases hconv : convex c d with
  | true =>
    have hm := (C73_mapping convex c d fuel hf).1 hconv
    refine ⟨_, _, _, c, d, c, d, true, ?_, h, hdet, hdet, gc, gd, gc, gd, hm, fun _ _ _ => rfl⟩
    simp only [enforceConstraints, hhas, if_true, hcc, hcd, hm, Option.map_some, bind, Except.bind]
  | false =>
    obtain ⟨lo, hi, hbis, -⟩ := bisect_default
      (fun r => convex (r * Real.cos (Complex.arg ⟨c, d⟩)) (r * Real.sin (Complex.arg ⟨c, d⟩))) fuel hf
    have hm := mapping_eq convex fuel c d _ hconv hbis
    set c' := (hi + lo) / 2 * Real.cos (Complex.arg ⟨c, d⟩)
    set d' := (hi + lo) / 2 * Real.sin (Complex.arg ⟨c, d⟩)
    obtain ⟨w, hw, hpw⟩ := storeYield_stateWith (isNorm := isNorm) hn f hpc (hb pc hpc).2 c'
    obtain ⟨z, hz, hpz⟩ := storeYield_stateWith (isNorm := isNorm) hn
      (Function.update f pc.name w) hpd (hb pd hpd).2 d'
    rw [hcn] at hw hz
    rw [hdn] at hz
    have hne : ("yield_c_s0" : String) ≠ "yield_d_s0" := by decide
    set g := Function.update (Function.update f "yield_c_s0" w) "yield_d_s0" z with hg
    have hreach : LearnReach isNorm ps (stateWith isNorm ps g) := by
      have := LearnReach.step _ g h
      simpa [stateWith, Function.comp_def] using this
    have gc' := getp g hpc
    have gd' := getp g hpd
    have e1 : g pc.name = w := by
      rw [hcn, hg, Function.update_of_ne hne, Function.update_self]
    have e2 : g pd.name = z := by rw [hdn, hg, Function.update_self]
    rw [e1, hpw, hcn] at gc'
    rw [e2, hpz, hdn] at gd'
    refine ⟨_, _, _, c, d, c', d', false, ?_, hreach, hdet, detached_phys isNorm ps hn g, gc, gd, gc',
      gd', hm, ?_⟩
    · simp only [enforceConstraints, hhas, if_true, hcc, hcd, hm, Option.map_some, bind, Except.bind,
        Bool.false_eq_true, if_false, hw, hz]
    · intro name h1 h2
      apply get?_map_congr
      intro p _ hpn
      rw [hpn, hg, Function.update_of_ne h2, Function.update_of_ne h1]

/-- The hypotheses hold for two learnable yield parameters. -/
example : ∃ s, LearnReach false [⟨"yield_c_s0", 2, 0, 3⟩, ⟨"yield_d_s0", 0, -1, 1⟩] s := by
  obtain ⟨s, hs⟩ := (C62_construct false [⟨"yield_c_s0", 2, 0, 3⟩, ⟨"yield_d_s0", 0, -1, 1⟩]
    (by decide)).2 (by intro p hp; simp at hp; rcases hp with rfl | rfl <;> norm_num)
  exact ⟨s, .init s hs⟩

theorem arg_pos_real (c : ℝ) (hc : 0 < c) : Complex.arg ⟨c, 0⟩ = 0 := by
  have : (⟨c, 0⟩ : ℂ) = ((c : ℝ) : ℂ) := rfl
  rw [this]
  exact Complex.arg_ofReal_of_nonneg hc.le

/-- **C73, violated.** The constraints are enforced after the bounds and can leave them: with the
test passing exactly in the unit disc and the bounds `[2, 3]` for the first parameter, the parameter
ends below `2` although it was inside its bounds. -/
theorem C73_leaves_bounds_violated (fuel : ℕ) (hf : 24 ≤ fuel) :
    ∃ (convex : ℝ → ℝ → Bool) (s s' : LearnState) (phys : PyDict ℝ) (c : ℝ),
      setModelParameters false [⟨"yield_c_s0", 2, 2, 3⟩, ⟨"yield_d_s0", 0, -1, 1⟩] = .ok s ∧
      enforceBounds s = .ok s ∧
      enforceConstraints convex fuel 0 0 s = some (.ok s') ∧
      getDetached s' false = .ok phys ∧ phys.get? "yield_c_s0" = some c ∧ c < 2 := by
  classical
  set ps : List Learnable := [⟨"yield_c_s0", 2, 2, 3⟩, ⟨"yield_d_s0", 0, -1, 1⟩] with hps
  have hn : (ps.map Learnable.name).Nodup := by decide
  have hset := (setModelParameters_ok_iff false ps hn (initState false ps)).2
    ⟨by intro p hp; simp [hps] at hp; rcases hp with rfl | rfl <;> norm_num, rfl⟩
  let convex : ℝ → ℝ → Bool := fun c d => decide (c ^ 2 + d ^ 2 ≤ 1)
  obtain ⟨s', phys, phys', c, d, c', d', is, h1, -, h3, h4, h5, h6, h7, -, h9, -⟩ :=
    C73_constraints convex false ps hn ⟨"yield_c_s0", 2, 2, 3⟩ ⟨"yield_d_s0", 0, -1, 1⟩
      (by simp [hps]) (by simp [hps]) rfl rfl fuel hf 0 0 _ (.init _ hset)
  have hphys : phys = [("yield_c_s0", 2), ("yield_d_s0", 0)] := by
    have := (C62_initial false ps hn _ hset).1
    rw [h3, Except.ok.injEq] at this
    simpa [hps] using this
  subst hphys
  simp only [KDict.get?, if_true, Option.some.injEq] at h5
  have h6' : d = 0 := by
    have : KDict.get? ([("yield_c_s0", 2), ("yield_d_s0", 0)] : PyDict ℝ) "yield_d_s0" = some 0 := by
      simp [KDict.get?]
    rw [this, Option.some.injEq] at h6
    exact h6.symm
  subst h5 h6'
  refine ⟨convex, initState false ps, s', phys', c', hset, ?_, h1, h4, h7, ?_⟩
  · simp [enforceBounds, initState, hps, storedForm, activeBounds, KDict.get?, orRaise, clampR,
      List.mapM_cons, bind, Except.bind, pure, Except.pure]
    norm_num
  · obtain ⟨r, hmap, habs⟩ := C73_boundary convex 2 0 1 fuel hf (Or.inl (by norm_num)) (by norm_num)
      (by norm_num) (by
        intro r hr
        have : √((2 : ℝ) ^ 2 + 0 ^ 2) = 2 := by
          rw [show ((2 : ℝ) ^ 2 + 0 ^ 2) = 2 ^ 2 by norm_num]
          exact Real.sqrt_sq (by norm_num)
        rw [this]
        simp only [convex, decide_eq_true_eq]
        constructor
        · intro h; nlinarith
        · intro h; nlinarith) (by simp [convex])
    rw [h9] at hmap
    have h2 : √((2 : ℝ) ^ 2 + 0 ^ 2) = 2 := by
      rw [show ((2 : ℝ) ^ 2 + 0 ^ 2) = 2 ^ 2 by norm_num]
      exact Real.sqrt_sq (by norm_num)
    simp only [Option.some.injEq, Except.ok.injEq, Prod.mk.injEq, h2] at hmap
    have := (abs_le.1 habs).2
    have e : c' = r := by rw [hmap.2.1]; ring
    rw [e]
    have : (5 : ℝ) / 2 ^ 23 < 1 := by norm_num
    linarith

/-- **C73, violated.** With only one of the two parameters learnable the other keeps its value, so
the pair is not moved to the boundary and can stay inadmissible: with the test passing exactly in
the unit disc, a learnable first parameter `2` and a fixed second parameter `2`. -/
theorem C73_one_learnable_violated (fuel : ℕ) (hf : 24 ≤ fuel) :
    ∃ (convex : ℝ → ℝ → Bool) (s s' : LearnState) (phys : PyDict ℝ) (c : ℝ), convex 0 0 = true ∧
      setModelParameters false [⟨"yield_c_s0", 2, 0, 3⟩] = .ok s ∧
      enforceConstraints convex fuel 0 2 s = some (.ok s') ∧
      getDetached s' false = .ok phys ∧ phys.get? "yield_c_s0" = some c ∧ convex c 2 = false := by
  classical
  set ps : List Learnable := [⟨"yield_c_s0", 2, 0, 3⟩] with hps
  have hn : (ps.map Learnable.name).Nodup := by decide
  have hset := (setModelParameters_ok_iff false ps hn (initState false ps)).2
    ⟨by intro p hp; simp [hps] at hp; subst hp; norm_num, rfl⟩
  let convex : ℝ → ℝ → Bool := fun c d => decide (c ^ 2 + d ^ 2 ≤ 1)
  have hnc : convex 2 2 = false := by simp [convex]; norm_num
  obtain ⟨lo, hi, hbis, -⟩ := bisect_default
    (fun r => convex (r * Real.cos (Complex.arg ⟨2, 2⟩)) (r * Real.sin (Complex.arg ⟨2, 2⟩))) fuel hf
  have hm := mapping_eq convex fuel 2 2 _ hnc hbis
  set c' := (hi + lo) / 2 * Real.cos (Complex.arg ⟨2, 2⟩)
  refine ⟨convex, initState false ps, { initState false ps with params := [("yield_c_s0", c')] },
    [("yield_c_s0", c')], c', by simp [convex], hset, ?_, ?_, by simp [KDict.get?], ?_⟩
  · simp [enforceConstraints, initState, hps, storedForm, KDict.has, KDict.get?, currentYield, hm,
      storeYield, KDict.put, bind, Except.bind, c']
  · rfl
  · simp only [convex, decide_eq_false_iff_not]
    nlinarith [sq_nonneg c']

end Hooke
