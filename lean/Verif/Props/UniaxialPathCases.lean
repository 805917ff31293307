import Verif.Props.UniaxialPath

/-!
# C121: laws for which the path is uniaxial, and laws for which it is not
-/

noncomputable section

open Classical

namespace Hooke

open Spec

theorem jacobian_affine (a b c d p q : ℝ) (x : ℝ × ℝ) :
    jacobian2 (fun x => (a * x.1 + b * x.2 + p, c * x.1 + d * x.2 + q)) x = ((a, b), (c, d)) := by
  unfold jacobian2
  have lin : ∀ u v t0 : ℝ, deriv (fun t : ℝ => u * t + v) t0 = u := by
    intro u v t0
    have h := ((hasDerivAt_id t0).const_mul u).add_const v
    simpa using h.deriv
  have e1 : (fun t : ℝ => a * t + b * x.2 + p) = fun t => a * t + (b * x.2 + p) := by
    funext t; ring
  have e2 : (fun t : ℝ => a * x.1 + b * t + p) = fun t => b * t + (a * x.1 + p) := by
    funext t; ring
  have e3 : (fun t : ℝ => c * t + d * x.2 + q) = fun t => c * t + (d * x.2 + q) := by
    funext t; ring
  have e4 : (fun t : ℝ => c * x.1 + d * t + q) = fun t => d * t + (c * x.1 + q) := by
    funext t; ring
  simp only [e1, e2, e3, e4, lin]

/-- The iterations for an affine residual from an iterate without lateral stresses. -/
theorem newton_zero {name : String} {m : PathModel} {T c tol : ℝ} {past : List (List ℝ)} {e : ℝ}
    (hn : NamesModel name m) (h6 : SixComponents (pathStress m T c)) (hp : ∀ r ∈ past, r.length = 6)
    {a b c' d p q : ℝ} (hdet : a * d - b * c' ≠ 0)
    (hg : lateralAfter (pathStress m T c) past e
      = fun x => (a * x.1 + b * x.2 + p, c' * x.1 + d * x.2 + q)) (n : ℕ) (x : ℝ × ℝ)
    (hx : lateralAfter (pathStress m T c) past e x = (0, 0)) :
    uniaxialNewton (forwardMaterial name m T c) tol past e n x = .ok x := by
  induction n with
  | zero => rfl
  | succ n ih =>
      unfold uniaxialNewton
      rw [residual_eq hn h6 hp x, hx]
      change (if uniaxialConverged tol e (0, 0) then _ else _) = _
      split
      · rfl
      · have hfun : residualValue (forwardMaterial name m T c) past e
            = fun x => (a * x.1 + b * x.2 + p, c' * x.1 + d * x.2 + q) := by
          rw [← hg]
          exact funext (residualValue_eq hn h6 hp)
        rw [hfun, jacobian_affine, solve2_eq (by simpa using hdet)]
        change uniaxialNewton _ _ _ _ _ (_, _) = _
        simpa using ih

/-- The iterations for an affine residual end without an error, with small or vanishing lateral
stresses. -/
theorem newton_affine_lateral {name : String} {m : PathModel} {T c tol : ℝ} {past : List (List ℝ)} {e : ℝ}
    (hn : NamesModel name m) (h6 : SixComponents (pathStress m T c)) (hp : ∀ r ∈ past, r.length = 6)
    (htol : 0 < tol)
    {a b c' d p q : ℝ} (hdet : a * d - b * c' ≠ 0)
    (hg : lateralAfter (pathStress m T c) past e
      = fun x => (a * x.1 + b * x.2 + p, c' * x.1 + d * x.2 + q)) (n : ℕ) (x : ℝ × ℝ) :
    ∃ y, uniaxialNewton (forwardMaterial name m T c) tol past e (n + 1) x = .ok y ∧
      magnitude (lateralAfter (pathStress m T c) past e y) ≤ tol * |e| := by
  unfold uniaxialNewton
  rw [residual_eq hn h6 hp x]
  change ∃ y, (if uniaxialConverged tol e _ then _ else _) = _ ∧ _
  by_cases hc : uniaxialConverged tol e (lateralAfter (pathStress m T c) past e x)
  · rw [if_pos hc]
    exact ⟨x, rfl, le_of_lt (converged_iff.mp hc).2⟩
  · rw [if_neg hc]
    have hfun : residualValue (forwardMaterial name m T c) past e
        = fun x => (a * x.1 + b * x.2 + p, c' * x.1 + d * x.2 + q) := by
      rw [← hg]
      exact funext (residualValue_eq hn h6 hp)
    rw [hfun, jacobian_affine, solve2_eq (by simpa using hdet)]
    have hz : ∀ dx : ℝ × ℝ,
        dx = ((d * (-(a * x.1 + b * x.2 + p)) - b * (-(c' * x.1 + d * x.2 + q))) / (a * d - b * c'),
          (a * (-(c' * x.1 + d * x.2 + q)) - c' * (-(a * x.1 + b * x.2 + p))) / (a * d - b * c')) →
        lateralAfter (pathStress m T c) past e (x.1 + dx.1, x.2 + dx.2) = (0, 0) := by
      rintro dx rfl
      rw [hg]
      simp only [Prod.mk.injEq]
      generalize hD : a * d - b * c' = D at hdet
      constructor <;> field_simp <;> rw [← hD] <;> ring
    have hz' := hz _ rfl
    refine ⟨_, newton_zero hn h6 hp hdet hg n _ (by rw [hg] at hz' ⊢; exact hz'), ?_⟩
    have hm : magnitude ((0, 0) : ℝ × ℝ) ≤ tol * |e| := by
      unfold magnitude
      simp only [ne_eq, OfNat.ofNat_ne_zero, not_false_eq_true, zero_pow, add_zero, Real.sqrt_zero]
      exact mul_nonneg htol.le (abs_nonneg e)
    rw [hg] at hz' ⊢
    rw [hz']
    exact hm

theorem steps_affine {name : String} {m : PathModel} {T c tol : ℝ} {maxIter : ℕ}
    (hn : NamesModel name m) (h6 : SixComponents (pathStress m T c)) (htol : 0 < tol)
    (haff : LaterallyAffine (pathStress m T c)) (hmax : 0 < maxIter) :
    ∀ (es : List ℝ) (p : List (List ℝ)), (∀ r ∈ p, r.length = 6) →
      ∃ q, es.foldlM (uniaxialStep (forwardMaterial name m T c) tol maxIter) p = .ok q ∧
        ∀ r ∈ q, r.length = 6
  | [], p, hp => ⟨p, rfl, hp⟩
  | e :: es, p, hp => by
      obtain ⟨a, b, c', d, p', q', hdet, hg⟩ := haff p e hp
      obtain ⟨n, rfl⟩ : ∃ n, maxIter = n + 1 := ⟨maxIter - 1, by omega⟩
      obtain ⟨y, hy, -⟩ := newton_affine_lateral hn h6 hp htol hdet (funext hg) n (0, 0)
      have hp' : ∀ r ∈ p ++ [trialStrain y e], r.length = 6 := by
        intro r hr
        rcases List.mem_append.mp hr with h | h
        · exact hp r h
        · rw [List.mem_singleton.mp h]; rfl
      obtain ⟨q, hq, hq6⟩ := steps_affine hn h6 htol haff hmax es _ hp'
      refine ⟨q, ?_, hq6⟩
      rw [List.foldlM_cons]
      unfold uniaxialStep
      rw [hy]
      exact hq

/-- **C121, affine laws.** For a causal material model whose lateral stresses are, after each path, an
invertible affine function of the lateral strains, every prescribed path of axial strains is accepted,
and at each time after the first one the returned lateral stresses are at most `tol · |ε₃₃|`. -/
theorem C121_affine (name : String) (m : PathModel) (T c tol : ℝ) (maxIter : ℕ) (es : List ℝ)
    (hn : NamesModel name m) (h6 : SixComponents (pathStress m T c)) (hc : Causal (pathStress m T c))
    (haff : LaterallyAffine (pathStress m T c)) (htol : 0 < tol) (hmax : 0 < maxIter) :
    ∃ strain stress : List (List ℝ), uniaxialPath name m T c tol maxIter es = .ok (strain, stress) ∧
      ∀ (i : ℕ) (_ : 0 < i) (hi : i < es.length),
        magnitude (lateral (stress.getD i [])) ≤ tol * |es[i]| := by
  have hstart : ∀ r ∈ (es.take 1).map fun _ => trialStrain (0, 0) 0, r.length = 6 := by
    intro r hr
    obtain ⟨_, _, rfl⟩ := List.mem_map.mp hr
    rfl
  obtain ⟨q, hq, hq6⟩ := steps_affine (es := es.tail) hn h6 htol haff hmax _ hstart
  have hrun : uniaxialPath name m T c tol maxIter es = .ok (q, pathStress m T c q) := by
    unfold uniaxialPath
    simp only []
    rw [hq]
    change (do let stress ← forwardMaterial name m T c q; .ok (q, stress)) = _
    rw [forward_eq hn h6 hq6]
    rfl
  refine ⟨q, _, hrun, ?_⟩
  intro i hi0 hi
  obtain ⟨hl, ht, hs⟩ := steps_run _ _ _ hq
  cases es with
  | nil => simp at hi
  | cons e0 es =>
      simp only [List.take_succ_cons, List.take_zero, List.map_cons, List.map_nil, List.tail_cons,
        List.length_cons, List.length_nil] at hl ht hs hi
      obtain ⟨j, rfl⟩ : ∃ j, i = j + 1 := ⟨i - 1, by omega⟩
      obtain ⟨x, hx, hrow⟩ := hs j (by omega)
      rw [show 0 + 1 + j = j + 1 by omega] at hx hrow
      have hp : ∀ r ∈ q.take (j + 1), r.length = 6 := fun r hr => hq6 r (List.mem_of_mem_take hr)
      obtain ⟨a, b, c', d, p', q', hdet, hg⟩ := haff (q.take (j + 1)) (es[j]'(by omega)) hp
      obtain ⟨n, rfl⟩ : ∃ n, maxIter = n + 1 := ⟨maxIter - 1, by omega⟩
      obtain ⟨y, hy, hm⟩ := newton_affine_lateral hn h6 hp htol hdet (funext hg) n (0, 0)
      rw [hy] at hx
      cases hx
      rw [lateral_at hc hrow]
      exact hm

/-! ### Laws that act at each time -/

/-- The law of a material without memory. -/
def pointwise (f : List ℝ → List ℝ) (p : List (List ℝ)) : List (List ℝ) := p.map f

theorem pointwise_causal (f : List ℝ → List ℝ) : Causal (pointwise f) := by
  intro past row later
  simp [pointwise, List.getElem?_append_right]

theorem pointwise_six {f : List ℝ → List ℝ} (h : ∀ r : List ℝ, (f r).length = 6) :
    SixComponents (pointwise f) := by
  intro p _
  refine ⟨by simp [pointwise], ?_⟩
  intro r hr
  obtain ⟨s, _, rfl⟩ := List.mem_map.mp hr
  exact h s

theorem pointwise_after (f : List ℝ → List ℝ) (past : List (List ℝ)) (e : ℝ) (x : ℝ × ℝ) :
    lateralAfter (pointwise f) past e x = lateral (f [x.1, x.2, e, 0, 0, 0]) := by
  unfold lateralAfter pointwise
  simp [List.getD_eq_getElem?_getD, List.getElem?_append_right]

/-- An isotropic elastic material. -/
def elasticLaw (lam G : ℝ) (r : List ℝ) : List ℝ :=
  let tr := r.getD 0 0 + r.getD 1 0 + r.getD 2 0
  [lam * tr + 2 * G * r.getD 0 0, lam * tr + 2 * G * r.getD 1 0, lam * tr + 2 * G * r.getD 2 0,
    2 * G * r.getD 3 0, 2 * G * r.getD 4 0, 2 * G * r.getD 5 0]

theorem elastic_affine {lam G : ℝ} (hl : 0 ≤ lam) (hG : 0 < G) :
    LaterallyAffine (pointwise (elasticLaw lam G)) := by
  intro past e _
  refine ⟨lam + 2 * G, lam, lam, lam + 2 * G, lam * e, lam * e, ?_, ?_⟩
  · have : 0 < G * (lam + G) := by positivity
    nlinarith
  · intro x
    rw [pointwise_after]
    simp only [elasticLaw, lateral, List.getD_cons_zero, List.getD_cons_succ, Prod.mk.injEq]
    constructor <;> ring

/-- The hypotheses of `C121_affine` hold for isotropic elastic materials. -/
example (es : List ℝ) : ∃ strain stress : List (List ℝ),
    uniaxialPath "von_mises" (.vonMises (pointwise (elasticLaw 3 2))) 25 0 1e-8 30 es
      = .ok (strain, stress) ∧
    ∀ (i : ℕ) (_ : 0 < i) (hi : i < es.length),
      magnitude (lateral (stress.getD i [])) ≤ 1e-8 * |es[i]| :=
  C121_affine "von_mises" _ 25 0 _ _ _ rfl (pointwise_six fun _ => rfl) (pointwise_causal _)
    (elastic_affine (by norm_num) (by norm_num)) (by norm_num) (by norm_num)

/-! ### Where the path is not uniaxial -/

/-- A law whose first lateral stress is `x³ - 2 x + 2`. -/
def cyclingLaw (r : List ℝ) : List ℝ :=
  [r.getD 0 0 ^ 3 - 2 * r.getD 0 0 + 2, r.getD 1 0, r.getD 2 0, 0, 0, 0]

theorem cycling_after (past : List (List ℝ)) (e : ℝ) :
    lateralAfter (pointwise cyclingLaw) past e = fun x => (x.1 ^ 3 - 2 * x.1 + 2, x.2) := by
  funext x
  rw [pointwise_after]
  simp [cyclingLaw, lateral]

theorem cycling_jacobian (x : ℝ × ℝ) :
    jacobian2 (fun x => (x.1 ^ 3 - 2 * x.1 + 2, x.2)) x = ((3 * x.1 ^ 2 - 2, 0), (0, 1)) := by
  unfold jacobian2
  have h1 : deriv (fun t : ℝ => t ^ 3 - 2 * t + 2) x.1 = 3 * x.1 ^ 2 - 2 := by
    have h : HasDerivAt (fun t : ℝ => t ^ 3 - 2 * t + 2) (3 * x.1 ^ 2 - 2) x.1 := by
      have h' := (((hasDerivAt_pow 3 x.1).sub ((hasDerivAt_id x.1).const_mul 2)).add_const (2 : ℝ))
      simpa using h'
    exact h.deriv
  simp [h1, deriv_const]

theorem cycling_large {tol e : ℝ} (he : |e| ≤ 1) (ht : tol ≤ 1) {r : ℝ × ℝ} (hr : 1 ≤ r.1) :
    ¬ uniaxialConverged tol e r := by
  rw [converged_iff]
  rintro ⟨h0, h⟩
  have h1 : (1 : ℝ) ≤ magnitude r := by
    unfold magnitude
    rw [Real.le_sqrt' (by norm_num)]
    nlinarith [sq_nonneg r.2]
  have h2 : tol * |e| ≤ 1 := by
    calc tol * |e| ≤ 1 * |e| := mul_le_mul_of_nonneg_right ht (abs_nonneg e)
      _ ≤ 1 := by linarith
  linarith

theorem cycling_newton {T c tol e : ℝ} (he : |e| ≤ 1) (ht : tol ≤ 1) {past : List (List ℝ)}
    (hp : ∀ r ∈ past, r.length = 6) (n : ℕ) :
    uniaxialNewton (forwardMaterial "von_mises" (.vonMises (pointwise cyclingLaw)) T c) tol past e
      (2 * n) (0, 0) = .ok (0, 0) := by
  have hn : NamesModel "von_mises" (.vonMises (pointwise cyclingLaw)) := rfl
  have h6 : SixComponents (pathStress (.vonMises (pointwise cyclingLaw)) T c) :=
    pointwise_six fun _ => rfl
  have hg : lateralAfter (pathStress (.vonMises (pointwise cyclingLaw)) T c) past e
      = fun x => (x.1 ^ 3 - 2 * x.1 + 2, x.2) := cycling_after past e
  have hv : residualValue (forwardMaterial "von_mises" (.vonMises (pointwise cyclingLaw)) T c) past e
      = fun x => (x.1 ^ 3 - 2 * x.1 + 2, x.2) := by
    rw [← hg]; exact funext (residualValue_eq hn h6 hp)
  induction n with
  | zero => rfl
  | succ n ih =>
      rw [show 2 * (n + 1) = 2 * n + 1 + 1 by ring]
      unfold uniaxialNewton
      rw [residual_eq hn h6 hp, hg]
      change (if uniaxialConverged tol e _ then _ else _) = _
      rw [if_neg (cycling_large he ht (by norm_num)), hv, cycling_jacobian,
        solve2_eq (by norm_num)]
      change uniaxialNewton _ _ _ _ (2 * n + 1) _ = _
      norm_num only
      unfold uniaxialNewton
      rw [residual_eq hn h6 hp, hg]
      change (if uniaxialConverged tol e _ then _ else _) = _
      rw [if_neg (cycling_large he ht (by norm_num)), hv, cycling_jacobian,
        solve2_eq (by norm_num)]
      change uniaxialNewton _ _ _ _ (2 * n) _ = _
      norm_num only
      exact ih

/-- **C121 is violated for iterations that do not converge.** For a material whose first lateral stress
is `x³ - 2 x + 2`, and for any path of axial strains of at most one, any tolerance up to one and any even
number of iterations, such as the 30 of the default, the paths are returned without an error, with no
lateral strain and with a lateral stress of 2 at every time. -/
theorem C121_lateral_violated (T c tol : ℝ) (n : ℕ) (es : List ℝ) (he : ∀ e ∈ es, |e| ≤ 1)
    (ht : tol ≤ 1) :
    ∃ strain stress : List (List ℝ),
      uniaxialPath "von_mises" (.vonMises (pointwise cyclingLaw)) T c tol (2 * n) es
        = .ok (strain, stress) ∧ stress.length = es.length ∧ ∀ r ∈ stress, lateral r = (2, 0) := by
  have step : ∀ (l : List ℝ) (p : List (List ℝ)), (∀ e ∈ l, |e| ≤ 1) → (∀ r ∈ p, r.length = 6) →
      l.foldlM (uniaxialStep (forwardMaterial "von_mises" (.vonMises (pointwise cyclingLaw)) T c) tol
        (2 * n)) p = .ok (p ++ l.map fun e => [0, 0, e, 0, 0, 0]) := by
    intro l
    induction l with
    | nil => intro p _ _; simp; rfl
    | cons e l ih =>
        intro p hl hp
        rw [List.foldlM_cons]
        unfold uniaxialStep
        rw [cycling_newton (hl e (by simp)) ht hp n]
        change List.foldlM _ (p ++ [trialStrain (0, 0) e]) l = _
        have := ih (p ++ [trialStrain (0, 0) e]) (fun e he => hl e (by simp [he])) (by
          intro r hr
          rcases List.mem_append.mp hr with h | h
          · exact hp r h
          · rw [List.mem_singleton.mp h]; rfl)
        unfold uniaxialStep at this
        rw [this]
        simp [trialStrain]
  have h6 : SixComponents (pathStress (.vonMises (pointwise cyclingLaw)) T c) :=
    pointwise_six fun _ => rfl
  have hstart : ∀ r ∈ (es.take 1).map fun _ => trialStrain (0, 0) 0, r.length = 6 := by
    intro r hr
    obtain ⟨_, _, rfl⟩ := List.mem_map.mp hr
    rfl
  set q := ((es.take 1).map fun _ => trialStrain (0, 0) 0)
    ++ es.tail.map fun e => ([0, 0, e, 0, 0, 0] : List ℝ) with hq
  have hrows : ∀ r ∈ q, ∃ e : ℝ, r = [0, 0, e, 0, 0, 0] := by
    intro r hr
    rcases List.mem_append.mp hr with h | h
    · obtain ⟨_, _, rfl⟩ := List.mem_map.mp h
      exact ⟨0, rfl⟩
    · obtain ⟨e, _, rfl⟩ := List.mem_map.mp h
      exact ⟨e, rfl⟩
  have hq6 : ∀ r ∈ q, r.length = 6 := by
    intro r hr
    obtain ⟨e, rfl⟩ := hrows r hr
    rfl
  refine ⟨q, pointwise cyclingLaw q, ?_, ?_, ?_⟩
  · unfold uniaxialPath
    simp only []
    rw [step es.tail _ (fun e h => he e (List.mem_of_mem_tail h)) hstart]
    change (do
      let stress ← forwardMaterial "von_mises" (.vonMises (pointwise cyclingLaw)) T c q
      .ok (q, stress)) = _
    rw [forward_eq (show NamesModel "von_mises" (.vonMises (pointwise cyclingLaw)) from rfl) h6 hq6]
    rfl
  · cases es <;> simp [pointwise, hq]
  · intro r hr
    obtain ⟨s, hs, rfl⟩ := List.mem_map.mp hr
    obtain ⟨e, rfl⟩ := hrows s hs
    simp [cyclingLaw, lateral]

/-- **C121 is violated for the first strain.** No returned strain path begins with a prescribed strain
other than zero: the first axial strain of the path is zero, whatever is prescribed. -/
theorem C121_first_violated (name : String) (m : PathModel) (T c tol : ℝ) (maxIter : ℕ) (e0 : ℝ)
    (es : List ℝ) (h0 : e0 ≠ 0) (strain stress : List (List ℝ))
    (h : uniaxialPath name m T c tol maxIter (e0 :: es) = .ok (strain, stress)) :
    (strain.getD 0 []).getD 2 0 ≠ e0 := by
  have h1 := (C121_strains _ _ _ _ _ _ _ _ _ h).2.2.1 (by simp)
  rw [List.getD_eq_getElem?_getD (l := strain), h1]
  simpa using h0.symm

/-- A law that couples the axial strain with a shear stress. -/
def coupledLaw (r : List ℝ) : List ℝ :=
  [r.getD 0 0, r.getD 1 0, r.getD 2 0, r.getD 2 0, 0, 0]

/-- **C121 is violated for anisotropic materials and initial stresses.** Only the two lateral stresses
are considered.  For a material that couples the axial strain with a shear stress, the stress that is
returned for an axial strain `e` has a shear stress of `e`; for a network with lateral outputs for the
undeformed material, here `s`, the first stress of the path has these lateral stresses. -/
theorem C121_uniaxial_violated (T c tol e s : ℝ) (maxIter : ℕ) (htol : 0 < tol) (hmax : 0 < maxIter) :
    (∃ strain stress : List (List ℝ),
      uniaxialPath "von_mises" (.vonMises (pointwise coupledLaw)) T c tol maxIter [0, e]
        = .ok (strain, stress) ∧ (stress.getD 1 []).getD 3 0 = e) ∧
    ∃ strain stress : List (List ℝ),
      uniaxialPath "gru" (.gru false false id id
        (pointwise fun r => [r.getD 0 0 + s, r.getD 1 0 + s, r.getD 2 0, 0, 0, 0])) T c tol maxIter [0]
        = .ok (strain, stress) ∧ lateral (stress.getD 0 []) = (s, s) := by
  constructor
  · have haff : LaterallyAffine (pointwise coupledLaw) := by
      intro past e _
      refine ⟨1, 0, 0, 1, 0, 0, by norm_num, fun x => ?_⟩
      rw [pointwise_after]
      simp [coupledLaw, lateral]
    obtain ⟨strain, stress, h, -⟩ := C121_affine "von_mises" (.vonMises (pointwise coupledLaw)) T c tol
      maxIter [0, e] rfl (pointwise_six fun _ => rfl) (pointwise_causal _) haff htol hmax
    refine ⟨strain, stress, h, ?_⟩
    obtain ⟨hl, hst, -, hr⟩ := C121_strains _ _ _ _ _ _ _ _ _ h
    obtain ⟨x, y, hxy⟩ := hr 1 (by norm_num) (by simp)
    rw [hst]
    simp only [pathStress, pointwise, List.getD_eq_getElem?_getD, List.getElem?_map, hxy]
    simp [coupledLaw]
  · refine ⟨[trialStrain (0, 0) 0], [[s, s, 0, 0, 0, 0]], ?_, ?_⟩
    · unfold uniaxialPath
      simp only [List.take_succ_cons, List.take_zero, List.map_cons, List.map_nil, List.tail_cons,
        List.foldlM_nil]
      change (do
        let stress ← forwardMaterial "gru" _ T c [trialStrain (0, 0) 0]
        .ok ([trialStrain (0, 0) 0], stress)) = _
      have := (C121_forward "gru" (.gru false false id id
        (pointwise fun r => [r.getD 0 0 + s, r.getD 1 0 + s, r.getD 2 0, 0, 0, 0])) T c
        [trialStrain (0, 0) 0] [[s, s, 0, 0, 0, 0]]).mpr ⟨rfl, by
          simp [pathStress, pointwise, trialStrain], rfl⟩
      rw [this]
      rfl
    · simp [lateral]

/-- **C121, singular steps.** When the lateral stresses of a step are not small and do not depend on the
lateral strains, the script stops with the error of the linear solver. -/
theorem C121_singular (name : String) (m : PathModel) (T c tol : ℝ) (maxIter : ℕ) (e : ℝ)
    (past : List (List ℝ)) (hn : NamesModel name m) (h6 : SixComponents (pathStress m T c))
    (hp : ∀ r ∈ past, r.length = 6) (s : ℝ × ℝ)
    (hs : ∀ x, lateralAfter (pathStress m T c) past e x = s) (hlarge : ¬ SmallLateral tol e s)
    (hmax : 0 < maxIter) :
    uniaxialStep (forwardMaterial name m T c) tol maxIter past e = .error .runtimeError := by
  obtain ⟨n, rfl⟩ : ∃ n, maxIter = n + 1 := ⟨maxIter - 1, by omega⟩
  have hv : residualValue (forwardMaterial name m T c) past e = fun _ => s := by
    funext x
    rw [residualValue_eq hn h6 hp, hs]
  unfold uniaxialStep uniaxialNewton
  rw [residual_eq hn h6 hp, hs]
  change ((if uniaxialConverged tol e s then _ else _) >>= _) = _
  rw [if_neg (fun h => hlarge (converged_iff.mp h)), hv]
  have hJ : jacobian2 (fun _ => s) (0, 0) = ((0, 0), (0, 0)) := by
    unfold jacobian2
    simp only [deriv_const]
  rw [hJ]
  have : solve2 ((0, 0), (0, 0)) (-s.1, -s.2) = .error .runtimeError := by
    unfold solve2 raiseIf
    simp only [mul_zero, sub_self, if_true]
    rfl
  rw [this]
  rfl

/-- Such a step: a network with constant outputs. -/
example : uniaxialStep (forwardMaterial "gru" (.gru false false id id
    (pointwise fun _ => [1, 1, 1, 0, 0, 0])) 25 0) 1e-8 30 [[0, 0, 0, 0, 0, 0]] 0.1
    = .error .runtimeError := by
  have hl : pathStress (.gru false false id id (pointwise fun _ => [1, 1, 1, 0, 0, 0])) 25 0
      = pointwise fun _ => [1, 1, 1, 0, 0, 0] := by
    funext p
    simp only [pathStress, pointwise, Bool.false_eq_true, if_false, List.map_map]
    exact List.map_congr_left fun _ _ => rfl
  refine C121_singular "gru" _ 25 0 _ _ _ _ rfl ?_ ?_ (1, 1) ?_ ?_ (by norm_num)
  · rw [hl]; exact pointwise_six fun _ => rfl
  · simp
  · intro x
    rw [hl, pointwise_after]
    simp [lateral]
  · rintro ⟨_, h⟩
    have h1 : (1 : ℝ) ≤ magnitude (1, 1) := by
      unfold magnitude
      rw [Real.le_sqrt' (by norm_num)]
      norm_num
    have h2 : (1e-8 : ℝ) * |0.1| ≤ 1 := by
      rw [abs_of_pos (by norm_num)]
      norm_num
    linarith

end Hooke
