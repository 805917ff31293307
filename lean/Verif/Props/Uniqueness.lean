import Verif.Spec.Uniqueness
import Verif.Props.SpecimenWork
import Verif.Props.StabilityCone

/-!
# C159: the loading determines the states of a specimen
-/

noncomputable section

namespace Hooke

open Spec

/-! ## One element -/

/-- The Gauss points of an element in one increment, and the work of its forces. -/
theorem element_points {σ : Type} {pt n : ℕ} {e : ElementType} (hn : e.dim = n) {co cn : List Comp}
    (hp : getProblemTypeParameters pt = .ok (n, co, cn)) {rule : GaussRule e.dim} {mat : Material σ}
    {X : Fin e.nNode → Fin e.dim → ℝ} {u : Tensor} (hu : u.shape = [e.nNode, e.dim])
    {old : GpDict σ} {r : IFState σ}
    (h : computeElementInternalForces .infinitesimal pt e rule.length rule mat old X u = .ok r) :
    ∃ t : Fin rule.length → Tensor, (∀ g : Fin rule.length, ∃ s new inc rest, old (g + 1) = some s ∧
      carriedState r.state (g + 1) = some new ∧ IsSym2 n inc ∧ mat.stateUpdate inc s = .ok (new, rest) ∧
      getTensorFromMf (mat.stressMf new) n co true = .ok (t g) ∧
      tens2 n inc = strainAt e X rule[g].1 n u) ∧
    ∀ w : Tensor, w.shape = [e.nNode, e.dim] → nodalDot e.nNode e.dim r.forces w =
      ∑ g : Fin rule.length, rule[g].2 * (e.jacobian X rule[g].1).det *
        ∑ i : Fin n, ∑ j : Fin n, tens2 n (t g) i j * strainAt e X rule[g].1 n w i j := by
  subst hn
  have hco := (problemType_orders_complete hp).1
  obtain ⟨-, wt, det, dd, stress, hg, hvw⟩ := C18_virtual_work hp h
  have hpoint : ∀ g : Fin rule.length, ∃ t s new inc rest, old (g + 1) = some s ∧
      carriedState r.state (g + 1) = some new ∧ IsSym2 e.dim inc ∧ mat.stateUpdate inc s = .ok (new, rest) ∧
      getTensorFromMf (mat.stressMf new) e.dim co true = .ok t ∧
      tens2 e.dim inc = strainAt e X rule[g].1 e.dim u ∧
      wt g * det g = rule[g].2 * (e.jacobian X rule[g].1).det ∧
      ∀ w : Tensor, ∑ i ∈ Finset.range e.dim, ∑ j ∈ Finset.range e.dim,
        (stress g).val [i, j] * (strainTensor e.nNode e.dim (dd g) w).val [i, j] =
        ∑ i : Fin e.dim, ∑ j : Fin e.dim, tens2 e.dim t i j * strainAt e X rule[g].1 e.dim w i j := by
    intro g
    obtain ⟨c, J, new, t, hr, hJ, hdet, hn1, ht, hts⟩ := hg g g.2
    obtain ⟨-, c', w', dd', det', s', new', stress', b, hd, ho, hst, hsh, hq⟩ := internalForces_ok hp h
    obtain ⟨si, ni, -, hni, hdone⟩ := hd g g.2
    have hcw := hdone.point
    rw [hr] at hcw
    simp only [Option.some.injEq, Prod.mk.injEq] at hcw
    obtain ⟨hc, -⟩ := hcw
    obtain ⟨J', hJ'⟩ := hdone.deriv
    rw [← hc, hJ] at hJ'
    simp only [Except.ok.injEq, Prod.mk.injEq] at hJ'
    obtain ⟨gr, vv, inc, rest, hgr, hvv, hinc, hup⟩ := hdone.update
    rw [← hJ'.1] at hgr
    have hds := (evalShapefunDeriv_inv hJ).2.2.1
    have hsame := incStrain_same hco hds hu hgr hvv hinc
    have hnew : ni = new := by
      rw [hst, if_pos (by omega), Nat.add_sub_cancel, hni] at hn1
      simpa using hn1
    rw [hnew] at hup
    have hr' : rule[g] = (c, wt g) := by
      rw [List.getElem?_eq_getElem g.2] at hr
      exact Option.some.inj hr
    have hsym : t.shape = [e.dim, e.dim] := by
      obtain ⟨_, sv, _, _, hsv, _⟩ := hdone.force
      obtain ⟨t1, ht1, hts1⟩ := fromMf_of_v hco hdone.stressOk hsv
      rw [hnew] at ht1
      have := ht.symm.trans ht1
      cases this
      rw [hts1.1]
      exact (vgetTensorFromMf_isSym hco hdone.stressOk hsv).1
    refine ⟨t, si, new, inc, rest, hdone.oldState, by simp only [carriedState, hn1, Option.join_some],
      SameTensor_isSym2 hsame (strainTensor_isSym _ _ _ _), hup, ht, ?_, by rw [hr', hdet], fun w => ?_⟩
    · rw [hr', ← strainAt_table hJ rfl u]
      exact SameTensor_tens2 hsame rfl
    · rw [Finset.sum_range]
      refine Finset.sum_congr rfl fun i _ => ?_
      rw [Finset.sum_range]
      refine Finset.sum_congr rfl fun j _ => ?_
      rw [hr', ← strainAt_table hJ rfl w, SameTensor_tens2 hts (hts.1 ▸ hsym)]
      rfl
  choose t ht using hpoint
  refine ⟨t, fun g => ?_, fun w hw => ?_⟩
  · obtain ⟨s, new, inc, rest, h1, h2, h3, h4, h5, h6, -⟩ := ht g
    exact ⟨s, new, inc, rest, h1, h2, h3, h4, h5, h6⟩
  · rw [hvw w hw, Finset.sum_range]
    refine Finset.sum_congr rfl fun g _ => ?_
    obtain ⟨s, new, inc, rest, -, -, -, -, -, -, h7, h8⟩ := ht g
    rw [h7, h8 w]

/-- Difference of two displacement fields. -/
def diffField (m n : ℕ) (u₁ u₂ : Tensor) : Tensor := ⟨[m, n], fun idx => u₁.val idx - u₂.val idx⟩

theorem nodalDot_diff (m n : ℕ) (f₁ f₂ u₁ u₂ : Tensor) :
    ∑ a ∈ Finset.range m, ∑ q ∈ Finset.range n,
      (f₁.val [a * n + q] - f₂.val [a * n + q]) * (u₁.val [a, q] - u₂.val [a, q]) =
    nodalDot m n f₁ (diffField m n u₁ u₂) - nodalDot m n f₂ (diffField m n u₁ u₂) := by
  unfold nodalDot
  rw [← Finset.sum_sub_distrib]
  refine Finset.sum_congr rfl fun a _ => ?_
  rw [← Finset.sum_sub_distrib]
  refine Finset.sum_congr rfl fun q _ => ?_
  simp only [diffField]
  ring

theorem strainAt_diff {e : ElementType} {n : ℕ} (hn : e.dim = n) (X : Fin e.nNode → Fin e.dim → ℝ)
    (c : Fin e.dim → ℝ) (u₁ u₂ : Tensor) (i j : Fin n) :
    strainAt e X c n (diffField e.nNode e.dim u₁ u₂) i j = strainAt e X c n u₁ i j - strainAt e X c n u₂ i j := by
  rw [strainAt_comb e X c n (a := 1) (b := -1) (u := u₁) (w := u₂) hn fun k _ i _ => by
    simp only [diffField]; ring]
  ring

theorem contractive_increment {σ : Type} {pt n : ℕ} {e : ElementType} (hn : e.dim = n) {co cn : List Comp}
    (hp : getProblemTypeParameters pt = .ok (n, co, cn)) {rule : GaussRule e.dim} {mat : Material σ}
    {inv : σ → Prop} {dist : σ → σ → ℝ} {norm : T2 n → ℝ} {slack : σ → ℝ}
    (hmat : Contractive mat n co inv dist norm slack)
    {X : Fin e.nNode → Fin e.dim → ℝ} {u₁ u₂ : Tensor} (hu₁ : u₁.shape = [e.nNode, e.dim])
    (hu₂ : u₂.shape = [e.nNode, e.dim]) {old₁ old₂ : GpDict σ} {r₁ r₂ : IFState σ}
    (hold₁ : ∀ g < rule.length, ∃ s, old₁ (g + 1) = some s ∧ inv s)
    (hold₂ : ∀ g < rule.length, ∃ s, old₂ (g + 1) = some s ∧ inv s)
    (h₁ : computeElementInternalForces .infinitesimal pt e rule.length rule mat old₁ X u₁ = .ok r₁)
    (h₂ : computeElementInternalForces .infinitesimal pt e rule.length rule mat old₂ X u₂ = .ok r₂) :
    ∃ P : Fin rule.length → ℝ, (∀ g : Fin rule.length, ∃ s₁ s₂ n₁ n₂, old₁ (g + 1) = some s₁ ∧
      old₂ (g + 1) = some s₂ ∧ carriedState r₁.state (g + 1) = some n₁ ∧
      carriedState r₂.state (g + 1) = some n₂ ∧ inv n₁ ∧ inv n₂ ∧ slack s₁ ≤ slack n₁ ∧ slack s₂ ≤ slack n₂ ∧
      0 ≤ slack s₁ ∧ 0 ≤ slack s₂ ∧
      dist n₁ n₂ ≤ dist s₁ s₂ + norm (strainAt e X rule[g].1 n u₁ - strainAt e X rule[g].1 n u₂) +
        (slack s₁ + slack s₂) ∧
      1 / 2 * dist n₁ n₂ ^ 2 - 1 / 2 * dist s₁ s₂ ^ 2 ≤ P g + (3 * (slack s₁ + slack s₂) *
        (dist s₁ s₂ + norm (strainAt e X rule[g].1 n u₁ - strainAt e X rule[g].1 n u₂)) +
          (slack s₁ + slack s₂) ^ 2)) ∧
    ∑ a ∈ Finset.range e.nNode, ∑ q ∈ Finset.range e.dim, (r₁.forces.val [a * e.dim + q] -
      r₂.forces.val [a * e.dim + q]) * (u₁.val [a, q] - u₂.val [a, q]) =
      ∑ g : Fin rule.length, rule[g].2 * (e.jacobian X rule[g].1).det * P g := by
  obtain ⟨t₁, hg₁, hw₁⟩ := element_points hn hp hu₁ h₁
  obtain ⟨t₂, hg₂, hw₂⟩ := element_points hn hp hu₂ h₂
  refine ⟨fun g => ∑ i : Fin n, ∑ j : Fin n, (tens2 n (t₁ g) i j - tens2 n (t₂ g) i j) *
    (strainAt e X rule[g].1 n u₁ i j - strainAt e X rule[g].1 n u₂ i j), fun g => ?_, ?_⟩
  · obtain ⟨s₁, n₁, inc₁, rest₁, a1, a2, a3, a4, a5, a6⟩ := hg₁ g
    obtain ⟨s₂, n₂, inc₂, rest₂, b1, b2, b3, b4, b5, b6⟩ := hg₂ g
    have i1 : inv s₁ := by
      obtain ⟨s, hs, hi⟩ := hold₁ g g.2
      rw [a1] at hs
      cases hs
      exact hi
    have i2 : inv s₂ := by
      obtain ⟨s, hs, hi⟩ := hold₂ g g.2
      rw [b1] at hs
      cases hs
      exact hi
    obtain ⟨c1, c2⟩ := hmat.keeps _ _ _ _ a3 i1 a4
    obtain ⟨d1, d2⟩ := hmat.keeps _ _ _ _ b3 i2 b4
    have e1 := hmat.close _ _ _ _ _ _ _ _ a3 b3 i1 i2 a4 b4
    have e2 := hmat.work _ _ _ _ _ _ _ _ _ _ a3 b3 i1 i2 a4 b4 a5 b5
    rw [a6, b6] at e1 e2
    exact ⟨s₁, s₂, n₁, n₂, a1, b1, a2, b2, c1, d1, c2, d2, hmat.slack_nonneg _ i1, hmat.slack_nonneg _ i2,
      e1, e2⟩
  · rw [nodalDot_diff, hw₁ _ rfl, hw₂ _ rfl, ← Finset.sum_sub_distrib]
    refine Finset.sum_congr rfl fun g _ => ?_
    rw [← mul_sub, ← Finset.sum_sub_distrib]
    congr 1
    refine Finset.sum_congr rfl fun i _ => ?_
    rw [← Finset.sum_sub_distrib]
    refine Finset.sum_congr rfl fun j _ => ?_
    rw [strainAt_diff hn]
    ring

theorem stepsError_succ {N : ℕ} {q q₀ d d' h H : ℝ} (hq₀ : 0 ≤ q₀) (hq : q₀ ≤ q) (hd : 0 ≤ d) (hh : 0 ≤ h)
    (hH : 0 ≤ H) (hd' : d' ≤ d + h + q₀) :
    3 * q₀ * (d + h) + q₀ ^ 2 + stepsError N q d' H ≤ stepsError (N + 1) q d (h + H) := by
  have hN : (0 : ℝ) ≤ N := Nat.cast_nonneg N
  have q0 : 0 ≤ q := hq₀.trans hq
  unfold stepsError
  push_cast
  have e1 : 3 * q₀ * (d + h) + q₀ ^ 2 ≤ 3 * q * (d + (h + H) + (N + 1) * q) + q ^ 2 := by
    have : q₀ * (d + h) ≤ q * (d + (h + H) + (N + 1) * q) :=
      mul_le_mul hq (by nlinarith [mul_nonneg hN q0]) (by linarith) q0
    nlinarith
  have e2 : (N : ℝ) * (3 * q * (d' + H + N * q) + q ^ 2) ≤
      N * (3 * q * (d + (h + H) + (N + 1) * q) + q ^ 2) := by
    refine mul_le_mul_of_nonneg_left ?_ hN
    have : q * (d' + H + N * q) ≤ q * (d + (h + H) + (N + 1) * q) :=
      mul_le_mul_of_nonneg_left (by nlinarith) q0
    linarith
  linarith

theorem contractive_history {σ : Type} {pt n : ℕ} {e : ElementType} (hn : e.dim = n) {co cn : List Comp}
    (hp : getProblemTypeParameters pt = .ok (n, co, cn)) {rule : GaussRule e.dim} {mat : Material σ}
    {inv : σ → Prop} {dist : σ → σ → ℝ} {norm : T2 n → ℝ} {slack : σ → ℝ}
    (hmat : Contractive mat n co inv dist norm slack)
    {X : Fin e.nNode → Fin e.dim → ℝ} {us₁ us₂ : List Tensor} (hl : us₁.length = us₂.length)
    (hu₁ : ∀ u ∈ us₁, u.shape = [e.nNode, e.dim]) (hu₂ : ∀ u ∈ us₂, u.shape = [e.nNode, e.dim])
    {old₁ old₂ st₁ st₂ : GpDict σ} {fs₁ fs₂ : List Tensor}
    (hold₁ : ∀ g < rule.length, ∃ s, old₁ (g + 1) = some s ∧ inv s)
    (hold₂ : ∀ g < rule.length, ∃ s, old₂ (g + 1) = some s ∧ inv s)
    (h₁ : elementForcesOverTime .infinitesimal pt e rule.length rule mat X us₁ old₁ = .ok (fs₁, st₁))
    (h₂ : elementForcesOverTime .infinitesimal pt e rule.length rule mat X us₂ old₂ = .ok (fs₂, st₂)) :
    ∃ P : Fin rule.length → ℝ, (∀ g : Fin rule.length, ∃ s₁ s₂ e₁ e₂, old₁ (g + 1) = some s₁ ∧
      old₂ (g + 1) = some s₂ ∧ st₁ (g + 1) = some e₁ ∧ st₂ (g + 1) = some e₂ ∧
      slack s₁ ≤ slack e₁ ∧ slack s₂ ≤ slack e₂ ∧
      1 / 2 * dist e₁ e₂ ^ 2 - 1 / 2 * dist s₁ s₂ ^ 2 ≤ P g + stepsError us₁.length (slack e₁ + slack e₂)
        (dist s₁ s₂) (strainGap e X rule[g].1 n norm us₁ us₂)) ∧
    elementPairWork e.nNode e.dim fs₁ fs₂ us₁ us₂ =
      ∑ g : Fin rule.length, rule[g].2 * (e.jacobian X rule[g].1).det * P g := by
  induction us₁ generalizing us₂ old₁ old₂ fs₁ fs₂ st₁ st₂ with
  | nil =>
    obtain rfl : us₂ = [] := List.length_eq_zero_iff.1 hl.symm
    simp only [elementForcesOverTime, Except.ok.injEq, Prod.mk.injEq] at h₁ h₂
    obtain ⟨rfl, rfl⟩ := h₁
    obtain ⟨rfl, rfl⟩ := h₂
    refine ⟨fun _ => 0, fun g => ?_, by simp [elementPairWork]⟩
    obtain ⟨s, hs, -⟩ := hold₁ g g.2
    obtain ⟨t, ht, -⟩ := hold₂ g g.2
    exact ⟨s, t, s, t, hs, ht, hs, ht, le_rfl, le_rfl, by simp [stepsError]⟩
  | cons u₁ us₁ ih =>
    obtain ⟨u₂, us₂, rfl⟩ : ∃ u us, us₂ = u :: us := by
      cases us₂ with
      | nil => simp at hl
      | cons u us => exact ⟨u, us, rfl⟩
    unfold elementForcesOverTime at h₁ h₂
    obtain ⟨r₁, hr₁, h₁⟩ := bind_ok h₁
    obtain ⟨⟨fs₁', st₁'⟩, hrest₁, h₁⟩ := bind_ok h₁
    obtain ⟨r₂, hr₂, h₂⟩ := bind_ok h₂
    obtain ⟨⟨fs₂', st₂'⟩, hrest₂, h₂⟩ := bind_ok h₂
    simp only [pure, Except.pure, Except.ok.injEq, Prod.mk.injEq] at h₁ h₂
    obtain ⟨rfl, rfl⟩ := h₁
    obtain ⟨rfl, rfl⟩ := h₂
    obtain ⟨P, hP, hPw⟩ := contractive_increment hn hp hmat (hu₁ u₁ List.mem_cons_self)
      (hu₂ u₂ List.mem_cons_self) hold₁ hold₂ hr₁ hr₂
    obtain ⟨Q, hQ, hQw⟩ := ih (us₂ := us₂) (by simpa using hl) (fun u hu => hu₁ u (List.mem_cons_of_mem _ hu))
      (fun u hu => hu₂ u (List.mem_cons_of_mem _ hu))
      (fun g hg => by
        obtain ⟨s₁, s₂, n₁, n₂, -, -, a3, -, a5, -⟩ := hP ⟨g, hg⟩
        exact ⟨n₁, a3, a5⟩)
      (fun g hg => by
        obtain ⟨s₁, s₂, n₁, n₂, -, -, -, a4, -, a6, -⟩ := hP ⟨g, hg⟩
        exact ⟨n₂, a4, a6⟩) hrest₁ hrest₂
    refine ⟨fun g => P g + Q g, fun g => ?_, ?_⟩
    · obtain ⟨s₁, s₂, n₁, n₂, a1, a2, a3, a4, -, -, a7, a8, z1, z2, a9, a10⟩ := hP g
      obtain ⟨m₁, m₂, e₁, e₂, b1, b2, b3, b4, b5, b6, b7⟩ := hQ g
      rw [a3] at b1
      rw [a4] at b2
      obtain rfl := Option.some.inj b1
      obtain rfl := Option.some.inj b2
      refine ⟨s₁, s₂, e₁, e₂, a1, a2, b3, b4, a7.trans b5, a8.trans b6, ?_⟩
      have hH : 0 ≤ strainGap e X rule[g].1 n norm us₁ us₂ := by
        refine List.sum_nonneg fun x hx => ?_
        rw [List.mem_iff_getElem] at hx
        obtain ⟨k, hk, rfl⟩ := hx
        rw [List.getElem_zipWith]
        exact hmat.norm_nonneg _
      have hs := stepsError_succ (N := us₁.length) (add_nonneg z1 z2)
        (add_le_add (a7.trans b5) (a8.trans b6)) (hmat.dist_nonneg s₁ s₂) (hmat.norm_nonneg _) hH a9
      have hz : strainGap e X rule[g].1 n norm (u₁ :: us₁) (u₂ :: us₂) =
          norm (strainAt e X rule[g].1 n u₁ - strainAt e X rule[g].1 n u₂) +
            strainGap e X rule[g].1 n norm us₁ us₂ := by
        simp [strainGap]
      rw [hz, List.length_cons]
      linarith
    · rw [elementPairWork, hPw, hQw, ← Finset.sum_add_distrib]
      exact Finset.sum_congr rfl fun g _ => by ring

/-- **C159.** Two runs of an element: half the squared distance of the states of its Gauss points grows by no
more than the work of the differences of the forces on the differences of the displacement increments, up to
the errors of the steps. -/
theorem C159_element {σ : Type} {pt n : ℕ} {e : ElementType} (hn : e.dim = n) {co cn : List Comp}
    (hp : getProblemTypeParameters pt = .ok (n, co, cn)) {rule : GaussRule e.dim} {mat : Material σ}
    {inv : σ → Prop} {dist : σ → σ → ℝ} {norm : T2 n → ℝ} {slack : σ → ℝ}
    (hmat : Contractive mat n co inv dist norm slack) {X : Fin e.nNode → Fin e.dim → ℝ}
    (hw : ∀ c w, (c, w) ∈ rule → 0 ≤ w * (e.jacobian X c).det)
    {us₁ us₂ : List Tensor} (hl : us₁.length = us₂.length)
    (hu₁ : ∀ u ∈ us₁, u.shape = [e.nNode, e.dim]) (hu₂ : ∀ u ∈ us₂, u.shape = [e.nNode, e.dim])
    {old₁ old₂ st₁ st₂ : GpDict σ} {fs₁ fs₂ : List Tensor}
    (hold₁ : ∀ g < rule.length, ∃ s, old₁ (g + 1) = some s ∧ inv s)
    (hold₂ : ∀ g < rule.length, ∃ s, old₂ (g + 1) = some s ∧ inv s)
    (h₁ : elementForcesOverTime .infinitesimal pt e rule.length rule mat X us₁ old₁ = .ok (fs₁, st₁))
    (h₂ : elementForcesOverTime .infinitesimal pt e rule.length rule mat X us₂ old₂ = .ok (fs₂, st₂)) :
    elementGap dist e rule X st₁ st₂ - elementGap dist e rule X old₁ old₂ ≤
      elementPairWork e.nNode e.dim fs₁ fs₂ us₁ us₂ +
        elementError dist norm slack e rule X us₁ us₂ old₁ old₂ st₁ st₂ := by
  obtain ⟨P, hP, hPw⟩ := contractive_history hn hp hmat hl hu₁ hu₂ hold₁ hold₂ h₁ h₂
  rw [hPw, elementGap, elementGap, elementError, ← Finset.sum_sub_distrib, ← Finset.sum_add_distrib]
  refine Finset.sum_le_sum fun g _ => ?_
  obtain ⟨s₁, s₂, e₁, e₂, a1, a2, a3, a4, -, -, a7⟩ := hP g
  rw [a1, a2, a3, a4, ← mul_sub, ← mul_add]
  exact mul_le_mul_of_nonneg_left a7 (hw rule[g].1 rule[g].2 (List.getElem_mem _))

/-! ## Materials of the library -/

theorem library_contractive {S : Type} {p : PType} {step : T2 p.dim → S → Option S} {stress : S → Vmf p}
    {inv : S → Prop} {dist : S → S → ℝ} {norm : T2 p.dim → ℝ} {slack : S → ℝ}
    (hd : ∀ s t, 0 ≤ dist s t) (hds : ∀ s, dist s s = 0) (hnorm : ∀ x, 0 ≤ norm x)
    (hsl : ∀ s, inv s → 0 ≤ slack s)
    (hkeep : ∀ inc s new, IsSymP p inc → inv s → step inc s = some new → inv new ∧ slack s ≤ slack new)
    (hclose : ∀ i j s t s' t', IsSymP p i → IsSymP p j → inv s → inv t → step i s = some s' →
      step j t = some t' → dist s' t' ≤ dist s t + norm (i - j) + (slack s + slack t))
    (hwork : ∀ i j s t s' t', IsSymP p i → IsSymP p j → inv s → inv t → step i s = some s' →
      step j t = some t' → 1 / 2 * dist s' t' ^ 2 - 1 / 2 * dist s t ^ 2 ≤
        ∑ k, ∑ l, (unmf p (stress s') k l - unmf p (stress t') k l) * (i k l - j k l) +
          (3 * (slack s + slack t) * (dist s t + norm (i - j)) + (slack s + slack t) ^ 2)) :
    Contractive (libraryMaterial p step stress) p.dim (kelvinOrder p) inv dist norm slack := by
  have hstep : ∀ {inc s new rest}, (libraryMaterial p step stress).stateUpdate inc s = .ok (new, rest) →
      step (tens2 p.dim inc) s = some new := by
    intro inc s new rest h
    simp only [libraryMaterial] at h
    cases hst : step (tens2 p.dim inc) s with
    | none =>
      rw [hst] at h
      cases h
    | some n =>
      rw [hst] at h
      cases h
      rfl
  have hsym : ∀ {inc}, IsSym2 p.dim inc → IsSymP p (tens2 p.dim inc) := fun hi i j => hi.2 i i.2 j j.2
  refine ⟨hd, hds, hnorm, hsl, ?_, ?_, ?_⟩
  · intro inc s new rest hi hs h
    exact hkeep _ _ _ (hsym hi) hs (hstep h)
  · intro inc₁ inc₂ s₁ s₂ new₁ new₂ rest₁ rest₂ i1 i2 v1 v2 h1 h2
    exact hclose _ _ _ _ _ _ (hsym i1) (hsym i2) v1 v2 (hstep h1) (hstep h2)
  · intro inc₁ inc₂ s₁ s₂ new₁ new₂ rest₁ rest₂ t₁ t₂ i1 i2 v1 v2 h1 h2 g1 g2
    have := hwork _ _ _ _ _ _ (hsym i1) (hsym i2) v1 v2 (hstep h1) (hstep h2)
    simp only [libraryMaterial] at g1 g2
    rw [vmfTensor_tensor p _ g1, vmfTensor_tensor p _ g2]
    exact this

/-- Energy of the difference after a correction that is nearly monotone. -/
theorem firm_work {V : Type} [NormedAddCommGroup V] [InnerProductSpace ℝ V] {A D T S W : V} {q : ℝ}
    (hD : 0 ≤ inner ℝ D (T - D)) (hA : ‖A - D‖ ≤ q) (hT : T = S + W) :
    1 / 2 * ‖A‖ ^ 2 - 1 / 2 * ‖S‖ ^ 2 ≤ inner ℝ A W + (3 * q * (‖S‖ + ‖W‖) + q ^ 2) := by
  have q0 : 0 ≤ q := (norm_nonneg _).trans hA
  have h1 : ‖D‖ ^ 2 ≤ inner ℝ D T := by
    rw [inner_sub_right, real_inner_self_eq_norm_sq] at hD
    linarith
  have h2 : ‖D‖ ≤ ‖T‖ := norm_le_of_monotone (c := T - D) (by abel) hD
  have h3 : -(q * ‖T‖) ≤ inner ℝ (A - D) T := by
    have := abs_real_inner_le_norm (A - D) T
    have h4 := mul_le_mul_of_nonneg_right hA (norm_nonneg T)
    have := (abs_le.mp this).1
    linarith
  have h5 : inner ℝ A T = inner ℝ D T + inner ℝ (A - D) T := by
    rw [← inner_add_left]
    congr 1
    abel
  have h6 : inner ℝ A T = inner ℝ A S + inner ℝ A W := by rw [hT, inner_add_right]
  have h7 := real_inner_le_norm A S
  have h8 : ‖A‖ ≤ ‖D‖ + q := by
    have := norm_add_le D (A - D)
    rw [add_sub_cancel] at this
    linarith
  have h9 : ‖T‖ ≤ ‖S‖ + ‖W‖ := hT ▸ norm_add_le S W
  have h10 : ‖A‖ ^ 2 ≤ ‖D‖ ^ 2 + 2 * q * ‖T‖ + q ^ 2 := by
    have := mul_le_mul_of_nonneg_left h2 q0
    nlinarith [norm_nonneg A, norm_nonneg D]
  have h11 := mul_le_mul_of_nonneg_left h9 q0
  nlinarith [sq_nonneg (‖A‖ - ‖S‖)]

theorem exact_monotone {E v s0 a : ℝ} (hA : Admissible E v) (ha : 0 ≤ a) (hs : 2e-8 ≤ s0) {e f : V6}
    {x y : ℝ} (hx : 0 ≤ x) (hy : 0 ≤ y) :
    0 ≤ inner ℝ (stateVec E v a (exactElastic E v s0 a e x) (x + exactInc E v s0 a e x) -
        stateVec E v a (exactElastic E v s0 a f y) (y + exactInc E v s0 a f y))
      (stateVec E v a e x - stateVec E v a f y -
        (stateVec E v a (exactElastic E v s0 a e x) (x + exactInc E v s0 a e x) -
        stateVec E v a (exactElastic E v s0 a f y) (y + exactInc E v s0 a f y))) := by
  have h1 := exact_half (e := e) (f := f) hA ha hs hx hy
  have h2 := exact_half (e := f) (f := e) hA ha hs hy hx
  have hc : stateVec E v a e x - stateVec E v a f y -
        (stateVec E v a (exactElastic E v s0 a e x) (x + exactInc E v s0 a e x) -
        stateVec E v a (exactElastic E v s0 a f y) (y + exactInc E v s0 a f y)) =
      exactInc E v s0 a e x • stateVec E v a (vmFlow (hooke6 (lame E v) (shear E v) e)) (-1) -
      exactInc E v s0 a f y • stateVec E v a (vmFlow (hooke6 (lame E v) (shear E v) f)) (-1) := by
    rw [exact_vec, exact_vec]
    abel
  rw [hc, inner_sub_right, inner_smul_right, inner_smul_right]
  rw [← neg_sub, inner_neg_left] at h2
  linarith

theorem nearest_monotone {m : DPParams} {c0 a : ℝ} {e f e' f' : V6} {x y x' y' : ℝ}
    (h : IsNearest m c0 a e x f y) (h' : IsNearest m c0 a e' x' f' y') :
    0 ≤ inner ℝ (stateVec m.E m.v a f y - stateVec m.E m.v a f' y')
      (stateVec m.E m.v a e x - stateVec m.E m.v a e' x' -
        (stateVec m.E m.v a f y - stateVec m.E m.v a f' y')) := by
  have hc : stateVec m.E m.v a e x - stateVec m.E m.v a e' x' -
        (stateVec m.E m.v a f y - stateVec m.E m.v a f' y') =
      (stateVec m.E m.v a e x - stateVec m.E m.v a f y) -
      (stateVec m.E m.v a e' x' - stateVec m.E m.v a f' y') := by abel
  have h1 := h.2 f' y' h'.1
  have h2 := h'.2 f y h.1
  rw [← neg_sub, inner_neg_left] at h2
  rw [hc, inner_sub_right]
  linarith

/-- Work of the difference of the stresses on the difference of the increments. -/
theorem stress_work {p : PType} {E v a : ℝ} (hA : Admissible E v) (ha : 0 ≤ a) {s t : VMState p}
    (hs : stress3D s = hooke6 (lame E v) (shear E v) (elastic3D s))
    (ht : stress3D t = hooke6 (lame E v) (shear E v) (elastic3D t)) {i j : T2 p.dim} (hi : IsSymP p i)
    (hj : IsSymP p j) :
    inner ℝ (stateVec E v a (elastic3D s) s.acc - stateVec E v a (elastic3D t) t.acc)
      (stateVec E v a (increment3D p (i - j)) 0) =
      ∑ k, ∑ l, (unmf p s.stress k l - unmf p t.stress k l) * (i k l - j k l) := by
  have hij : IsSymP p (i - j) := fun k l => by
    simp only [Pi.sub_apply]
    rw [hi k l, hj k l]
  rw [inner_sub_left, stateVec_inner hA ha, stateVec_inner hA ha, ← hs, ← ht, mul_zero, mul_zero,
    add_zero, add_zero, stress3D, stress3D, inner6_increment p _ _ hij, inner6_increment p _ _ hij,
    ← Finset.sum_sub_distrib]
  refine Finset.sum_congr rfl fun k _ => ?_
  rw [← Finset.sum_sub_distrib]
  refine Finset.sum_congr rfl fun l _ => ?_
  simp only [Pi.sub_apply]
  ring

theorem stateDistance_self {p : PType} {E v a : ℝ} (hA : Admissible E v) (ha : 0 ≤ a) (s : VMState p) :
    stateDistance E v a s s = 0 := by
  rw [stateDistance_eq hA ha, sub_self, norm_zero]

/-- Distance from the exact return in one step of the von Mises model with linear hardening. -/
def Spec.vmSlack {p : PType} (E v s0 a : ℝ) (s : VMState p) : ℝ :=
  1e-6 * (s0 + a * s.acc) / √(3 * shear E v + a)

theorem vmUpdate_stress {p : PType} {E v : ℝ} {law : HardLaw} {inc : T2 p.dim} {old new : VMState p}
    {T : Option (Fin p.len → Fin p.len → ℝ)} (h : vmUpdate p E v law inc old = (.good new, T)) :
    stress3D new = hooke6 (lame E v) (shear E v) (elastic3D new) := by
  obtain ⟨r, hr, h1, h2, -⟩ := vmUpdate_good h
  rw [h1, h2]
  exact (vmReturn_cases hr).1

/-- **C159.** The von Mises model with linear hardening brings states together, up to the yield tolerance. -/
theorem C159_von_mises {p : PType} {E v s0 a : ℝ} (hA : Admissible E v) (ha : 0 ≤ a) (hs : 2e-8 ≤ s0) :
    Contractive (libraryMaterial p (vmGood p E v (linearHardening s0 a)) VMState.stress) p.dim (kelvinOrder p)
      (fun s => 0 ≤ s.acc) (stateDistance E v a) (fun x => energyNorm E v (increment3D p x))
      (vmSlack E v s0 a) := by
  have hstep : ∀ {inc : T2 p.dim} {s new : VMState p}, vmGood p E v (linearHardening s0 a) inc s = some new →
      ∃ T, vmUpdate p E v (linearHardening s0 a) inc s = (.good new, T) := by
    intro inc s new h
    unfold vmGood at h
    cases hu : vmUpdate p E v (linearHardening s0 a) inc s with
    | mk st T =>
      rw [hu] at h
      cases st with
      | nan sn => cases h
      | good s =>
        cases h
        exact ⟨T, rfl⟩
  have hs0 : 0 ≤ s0 := le_trans (by norm_num) hs
  refine library_contractive (fun s t => stateDistance_nonneg E v a s t) (stateDistance_self hA ha)
    (fun x => Real.sqrt_nonneg _) ?_ ?_ ?_ ?_
  · intro s h
    exact div_nonneg (mul_nonneg (by norm_num) (add_nonneg hs0 (mul_nonneg ha h))) (Real.sqrt_nonneg _)
  · intro inc s new _ h hst
    obtain ⟨T, hu⟩ := hstep hst
    have hle := (exact_of_step hA ha hs h hu).2
    refine ⟨le_trans h hle, div_le_div_of_nonneg_right (mul_le_mul_of_nonneg_left ?_ (by norm_num))
      (Real.sqrt_nonneg _)⟩
    linarith [mul_le_mul_of_nonneg_left hle ha]
  · intro i j s t s' t' _ _ h1 h2 hu hv
    obtain ⟨T, hu⟩ := hstep hu
    obtain ⟨T', hv⟩ := hstep hv
    have := C143_step hA ha hs h1 h2 hu hv
    rw [mul_add, add_div] at this
    exact this
  · intro i j s t s' t' hi hj h1 h2 hu hv
    obtain ⟨T, hu⟩ := hstep hu
    obtain ⟨T', hv⟩ := hstep hv
    obtain ⟨e1, -⟩ := exact_of_step hA ha hs h1 hu
    obtain ⟨e2, -⟩ := exact_of_step hA ha hs h2 hv
    have hq : ‖(stateVec E v a (elastic3D s') s'.acc - stateVec E v a (elastic3D t') t'.acc) -
        (stateVec E v a (exactElastic E v s0 a (trial3D s i) s.acc)
          (s.acc + exactInc E v s0 a (trial3D s i) s.acc) -
        stateVec E v a (exactElastic E v s0 a (trial3D t j) t.acc)
          (t.acc + exactInc E v s0 a (trial3D t j) t.acc))‖ ≤ vmSlack E v s0 a s + vmSlack E v s0 a t := by
      rw [sub_sub_sub_comm]
      exact (norm_sub_le _ _).trans (add_le_add e1 e2)
    have := firm_work (exact_monotone (e := trial3D s i) (f := trial3D t j) hA ha hs h1 h2) hq
      (trial_diff s t i j)
    rw [stress_work hA ha (vmUpdate_stress hu) (vmUpdate_stress hv) hi hj] at this
    rw [stateDistance_eq hA ha, stateDistance_eq hA ha, energyNorm_eq hA ha]
    exact this

/-- Distance from the exact return in one step of the Drucker-Prager model with linear cohesion hardening. -/
def Spec.dpSlack {p : PType} (m : DPParams) (c0 a : ℝ) (s : DPState p) : ℝ :=
  1e-6 * (c0 + a * s.acc) / √(bulk m.E m.v * m.etay ^ 2 + m.xi ^ 2 * a) + 1e-8 / √(shear m.E m.v)

theorem dpUpdate_stress {p : PType} {m : DPParams} (hA : Admissible m.E m.v) {law : HardLaw} {inc : T2 p.dim}
    {old new : DPState p} {T : Option (Fin p.len → Fin p.len → ℝ)}
    (hu : dpUpdate p m law inc old = (.good new, T)) :
    stress3D new.toVMState = hooke6 (lame m.E m.v) (shear m.E m.v) (elastic3D new.toVMState) := by
  cases hp : new.isPlast with
  | false => exact ((C36_elastic_step hu).2 hp).2.2.2
  | true =>
    cases hap : new.isApex with
    | false => exact (C36_cone hA hu hp hap).2.2.1
    | true => exact (C36_apex hA hu hap).2.2.2.2.1

/-- **C159.** So does the Drucker-Prager model with associated flow and linear cohesion hardening. -/
theorem C159_drucker_prager {p : PType} {m : DPParams} (hm : Frictional m) (hf : m.etaf = m.etay) {c0 a : ℝ}
    (ha : 0 ≤ a) (hc : 1e-8 ≤ c0) :
    Contractive (libraryMaterial p (dpGood p m (linearHardening c0 a)) fun s => s.stress) p.dim (kelvinOrder p)
      (fun s => 0 ≤ s.acc) (fun s t => stateDistance m.E m.v a s.toVMState t.toVMState)
      (fun x => energyNorm m.E m.v (increment3D p x)) (dpSlack m c0 a) := by
  have hA := hm.elastic
  have hc0 : 0 ≤ c0 := le_trans (by norm_num) hc
  have hstep : ∀ {inc : T2 p.dim} {s new : DPState p}, dpGood p m (linearHardening c0 a) inc s = some new →
      ∃ T, dpUpdate p m (linearHardening c0 a) inc s = (.good new, T) := by
    intro inc s new h
    unfold dpGood at h
    cases hu : dpUpdate p m (linearHardening c0 a) inc s with
    | mk st T =>
      rw [hu] at h
      cases st with
      | nan sn => cases h
      | good s =>
        cases h
        exact ⟨T, rfl⟩
  have htol : ∀ x : ℝ, 0 ≤ x → cohesionTol (c0 + a * x) = 1e-6 * (c0 + a * x) := fun x hx =>
    cohesionTol_large (by linarith [mul_nonneg ha hx])
  have hnear : ∀ {inc : T2 p.dim} {s new : DPState p} {T : Option (Fin p.len → Fin p.len → ℝ)}, 0 ≤ s.acc →
      dpUpdate p m (linearHardening c0 a) inc s = (.good new, T) →
      ∃ f y, IsNearest m c0 a (trial3D s.toVMState inc) s.acc f y ∧
        ‖stateVec m.E m.v a (elastic3D new.toVMState) new.acc - stateVec m.E m.v a f y‖ ≤ dpSlack m c0 a s := by
    intro inc s new T hx h
    have := nearest_of_step hm hf ha hx h
    rw [htol _ hx] at this
    exact this
  refine library_contractive (fun s t => stateDistance_nonneg _ _ a _ _)
    (fun s => stateDistance_self hA ha _) (fun x => Real.sqrt_nonneg _) ?_ ?_ ?_ ?_
  · intro s h
    exact add_nonneg (div_nonneg (mul_nonneg (by norm_num) (add_nonneg hc0 (mul_nonneg ha h)))
      (Real.sqrt_nonneg _)) (div_nonneg (by norm_num) (Real.sqrt_nonneg _))
  · intro inc s new _ h hst
    obtain ⟨T, hu⟩ := hstep hst
    have hle := dp_linear_acc hm ha h hu
    refine ⟨le_trans h hle, add_le_add_left (div_le_div_of_nonneg_right (mul_le_mul_of_nonneg_left ?_
      (by norm_num)) (Real.sqrt_nonneg _)) _⟩
    linarith [mul_le_mul_of_nonneg_left hle ha]
  · intro i j s t s' t' _ _ h1 h2 hu hv
    obtain ⟨T, hu⟩ := hstep hu
    obtain ⟨T', hv⟩ := hstep hv
    have := C143_step_drucker_prager hm hf ha h1 h2 hu hv
    rw [htol _ h1, htol _ h2, add_div] at this
    unfold dpSlack
    linarith
  · intro i j s t s' t' hi hj h1 h2 hu hv
    obtain ⟨T, hu⟩ := hstep hu
    obtain ⟨T', hv⟩ := hstep hv
    obtain ⟨f, y, n1, e1⟩ := hnear h1 hu
    obtain ⟨g, z, n2, e2⟩ := hnear h2 hv
    have hq : ‖(stateVec m.E m.v a (elastic3D s'.toVMState) s'.acc -
        stateVec m.E m.v a (elastic3D t'.toVMState) t'.acc) -
        (stateVec m.E m.v a f y - stateVec m.E m.v a g z)‖ ≤ dpSlack m c0 a s + dpSlack m c0 a t := by
      rw [sub_sub_sub_comm]
      exact (norm_sub_le _ _).trans (add_le_add e1 e2)
    have := firm_work (nearest_monotone n1 n2) hq (trial_diff s.toVMState t.toVMState i j)
    rw [stress_work hA ha (dpUpdate_stress hA hu) (dpUpdate_stress hA hv) hi hj] at this
    rw [stateDistance_eq hA ha, stateDistance_eq hA ha, energyNorm_eq hA ha]
    exact this

theorem hooke_increment (p : PType) (lam G : ℝ) {x y : T2 p.dim} (hx : IsSymP p x) (hy : IsSymP p y) :
    inner6 (hooke6 lam G (increment3D p x)) (increment3D p y) =
      ∑ i, ∑ j, inPlane p (hooke lam G (embed p x)) i j * y i j := by
  have hq : (√2 : ℝ) * √2 = 2 := Real.mul_self_sqrt (by norm_num)
  rw [hooke_density]
  cases p with
  | plane =>
    have h10 := hx 1 0
    have k10 := hy 1 0
    simp [inner6, hooke6, tr6, one6, increment3D, to3D, mf, Fin.sum_univ_six, Fin.sum_univ_two, h10, k10]
    linear_combination (2 * G * x 0 1 * y 0 1) * hq
  | solid =>
    have h10 := hx 1 0
    have h20 := hx 2 0
    have h21 := hx 2 1
    have k10 := hy 1 0
    have k20 := hy 2 0
    have k21 := hy 2 1
    simp [inner6, hooke6, tr6, one6, increment3D, to3D, mf, Fin.sum_univ_six, Fin.sum_univ_three, h10, k10, h20,
      k20, h21, k21, kel6, pos6, ci, cj, kf]
    linear_combination (2 * G * (x 0 1 * y 0 1 + x 0 2 * y 0 2 + x 1 2 * y 1 2)) * hq

theorem increment3D_add (p : PType) (x y : T2 p.dim) :
    increment3D p (x + y) = fun k => increment3D p x k + increment3D p y k := by
  funext k
  cases p
  · fin_cases k <;> simp [increment3D, to3D, mf] <;> ring
  · simp [increment3D, to3D, mf, kel6]
    ring

/-- Distance of two states of the elastic model: energy norm of the difference of the strains. -/
def Spec.elasticDistance {p : PType} (E v : ℝ) (s t : ElasticState p) : ℝ :=
  energyNorm E v (increment3D p (unmf p s.eStrain - unmf p t.eStrain))

/-- **C159.** The isotropic elastic model does so without error. -/
theorem C159_elastic {p : PType} {d : Props} {E v : ℝ} (hE : d .E = some E) (hv : d .v = some v)
    (hA : Admissible E v) :
    Contractive (elasticMaterial p d) p.dim (kelvinOrder p)
      (fun s => ∃ t, IsSymP p t ∧ s = elasticStateOf p (kel66 (isoTensor (lamOf E v) (miuOf E v))) t)
      (elasticDistance E v) (fun x => energyNorm E v (increment3D p x)) (fun _ => 0) := by
  have hstrain : ∀ t : T2 p.dim, IsSymP p t →
      unmf p (elasticStateOf p (kel66 (isoTensor (lamOf E v) (miuOf E v))) t).eStrain = t := fun t ht => unmf_mf p ht
  have hadd : ∀ {x y : T2 p.dim}, IsSymP p x → IsSymP p y → IsSymP p (x + y) := fun hx hy i j => by
    simp only [Pi.add_apply]
    rw [hx i j, hy i j]
  have hsub : ∀ {x y : T2 p.dim}, IsSymP p x → IsSymP p y → IsSymP p (x - y) := fun hx hy i j => by
    simp only [Pi.sub_apply]
    rw [hx i j, hy i j]
  have hdist : ∀ t₁ t₂ : T2 p.dim, IsSymP p t₁ → IsSymP p t₂ → elasticDistance E v
      (elasticStateOf p (kel66 (isoTensor (lamOf E v) (miuOf E v))) t₁)
      (elasticStateOf p (kel66 (isoTensor (lamOf E v) (miuOf E v))) t₂) =
      ‖stateVec E v 0 (increment3D p (t₁ - t₂)) 0‖ := by
    intro t₁ t₂ h₁ h₂
    rw [elasticDistance, hstrain _ h₁, hstrain _ h₂, energyNorm_eq hA le_rfl]
  have hvec : ∀ x y : T2 p.dim, stateVec E v 0 (increment3D p (x + y)) 0 =
      stateVec E v 0 (increment3D p x) 0 + stateVec E v 0 (increment3D p y) 0 := by
    intro x y
    rw [← stateVec_add, increment3D_add, add_zero]
  refine library_contractive (fun s t => Real.sqrt_nonneg _) (fun s => ?_) (fun x => Real.sqrt_nonneg _)
    (fun _ _ => le_rfl) ?_ ?_ ?_
  · have h0 : increment3D p (unmf p s.eStrain - unmf p s.eStrain) = fun _ => 0 := by
      rw [sub_self]
      funext k
      cases p
      · fin_cases k <;> simp [increment3D, to3D, mf]
      · simp [increment3D, to3D, mf, kel6]
    rw [elasticDistance, h0]
    simp [energyNorm, inner6]
  · rintro inc s new hi ⟨t, ht, rfl⟩ hst
    rw [elasticGood_step hE hv] at hst
    cases hst
    exact ⟨⟨t + inc, hadd ht hi, rfl⟩, le_rfl⟩
  · rintro i j s t s' t' hi hj ⟨x, hx, rfl⟩ ⟨y, hy, rfl⟩ hu hv'
    rw [elasticGood_step hE hv] at hu hv'
    cases hu
    cases hv'
    rw [hdist _ _ hx hy, hdist _ _ (hadd hx hi) (hadd hy hj), energyNorm_eq hA le_rfl,
      show x + i - (y + j) = (x - y) + (i - j) by abel, hvec, add_zero, add_zero]
    exact norm_add_le _ _
  · rintro i j s t s' t' hi hj ⟨x, hx, rfl⟩ ⟨y, hy, rfl⟩ hu hv'
    rw [elasticGood_step hE hv] at hu hv'
    cases hu
    cases hv'
    rw [hdist _ _ hx hy, hdist _ _ (hadd hx hi) (hadd hy hj), elasticStress p E v (hadd hx hi),
      elasticStress p E v (hadd hy hj)]
    have hw : ∑ k, ∑ l, (inPlane p (hooke (lame E v) (shear E v) (embed p (x + i))) k l -
        inPlane p (hooke (lame E v) (shear E v) (embed p (y + j))) k l) * (i k l - j k l) =
        inner ℝ (stateVec E v 0 (increment3D p (x + i - (y + j))) 0) (stateVec E v 0 (increment3D p (i - j)) 0) := by
      have e1 : ∀ z : T2 p.dim, IsSymP p z → ∑ k, ∑ l,
          inPlane p (hooke (lame E v) (shear E v) (embed p z)) k l * (i k l - j k l) =
          inner ℝ (stateVec E v 0 (increment3D p z) 0) (stateVec E v 0 (increment3D p (i - j)) 0) := by
        intro z hz
        rw [stateVec_inner hA le_rfl, hooke_increment p _ _ hz (hsub hi hj)]
        simp
      have e2 : stateVec E v 0 (increment3D p (x + i - (y + j))) 0 =
          stateVec E v 0 (increment3D p (x + i)) 0 - stateVec E v 0 (increment3D p (y + j)) 0 := by
        rw [eq_sub_iff_add_eq, ← hvec, sub_add_cancel]
      simp only [sub_mul, Finset.sum_sub_distrib]
      rw [e1 _ (hadd hx hi), e1 _ (hadd hy hj), e2, inner_sub_left]
    rw [hw, show x + i - (y + j) = (x - y) + (i - j) by abel, hvec, inner_add_left, real_inner_self_eq_norm_sq,
      norm_add_sq_real]
    have := sq_nonneg ‖stateVec E v 0 (increment3D p (i - j)) 0‖
    linarith

/-! ## Specimens -/

/-- Work of the difference of the assembled forces in two runs on the difference of the increments of the nodal
displacements. -/
def Spec.specimenPairWork (N n : ℕ) (outs₁ outs₂ : List Arr) (hist₁ hist₂ : List (ℕ → ℕ → ℝ)) : ℝ :=
  ∑ t ∈ Finset.range hist₁.length, ∑ l ∈ Finset.range N, ∑ i ∈ Finset.range n,
    ((outs₁.getD t ⟨0, fun _ => 0⟩).val (l * n + i) - (outs₂.getD t ⟨0, fun _ => 0⟩).val (l * n + i)) *
      ((hist₁.getD t fun _ _ => 0) (l + 1) i - (hist₂.getD t fun _ _ => 0) (l + 1) i)

theorem pairWork_range (m n : ℕ) {fs₁ fs₂ us₁ us₂ : List Tensor} (h1 : fs₁.length = us₁.length)
    (h2 : fs₂.length = us₂.length) (h : us₁.length = us₂.length) (z : Tensor) :
    elementPairWork m n fs₁ fs₂ us₁ us₂ = ∑ t ∈ Finset.range us₁.length,
      (nodalDot m n (fs₁.getD t z) (diffField m n (us₁.getD t z) (us₂.getD t z)) -
        nodalDot m n (fs₂.getD t z) (diffField m n (us₁.getD t z) (us₂.getD t z))) := by
  induction us₁ generalizing us₂ fs₁ fs₂ with
  | nil =>
    obtain rfl := List.length_eq_zero_iff.1 h1
    simp [elementPairWork]
  | cons u us ih =>
    cases us₂ with
    | nil => simp at h
    | cons u₂ us₂ =>
      cases fs₁ with
      | nil => simp at h1
      | cons f₁ fs₁ =>
        cases fs₂ with
        | nil => simp at h2
        | cons f₂ fs₂ =>
          rw [elementPairWork, ih (by simpa using h1) (by simpa using h2) (by simpa using h), nodalDot_diff,
            List.length_cons, Finset.sum_range_succ', add_comm]
          simp

theorem getD_map_field (m : MeshTopology) (e : ElementType) (k : ℕ) {hist : List (ℕ → ℕ → ℝ)} {t : ℕ}
    (ht : t < hist.length) (z : Tensor) :
    (hist.map (elementField m e k)).getD t z = elementField m e k (hist.getD t fun _ _ => 0) := by
  rw [List.getD_eq_getElem?_getD, List.getD_eq_getElem?_getD, List.getElem?_map, List.getElem?_eq_getElem ht]
  rfl

theorem specimen_pair_work {σ : ℕ → Type} {pt n : ℕ} {mat : ∀ k, Material (σ k)} {m : MeshTopology}
    {xs : ℕ → ℕ → ℝ} {typ : ℕ → ElementType} {rule : ∀ k, GaussRule (typ k).dim}
    {hist₁ hist₂ : List (ℕ → ℕ → ℝ)} {old₁ old₂ st₁ st₂ : ∀ k, GpDict (σ k)} {fs₁ fs₂ : ℕ → List Tensor}
    {outs₁ outs₂ : List Arr} (h₁ : SpecimenHistory pt n mat m xs typ rule hist₁ old₁ st₁ fs₁ outs₁)
    (h₂ : SpecimenHistory pt n mat m xs typ rule hist₂ old₂ st₂ fs₂ outs₂) (hl : hist₁.length = hist₂.length) :
    specimenPairWork m.nNode n outs₁ outs₂ hist₁ hist₂ = ((List.range m.conn.length).map fun k : ℕ =>
      elementPairWork (typ (k + 1)).nNode (typ (k + 1)).dim (fs₁ (k + 1)) (fs₂ (k + 1))
        (hist₁.map (elementField m (typ (k + 1)) (k + 1))) (hist₂.map (elementField m (typ (k + 1)) (k + 1)))).sum := by
  have hIs : ∀ k ∈ List.range m.conn.length, IsElement m (k + 1) := fun k hk =>
    ⟨by omega, by have := List.mem_range.1 hk; omega⟩
  have hout : ∀ (fs : ℕ → List Tensor) (outs : List Arr) (hist : List (ℕ → ℕ → ℝ)) old st,
      SpecimenHistory pt n mat m xs typ rule hist old st fs outs → ∀ t < hist.length, ∀ U : ℕ → ℕ → ℝ,
      ∑ l ∈ Finset.range m.nNode, ∑ i ∈ Finset.range n,
        (outs.getD t ⟨0, fun _ => 0⟩).val (l * n + i) * U (l + 1) i =
      ((List.range m.conn.length).map fun k : ℕ => nodalDot (typ (k + 1)).nNode (typ (k + 1)).dim
        ((fs (k + 1)).getD t (Tensor.zeros [])) (elementField m (typ (k + 1)) (k + 1) U)).sum := by
    intro fs outs hist old st h t ht U
    have ht' : t < outs.length := by rw [h.outs_length]; exact ht
    rw [List.getD_eq_getElem?_getD (l := outs), List.getElem?_eq_getElem ht', Option.getD_some]
    exact mesh_work (f := fun k => (fs k).getD t (Tensor.zeros [])) h.mesh h.nonempty h.dim h.nodes
      (h.assembled t ht') U
  have hstep : ∀ t ∈ Finset.range hist₁.length, ∑ l ∈ Finset.range m.nNode, ∑ i ∈ Finset.range n,
      ((outs₁.getD t ⟨0, fun _ => 0⟩).val (l * n + i) - (outs₂.getD t ⟨0, fun _ => 0⟩).val (l * n + i)) *
        ((hist₁.getD t fun _ _ => 0) (l + 1) i - (hist₂.getD t fun _ _ => 0) (l + 1) i) =
      ((List.range m.conn.length).map fun k : ℕ => nodalDot (typ (k + 1)).nNode (typ (k + 1)).dim
        ((fs₁ (k + 1)).getD t (Tensor.zeros [])) (elementField m (typ (k + 1)) (k + 1)
          fun l i => (hist₁.getD t fun _ _ => 0) l i - (hist₂.getD t fun _ _ => 0) l i)).sum -
      ((List.range m.conn.length).map fun k : ℕ => nodalDot (typ (k + 1)).nNode (typ (k + 1)).dim
        ((fs₂ (k + 1)).getD t (Tensor.zeros [])) (elementField m (typ (k + 1)) (k + 1)
          fun l i => (hist₁.getD t fun _ _ => 0) l i - (hist₂.getD t fun _ _ => 0) l i)).sum := by
    intro t ht
    have ht := Finset.mem_range.1 ht
    rw [← hout fs₁ outs₁ hist₁ old₁ st₁ h₁ t ht, ← hout fs₂ outs₂ hist₂ old₂ st₂ h₂ t (hl ▸ ht),
      ← Finset.sum_sub_distrib]
    refine Finset.sum_congr rfl fun l _ => ?_
    rw [← Finset.sum_sub_distrib]
    exact Finset.sum_congr rfl fun i _ => by ring
  rw [specimenPairWork, Finset.sum_congr rfl hstep]
  have hK : ∀ K : List ℕ, (∀ k ∈ K, IsElement m (k + 1)) →
      ∑ t ∈ Finset.range hist₁.length, ((K.map fun k : ℕ => nodalDot (typ (k + 1)).nNode (typ (k + 1)).dim
        ((fs₁ (k + 1)).getD t (Tensor.zeros [])) (elementField m (typ (k + 1)) (k + 1)
          fun l i => (hist₁.getD t fun _ _ => 0) l i - (hist₂.getD t fun _ _ => 0) l i)).sum -
      (K.map fun k : ℕ => nodalDot (typ (k + 1)).nNode (typ (k + 1)).dim
        ((fs₂ (k + 1)).getD t (Tensor.zeros [])) (elementField m (typ (k + 1)) (k + 1)
          fun l i => (hist₁.getD t fun _ _ => 0) l i - (hist₂.getD t fun _ _ => 0) l i)).sum) =
      (K.map fun k : ℕ => elementPairWork (typ (k + 1)).nNode (typ (k + 1)).dim (fs₁ (k + 1)) (fs₂ (k + 1))
        (hist₁.map (elementField m (typ (k + 1)) (k + 1)))
        (hist₂.map (elementField m (typ (k + 1)) (k + 1)))).sum := by
    intro K
    induction K with
    | nil => simp
    | cons k K ih =>
      intro hKs
      simp only [List.map_cons, List.sum_cons]
      rw [← ih fun k' hk' => hKs k' (List.mem_cons_of_mem _ hk'),
        pairWork_range _ _ (forces_length (h₁.forces _ (hKs k List.mem_cons_self)))
          (forces_length (h₂.forces _ (hKs k List.mem_cons_self))) (by simpa using hl) (Tensor.zeros []),
        List.length_map, ← Finset.sum_add_distrib]
      refine Finset.sum_congr rfl fun t ht => ?_
      have ht := Finset.mem_range.1 ht
      rw [getD_map_field _ _ _ ht, getD_map_field _ _ _ (hl ▸ ht)]
      have hd : diffField (typ (k + 1)).nNode (typ (k + 1)).dim
          (elementField m (typ (k + 1)) (k + 1) (hist₁.getD t fun _ _ => 0))
          (elementField m (typ (k + 1)) (k + 1) (hist₂.getD t fun _ _ => 0)) =
          elementField m (typ (k + 1)) (k + 1)
            fun l i => (hist₁.getD t fun _ _ => 0) l i - (hist₂.getD t fun _ _ => 0) l i := rfl
      rw [hd]
      ring
  exact hK _ hIs

/-- **C159.** Two histories of a specimen from the same states: half the squared distance of the states at the
end is no more than the work of the differences of the assembled forces on the differences of the increments of
the nodal displacements, up to the errors of the steps. -/
theorem C159_specimen {σ : ℕ → Type} {pt n : ℕ} {co cn : List Comp}
    (hp : getProblemTypeParameters pt = .ok (n, co, cn)) {mat : ∀ k, Material (σ k)} {m : MeshTopology}
    {xs : ℕ → ℕ → ℝ} {typ : ℕ → ElementType} {rule : ∀ k, GaussRule (typ k).dim}
    {hist₁ hist₂ : List (ℕ → ℕ → ℝ)} {old st₁ st₂ : ∀ k, GpDict (σ k)} {fs₁ fs₂ : ℕ → List Tensor}
    {outs₁ outs₂ : List Arr} (h₁ : SpecimenHistory pt n mat m xs typ rule hist₁ old st₁ fs₁ outs₁)
    (h₂ : SpecimenHistory pt n mat m xs typ rule hist₂ old st₂ fs₂ outs₂) (hl : hist₁.length = hist₂.length)
    {ng : ℕ → ℕ} (hr : ∀ k, IsElement m k → (typ k).init (ng k) = .ok (rule k))
    (hJ : ∀ k, IsElement m k → ∀ c w, (c, w) ∈ rule k → 0 < ((typ k).jacobian
      (fun a i => xs ((Spec.nodes m k).getD a 0) i) c).det)
    {inv : ∀ k, σ k → Prop} {dist : ∀ k, σ k → σ k → ℝ} {norm : ℕ → T2 n → ℝ} {slack : ∀ k, σ k → ℝ}
    (hmat : ∀ k, IsElement m k → Contractive (mat k) n co (inv k) (dist k) (norm k) (slack k))
    (hold : ∀ k, IsElement m k → ∀ g < (rule k).length, ∃ s, old k (g + 1) = some s ∧ inv k s) :
    ((List.range m.conn.length).map fun k : ℕ => elementGap (dist (k + 1)) (typ (k + 1)) (rule (k + 1))
      (fun a i => xs ((Spec.nodes m (k + 1)).getD a 0) i) (st₁ (k + 1)) (st₂ (k + 1))).sum ≤
    specimenPairWork m.nNode n outs₁ outs₂ hist₁ hist₂ +
    ((List.range m.conn.length).map fun k : ℕ => elementError (dist (k + 1)) (norm (k + 1)) (slack (k + 1))
      (typ (k + 1)) (rule (k + 1)) (fun a i => xs ((Spec.nodes m (k + 1)).getD a 0) i)
      (hist₁.map (elementField m (typ (k + 1)) (k + 1))) (hist₂.map (elementField m (typ (k + 1)) (k + 1)))
      (old (k + 1)) (old (k + 1)) (st₁ (k + 1)) (st₂ (k + 1))).sum := by
  rw [specimen_pair_work h₁ h₂ hl, ← List.sum_map_add]
  refine List.sum_le_sum fun k hk => ?_
  have hk : IsElement m (k + 1) := ⟨by omega, by have := List.mem_range.1 hk; omega⟩
  have hw : ∀ c w, (c, w) ∈ rule (k + 1) → 0 ≤ w * ((typ (k + 1)).jacobian
      (fun a i => xs ((Spec.nodes m (k + 1)).getD a 0) i) c).det := fun c w hcw =>
    (mul_pos ((init_weights (hr _ hk)).2 _ hcw) (hJ _ hk c w hcw)).le
  have hfield : ∀ hist : List (ℕ → ℕ → ℝ), ∀ u ∈ hist.map (elementField m (typ (k + 1)) (k + 1)),
      u.shape = [(typ (k + 1)).nNode, (typ (k + 1)).dim] := by
    intro hist u hu
    obtain ⟨x, -, rfl⟩ := List.mem_map.1 hu
    rfl
  have := C159_element (h₁.dim _ hk) hp (hmat _ hk) hw (by simpa using hl) (hfield hist₁) (hfield hist₂)
    (hold _ hk) (hold _ hk) (h₁.forces _ hk) (h₂.forces _ hk)
  have hz : elementGap (dist (k + 1)) (typ (k + 1)) (rule (k + 1))
      (fun a i => xs ((Spec.nodes m (k + 1)).getD a 0) i) (old (k + 1)) (old (k + 1)) = 0 := by
    refine Finset.sum_eq_zero fun g _ => ?_
    obtain ⟨s, hs, -⟩ := hold _ hk g g.2
    rw [hs]
    simp [onPair, (hmat _ hk).dist_self]
  rw [hz, sub_zero] at this
  exact this

/-- **C159.** So when, in every increment, every component of every node has the same displacement in both
histories or is loaded by the same force, the states at the end agree, up to the errors of the steps: the
prescribed displacements and the applied forces determine the response. -/
theorem C159_same_loads {σ : ℕ → Type} {pt n : ℕ} {co cn : List Comp}
    (hp : getProblemTypeParameters pt = .ok (n, co, cn)) {mat : ∀ k, Material (σ k)} {m : MeshTopology}
    {xs : ℕ → ℕ → ℝ} {typ : ℕ → ElementType} {rule : ∀ k, GaussRule (typ k).dim}
    {hist₁ hist₂ : List (ℕ → ℕ → ℝ)} {old st₁ st₂ : ∀ k, GpDict (σ k)} {fs₁ fs₂ : ℕ → List Tensor}
    {outs₁ outs₂ : List Arr} (h₁ : SpecimenHistory pt n mat m xs typ rule hist₁ old st₁ fs₁ outs₁)
    (h₂ : SpecimenHistory pt n mat m xs typ rule hist₂ old st₂ fs₂ outs₂) (hl : hist₁.length = hist₂.length)
    {ng : ℕ → ℕ} (hr : ∀ k, IsElement m k → (typ k).init (ng k) = .ok (rule k))
    (hJ : ∀ k, IsElement m k → ∀ c w, (c, w) ∈ rule k → 0 < ((typ k).jacobian
      (fun a i => xs ((Spec.nodes m k).getD a 0) i) c).det)
    {inv : ∀ k, σ k → Prop} {dist : ∀ k, σ k → σ k → ℝ} {norm : ℕ → T2 n → ℝ} {slack : ∀ k, σ k → ℝ}
    (hmat : ∀ k, IsElement m k → Contractive (mat k) n co (inv k) (dist k) (norm k) (slack k))
    (hold : ∀ k, IsElement m k → ∀ g < (rule k).length, ∃ s, old k (g + 1) = some s ∧ inv k s)
    (hload : ∀ t < hist₁.length, ∀ l < m.nNode, ∀ i < n,
      (hist₁.getD t fun _ _ => 0) (l + 1) i = (hist₂.getD t fun _ _ => 0) (l + 1) i ∨
      (outs₁.getD t ⟨0, fun _ => 0⟩).val (l * n + i) = (outs₂.getD t ⟨0, fun _ => 0⟩).val (l * n + i)) :
    ((List.range m.conn.length).map fun k : ℕ => elementGap (dist (k + 1)) (typ (k + 1)) (rule (k + 1))
      (fun a i => xs ((Spec.nodes m (k + 1)).getD a 0) i) (st₁ (k + 1)) (st₂ (k + 1))).sum ≤
    ((List.range m.conn.length).map fun k : ℕ => elementError (dist (k + 1)) (norm (k + 1)) (slack (k + 1))
      (typ (k + 1)) (rule (k + 1)) (fun a i => xs ((Spec.nodes m (k + 1)).getD a 0) i)
      (hist₁.map (elementField m (typ (k + 1)) (k + 1))) (hist₂.map (elementField m (typ (k + 1)) (k + 1)))
      (old (k + 1)) (old (k + 1)) (st₁ (k + 1)) (st₂ (k + 1))).sum := by
  have h := C159_specimen hp h₁ h₂ hl hr hJ hmat hold
  have hz : specimenPairWork m.nNode n outs₁ outs₂ hist₁ hist₂ = 0 := by
    refine Finset.sum_eq_zero fun t ht => Finset.sum_eq_zero fun l hl' => Finset.sum_eq_zero fun i hi => ?_
    rcases hload t (Finset.mem_range.1 ht) l (Finset.mem_range.1 hl') i (Finset.mem_range.1 hi) with h' | h'
    · rw [h', sub_self, mul_zero]
    · rw [h', sub_self, zero_mul]
  rw [hz, zero_add] at h
  exact h

/-- **C159.** For elastic specimens there is no error: the states at all Gauss points are the same. -/
theorem C159_elastic_specimen {p : PType} {m : MeshTopology} {xs : ℕ → ℕ → ℝ} {typ : ℕ → ElementType}
    {rule : ∀ k, GaussRule (typ k).dim} {d : ℕ → Props} {E v : ℕ → ℝ}
    (hE : ∀ k, IsElement m k → d k .E = some (E k)) (hv : ∀ k, IsElement m k → d k .v = some (v k))
    (hA : ∀ k, IsElement m k → Admissible (E k) (v k))
    {hist₁ hist₂ : List (ℕ → ℕ → ℝ)} {st₁ st₂ : ∀ _ : ℕ, GpDict (ElasticState p)} {fs₁ fs₂ : ℕ → List Tensor}
    {outs₁ outs₂ : List Arr}
    (h₁ : SpecimenHistory (typeNumber p) p.dim (fun k => elasticMaterial p (d k)) m xs typ rule hist₁
      (fun _ _ => some (elasticInitState p)) st₁ fs₁ outs₁)
    (h₂ : SpecimenHistory (typeNumber p) p.dim (fun k => elasticMaterial p (d k)) m xs typ rule hist₂
      (fun _ _ => some (elasticInitState p)) st₂ fs₂ outs₂) (hl : hist₁.length = hist₂.length)
    {ng : ℕ → ℕ} (hr : ∀ k, IsElement m k → (typ k).init (ng k) = .ok (rule k))
    (hJ : ∀ k, IsElement m k → ∀ c w, (c, w) ∈ rule k → 0 < ((typ k).jacobian
      (fun a i => xs ((Spec.nodes m k).getD a 0) i) c).det)
    (hload : ∀ t < hist₁.length, ∀ l < m.nNode, ∀ i < p.dim,
      (hist₁.getD t fun _ _ => 0) (l + 1) i = (hist₂.getD t fun _ _ => 0) (l + 1) i ∨
      (outs₁.getD t ⟨0, fun _ => 0⟩).val (l * p.dim + i) = (outs₂.getD t ⟨0, fun _ => 0⟩).val (l * p.dim + i)) :
    ∀ k, IsElement m k → ∀ g < (rule k).length, st₁ k (g + 1) = st₂ k (g + 1) := by
  obtain ⟨cn, hp⟩ := typeNumber_ok p
  have hinit : ∀ k, IsElement m k → ∃ t, IsSymP p t ∧ elasticInitState p =
      elasticStateOf p (kel66 (isoTensor (lamOf (E k) (v k)) (miuOf (E k) (v k)))) t := fun k _ =>
    ⟨0, fun _ _ => rfl, elastic_init _⟩
  have hmat : ∀ k, IsElement m k → Contractive (elasticMaterial p (d k)) p.dim (kelvinOrder p)
      (fun s => ∃ t, IsSymP p t ∧ s =
        elasticStateOf p (kel66 (isoTensor (lamOf (E k) (v k)) (miuOf (E k) (v k)))) t)
      (elasticDistance (E k) (v k)) (fun x => energyNorm (E k) (v k) (increment3D p x)) (fun _ => 0) :=
    fun k hk => C159_elastic (hE k hk) (hv k hk) (hA k hk)
  have hsum := C159_same_loads hp h₁ h₂ hl hr hJ hmat
    (fun k hk g _ => ⟨elasticInitState p, rfl, hinit k hk⟩) hload
  have herr : ((List.range m.conn.length).map fun k : ℕ => elementError (elasticDistance (E (k + 1)) (v (k + 1)))
      (fun x : T2 p.dim => energyNorm (E (k + 1)) (v (k + 1)) (increment3D p x)) (fun _ => 0)
      (typ (k + 1)) (rule (k + 1)) (fun a i => xs ((Spec.nodes m (k + 1)).getD a 0) i)
      (hist₁.map (elementField m (typ (k + 1)) (k + 1))) (hist₂.map (elementField m (typ (k + 1)) (k + 1)))
      (fun _ => some (elasticInitState p)) (fun _ => some (elasticInitState p)) (st₁ (k + 1))
      (st₂ (k + 1))).sum = 0 := by
    refine List.sum_eq_zero fun x hx => ?_
    obtain ⟨k, -, rfl⟩ := List.mem_map.1 hx
    refine Finset.sum_eq_zero fun g _ => ?_
    have : onPair (fun _ _ : ElasticState p => (0 : ℝ) + 0) (st₁ (k + 1) (g + 1)) (st₂ (k + 1) (g + 1)) = 0 := by
      cases st₁ (k + 1) (g + 1) <;> cases st₂ (k + 1) (g + 1) <;> simp [onPair]
    rw [this]
    simp [stepsError]
  rw [herr] at hsum
  have hwp : ∀ k, IsElement m k → ∀ c w, (c, w) ∈ rule k → 0 < w * ((typ k).jacobian
      (fun a i => xs ((Spec.nodes m k).getD a 0) i) c).det := fun k hk c w hcw =>
    mul_pos ((init_weights (hr _ hk)).2 _ hcw) (hJ _ hk c w hcw)
  have hterm : ∀ k, IsElement m k → ∀ g : Fin (rule k).length, 0 ≤ (rule k)[g].2 *
      ((typ k).jacobian (fun a i => xs ((Spec.nodes m k).getD a 0) i) (rule k)[g].1).det *
      (1 / 2 * onPair (elasticDistance (E k) (v k)) (st₁ k (g + 1)) (st₂ k (g + 1)) ^ 2) := fun k hk g =>
    mul_nonneg (hwp k hk _ _ (List.getElem_mem _)).le (by positivity)
  have hgap : ∀ k, IsElement m k → 0 ≤ elementGap (elasticDistance (E k) (v k)) (typ k) (rule k)
      (fun a i => xs ((Spec.nodes m k).getD a 0) i) (st₁ k) (st₂ k) := fun k hk =>
    Finset.sum_nonneg fun g _ => hterm k hk g
  intro k hk g hg
  obtain ⟨hk1, hk2⟩ := hk
  obtain ⟨q, rfl⟩ : ∃ q, k = q + 1 := ⟨k - 1, by omega⟩
  have hzero : elementGap (elasticDistance (E (q + 1)) (v (q + 1))) (typ (q + 1)) (rule (q + 1))
      (fun a i => xs ((Spec.nodes m (q + 1)).getD a 0) i) (st₁ (q + 1)) (st₂ (q + 1)) = 0 := by
    refine le_antisymm (le_trans (List.single_le_sum ?_ _ (List.mem_map.2 ⟨q, List.mem_range.2 (by omega), rfl⟩))
      hsum) (hgap _ ⟨hk1, hk2⟩)
    intro x hx
    obtain ⟨k', hk', rfl⟩ := List.mem_map.1 hx
    exact hgap _ ⟨by omega, by have := List.mem_range.1 hk'; omega⟩
  have hg0 := (Finset.sum_eq_zero_iff_of_nonneg fun g _ => hterm (q + 1) ⟨hk1, hk2⟩ g).1 hzero ⟨g, hg⟩
    (Finset.mem_univ _)
  have hne := (hwp (q + 1) ⟨hk1, hk2⟩ _ _ (List.getElem_mem hg)).ne'
  have hd0 : onPair (elasticDistance (E (q + 1)) (v (q + 1))) (st₁ (q + 1) (g + 1)) (st₂ (q + 1) (g + 1)) = 0 := by
    have h2 := (mul_eq_zero.1 hg0).resolve_left hne
    have h3 := (mul_eq_zero.1 h2).resolve_left (by norm_num)
    exact pow_eq_zero_iff (two_ne_zero) |>.1 h3
  have hfield : ∀ hist : List (ℕ → ℕ → ℝ), ∀ u ∈ hist.map (elementField m (typ (q + 1)) (q + 1)),
      u.shape = [(typ (q + 1)).nNode, (typ (q + 1)).dim] := by
    intro hist u hu
    obtain ⟨x, -, rfl⟩ := List.mem_map.1 hu
    rfl
  have hpas := C158_elastic (p := p) (hE _ ⟨hk1, hk2⟩) (hv _ ⟨hk1, hk2⟩) (hA _ ⟨hk1, hk2⟩).young
    (hA _ ⟨hk1, hk2⟩).lower (hA _ ⟨hk1, hk2⟩).upper
  have hwn : ∀ c w, (c, w) ∈ rule (q + 1) → 0 ≤ w * ((typ (q + 1)).jacobian
      (fun a i => xs ((Spec.nodes m (q + 1)).getD a 0) i) c).det := fun c w hcw =>
    (hwp _ ⟨hk1, hk2⟩ c w hcw).le
  have hin : ∀ g < (rule (q + 1)).length, ∀ s, some (elasticInitState p) = some s → ∃ t, IsSymP p t ∧ s =
      elasticStateOf p (kel66 (isoTensor (lamOf (E (q + 1)) (v (q + 1))) (miuOf (E (q + 1)) (v (q + 1))))) t := by
    intro g _ s hs
    cases hs
    exact hinit _ ⟨hk1, hk2⟩
  obtain ⟨-, i1, -⟩ := C158_element (h₁.dim _ ⟨hk1, hk2⟩) hp hpas hwn (hfield hist₁) hin (h₁.forces _ ⟨hk1, hk2⟩)
  obtain ⟨-, i2, -⟩ := C158_element (h₂.dim _ ⟨hk1, hk2⟩) hp hpas hwn (hfield hist₂) hin (h₂.forces _ ⟨hk1, hk2⟩)
  obtain ⟨P, hP, -⟩ := contractive_history (h₁.dim _ ⟨hk1, hk2⟩) hp (hmat _ ⟨hk1, hk2⟩) (by simpa using hl)
    (hfield hist₁) (hfield hist₂) (fun g hg => ⟨elasticInitState p, rfl, hinit _ ⟨hk1, hk2⟩⟩)
    (fun g hg => ⟨elasticInitState p, rfl, hinit _ ⟨hk1, hk2⟩⟩) (h₁.forces _ ⟨hk1, hk2⟩) (h₂.forces _ ⟨hk1, hk2⟩)
  obtain ⟨-, -, e₁, e₂, -, -, a1, a2, -⟩ := hP ⟨g, hg⟩
  obtain ⟨x, hx, rfl⟩ := i1 g hg e₁ a1
  obtain ⟨y, hy, rfl⟩ := i2 g hg e₂ a2
  simp only at a1 a2
  rw [a1, a2] at hd0 ⊢
  have hxy : IsSymP p (x - y) := fun i j => by
    simp only [Pi.sub_apply]
    rw [hx i j, hy i j]
  have hAk := hA _ ⟨hk1, hk2⟩
  have hsx : unmf p (elasticStateOf p (kel66 (isoTensor (lamOf (E (q + 1)) (v (q + 1)))
    (miuOf (E (q + 1)) (v (q + 1))))) x).eStrain = x := unmf_mf p hx
  have hsy : unmf p (elasticStateOf p (kel66 (isoTensor (lamOf (E (q + 1)) (v (q + 1)))
    (miuOf (E (q + 1)) (v (q + 1))))) y).eStrain = y := unmf_mf p hy
  have heq : x - y = 0 := by
    by_contra hne
    have hpos := density_pos p hAk.young hAk.lower hAk.upper _ hne
    rw [← hooke_increment p _ _ hxy hxy] at hpos
    simp only [onPair, elasticDistance, hsx, hsy, energyNorm] at hd0
    exact absurd hd0 (Real.sqrt_pos.2 hpos).ne'
  rw [sub_eq_zero.1 heq]

/-! ## A case with different displacements and the same loads -/

theorem quad4_deriv_sum (c : Fin 2 → ℝ) (k : Fin 2) : ∑ a : Fin 4, quad4LocalDeriv c a k = 0 := by
  fin_cases k <;> simp [quad4LocalDeriv, Fin.sum_univ_four] <;> ring

theorem strain_shift (m : MeshTopology) (e : ElementType) (X : Fin e.nNode → Fin e.dim → ℝ) (c : Fin e.dim → ℝ)
    (hs : ∀ k, ∑ a, e.localDeriv c a k = 0) (k : ℕ) (du : ℕ → ℕ → ℝ) (b : ℕ → ℝ) :
    strainAt e X c e.dim (elementField m e k fun l i => du l i + b i) =
      strainAt e X c e.dim (elementField m e k du) := by
  have hg : ∀ i, ∀ j : Fin e.dim,
      dispGrad e.nNode (derivTable e X c) (elementField m e k fun l i => du l i + b i) i j =
      dispGrad e.nNode (derivTable e X c) (elementField m e k du) i j := by
    intro i j
    have hz : ∑ a ∈ Finset.range e.nNode, b i * (derivTable e X c).val [a, j] = 0 := by
      rw [← Finset.mul_sum, Finset.sum_range]
      have : ∀ a : Fin e.nNode, (derivTable e X c).val [a, j] =
          ∑ k, (e.jacobian X c)⁻¹ j k * e.localDeriv c a k := by
        intro a
        simp [derivTable, Tensor.ofFin2]
      simp only [this]
      rw [Finset.sum_comm]
      simp only [← Finset.mul_sum, hs, mul_zero, Finset.sum_const_zero]
    simp only [dispGrad, elementField, List.getD_cons_zero, List.getD_cons_succ, add_mul,
      Finset.sum_add_distrib] at hz ⊢
    rw [hz, add_zero]
  funext i j
  simp only [strainAt]
  rw [hg i j, hg j i]

theorem elasticWork_strain_congr {p : PType} {E v : ℝ} {e : ElementType} {rule : GaussRule e.dim}
    {X : Fin e.nNode → Fin e.dim → ℝ} {u u' w : Tensor}
    (h : ∀ g : Fin rule.length, strainAt e X rule[g].1 p.dim u = strainAt e X rule[g].1 p.dim u') :
    elasticWork p E v e rule X u w = elasticWork p E v e rule X u' w := by
  simp only [elasticWork, h]

/-- The hypotheses are met, by different displacements: a plane mesh of elastic four-node quadrilaterals with
positive Jacobian determinants, loaded by any increment and by the same increment with a translation added.
All assembled forces are the same, so `C159_elastic_specimen` applies. -/
example {m : MeshTopology} (hm : ValidMesh m) (h0 : 0 < m.conn.length)
    (hq : ∀ k, IsElement m k → (nodes m k).length = 4) (xs : ℕ → ℕ → ℝ) (rule : GaussRule 2)
    (hr : ElementType.quad4.init 4 = .ok rule)
    (hJ : ∀ k c w, (c, w) ∈ rule → 0 < (ElementType.quad4.jacobian
      (fun a i => xs ((Spec.nodes m k).getD a 0) i) c).det) {d : Props}
    (hE : d .E = some 1) (hv : d .v = some 0) (du : ℕ → ℕ → ℝ) (b : ℕ → ℝ) :
    ∃ (st₁ st₂ : ∀ _ : ℕ, GpDict (ElasticState .plane)) (fs₁ fs₂ : ℕ → List Tensor) (out₁ out₂ : Arr),
      SpecimenHistory 1 2 (fun _ => elasticMaterial .plane d) m xs (fun _ => .quad4) (fun _ => rule) [du]
        (fun _ _ => some (elasticInitState .plane)) st₁ fs₁ [out₁] ∧
      SpecimenHistory 1 2 (fun _ => elasticMaterial .plane d) m xs (fun _ => .quad4) (fun _ => rule)
        [fun l i => du l i + b i] (fun _ _ => some (elasticInitState .plane)) st₂ fs₂ [out₂] ∧
      ∀ k, IsElement m k → ∀ g < rule.length, st₁ k (g + 1) = st₂ k (g + 1) := by
  have hex : ∀ (du : ℕ → ℕ → ℝ), ∃ (st : ∀ _ : ℕ, GpDict (ElasticState .plane)) (fs : ℕ → List Tensor)
      (out : Arr), SpecimenHistory 1 2 (fun _ => elasticMaterial .plane d) m xs (fun _ => .quad4)
        (fun _ => rule) [du] (fun _ _ => some (elasticInitState .plane)) st fs [out] ∧
      (∀ k, ∀ a < 4, ∀ i < 2, ((fs k).getD 0 (Tensor.zeros [])).val [a * 2 + i] = elasticWork .plane 1 0 .quad4
        rule (fun a i => xs ((Spec.nodes m k).getD a 0) i) (elementField m .quad4 k du) (unitField 4 2 a i)) ∧
      ∀ n i, 1 ≤ n → n ≤ m.nNode → i < 2 → out.val ((n - 1) * 2 + i) =
        (((List.range m.conn.length).map fun k : ℕ => (k + 1, (⟨ElementType.quad4.nNode * ElementType.quad4.dim,
          fun q => ((fs (k + 1)).getD 0 (Tensor.zeros [])).val [q]⟩ : Arr))).map
          (contribution m 2 n i)).sum := by
    intro du
    have hf : ∀ k, ∃ fs st, elementForcesOverTime .infinitesimal 1 .quad4 rule.length rule
        (elasticMaterial .plane d) (fun a i => xs ((Spec.nodes m k).getD a 0) i)
        ([du].map (elementField m .quad4 k)) (fun _ => some (elasticInitState .plane)) = .ok (fs, st) := fun k =>
      C157_returns (p := .plane) (e := .quad4) rfl hE hv (fun c w h => (hJ k c w h).ne') (fun u hu => by
        obtain ⟨x, -, rfl⟩ := List.mem_map.1 hu
        rfl)
    choose fs st hf using hf
    obtain ⟨out, ho, -, hval⟩ := C20_assembly hm (nd := 2) (elems := (List.range m.conn.length).map fun k : ℕ =>
      (k + 1, (⟨ElementType.quad4.nNode * ElementType.quad4.dim,
        fun q => ((fs (k + 1)).getD 0 (Tensor.zeros [])).val [q]⟩ : Arr))) (by
      refine ⟨List.ne_nil_of_length_pos (by simpa using h0), ?_⟩
      intro ka hka
      obtain ⟨k, hk, rfl⟩ := List.mem_map.1 hka
      have hk' : IsElement m (k + 1) := ⟨by omega, by have := List.mem_range.1 hk; omega⟩
      refine ⟨hk', ?_⟩
      rw [hq _ hk']
      rfl)
    refine ⟨st, fs, out, ⟨hm, h0, fun _ _ => rfl, hq, fun k _ => hf k, rfl, ?_⟩, ?_, hval⟩
    · intro t ht
      have : t = 0 := by simpa using ht
      subst this
      exact ho
    · intro k a ha i hi
      obtain ⟨h1, h2⟩ := C157_history (p := .plane) (e := .quad4) rfl hE hv (fun u hu => by
        obtain ⟨x, -, rfl⟩ := List.mem_map.1 hu
        rfl) (hf k)
      have hlen : 0 < (fs k).length := by rw [h1]; simp
      have := h2 0 hlen (unitField 4 2 a i) rfl
      rw [show nodalDot ElementType.quad4.nNode ElementType.quad4.dim (fs k)[0] (unitField 4 2 a i) =
        (fs k)[0].val [a * 2 + i] from nodalDot_unit _ ha hi] at this
      rw [List.getD_eq_getElem?_getD, List.getElem?_eq_getElem hlen, Option.getD_some, this]
      refine elasticWork_strain_congr fun g => ?_
      congr 1
      simp [totalDisp, elementField]
  obtain ⟨st₁, fs₁, out₁, H₁, e₁, v₁⟩ := hex du
  obtain ⟨st₂, fs₂, out₂, H₂, e₂, v₂⟩ := hex fun l i => du l i + b i
  refine ⟨st₁, st₂, fs₁, fs₂, out₁, out₂, H₁, H₂, ?_⟩
  refine C159_elastic_specimen (p := .plane) (d := fun _ => d) (E := fun _ => 1) (v := fun _ => 0)
    (fun _ _ => hE) (fun _ _ => hv) (fun _ _ => admissible_one) H₁ H₂ rfl (ng := fun _ => 4) (fun _ _ => hr)
    (fun k _ => hJ k) ?_
  intro t ht l hl i hi
  have : t = 0 := by simpa using ht
  subst this
  right
  show out₁.val (l * 2 + i) = out₂.val (l * 2 + i)
  have w₁ := v₁ (l + 1) i (by omega) hl hi
  have w₂ := v₂ (l + 1) i (by omega) hl hi
  rw [Nat.add_sub_cancel] at w₁ w₂
  rw [w₁, w₂, List.map_map, List.map_map]
  refine congrArg List.sum (List.map_congr_left fun k hk => ?_)
  have hk' : IsElement m (k + 1) := ⟨by omega, by have := List.mem_range.1 hk; omega⟩
  simp only [Function.comp, contribution]
  refine Finset.sum_congr rfl fun a ha => ?_
  have ha4 : a < 4 := by rw [← hq _ hk']; exact Finset.mem_range.1 ha
  split_ifs
  · rw [e₁ _ a ha4 i hi, e₂ _ a ha4 i hi]
    exact (elasticWork_strain_congr fun g => strain_shift m .quad4 _ _ (quad4_deriv_sum _) _ du b).symm
  · rfl

end Hooke
