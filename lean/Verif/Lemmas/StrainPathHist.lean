import Verif.Lemmas.PyDict
import Verif.Lemmas.StrainPath

/-! Component histories and adjusted states. -/

namespace Hooke

noncomputable section

theorem forall₂_getElem? {α β : Type} {R : α → β → Prop} {l : List α} {r : List β}
    (h : List.Forall₂ R l r) {k : ℕ} {x : α} (hx : l[k]? = some x) :
    ∃ y, r[k]? = some y ∧ R x y := by
  induction h generalizing k with
  | nil => simp at hx
  | cons h _ ih =>
    cases k with
    | zero => simp at hx; subst hx; exact ⟨_, rfl, h⟩
    | succ k => simpa using ih (by simpa using hx)

theorem getElem?_npLinspace (a b : ℝ) (n i : ℕ) (hi : i < n) :
    (npLinspace a b n)[i]? = some (a + i * ((b - a) / ((n : ℝ) - 1))) := by
  rw [npLinspace, List.getElem?_map, List.getElem?_range hi]
  rfl

theorem length_npLinspace (a b : ℝ) (n : ℕ) : (npLinspace a b n).length = n := by
  simp [npLinspace]

theorem not_close_ne {lb ub : ℝ} (h : ¬ npIsClose lb ub) : ub - lb ≠ 0 := by
  intro h0
  refine h ?_
  have : lb = ub := by linarith
  simp only [npIsClose, this, sub_self, abs_zero]
  positivity

open Classical in
/-- Values of a component of a proportional path. -/
theorem getElem?_propHist (u lb ub : ℝ) (n i : ℕ) (hi : i < n) :
    (propHist u lb ub n)[i]? = some ((if npIsClose lb ub then lb else 0) +
      i * (if npIsClose lb ub then 0 else (lb + (ub - lb) * (u + 1) / 2) / ((n : ℝ) - 1))) := by
  unfold propHist
  split_ifs with h
  · rw [getElem?_npLinspace _ _ _ _ hi]; simp
  · have h0 := not_close_ne h
    simp only [denormalize, List.getElem?_map, getElem?_npLinspace _ _ _ _ hi, Option.map_some]
    congr 1
    field_simp
    ring

theorem length_propHist (u lb ub : ℝ) (n : ℕ) : (propHist u lb ub n).length = n := by
  unfold propHist
  split_ifs <;> simp [denormalize, length_npLinspace]

theorem KDict.get?_mem {K β : Type} [DecidableEq K] {d : KDict K β} {k : K} {v : β}
    (h : d.get? k = some v) : (k, v) ∈ d := by
  induction d with
  | nil => cases h
  | cons e d ih =>
    obtain ⟨k', v'⟩ := e
    simp only [KDict.get?] at h
    split_ifs at h with hk
    · cases h; simp [hk]
    · exact List.mem_cons_of_mem _ (ih h)

/-- The bounds of the components of the order exist. -/
theorem GoodBounds.get {a : PathArgs} (h : GoodBounds a) {k : ℕ} {c : SComp}
    (hk : a.order[k]? = some c) : ∃ b, a.bounds.get? c = some b ∧ b.1 ≤ b.2 := by
  obtain ⟨b, hb⟩ := KDict.mem_keys_iff.mp ((h.keys c).mpr (List.mem_of_getElem? hk))
  exact ⟨b, hb, h.sorted (c, b) (KDict.get?_mem hb)⟩

theorem checkBounds_ok {a : PathArgs} : a.checkBounds = .ok () ↔ GoodBounds a := by
  unfold PathArgs.checkBounds
  rw [bind_ok_iff]
  constructor
  · rintro ⟨u, h1, h2⟩
    rw [raiseIf_ok, not_not] at h1
    rw [raiseIf_ok] at h2
    push Not at h2
    exact ⟨fun k => ⟨h1.1 k, h1.2 k⟩, h2⟩
  · intro h
    refine ⟨(), ?_, ?_⟩
    · rw [raiseIf_ok, not_not]
      exact ⟨fun k => (h.keys k).mp, fun k => (h.keys k).mpr⟩
    · rw [raiseIf_ok]
      push Not
      exact h.sorted

/-- The histories of the components, when each can be generated. -/
theorem cols_ok {a : PathArgs} (hb : GoodBounds a) {hist : ℕ → ℝ → ℝ → ℕ → Py (List Fl)} {n : ℕ}
    (hh : ∀ k lb ub, lb ≤ ub → ∃ col, hist k lb ub n = .ok col) :
    ∃ cols, (a.order.zipIdx.mapM fun c => do
      let b ← orRaise (a.bounds.get? c.1) .keyError
      hist c.2 b.1 b.2 n) = .ok cols := by
  have : ∀ c ∈ a.order.zipIdx, ∃ col, (do
      let b ← orRaise (a.bounds.get? c.1) .keyError
      hist c.2 b.1 b.2 n : Py (List Fl)) = .ok col := by
    intro c hc
    have hc' : a.order[c.2]? = some c.1 := by
      have := List.mem_zipIdx_iff_getElem?.mp hc
      simpa using this
    obtain ⟨b, h1, h2⟩ := hb.get hc'
    obtain ⟨col, h3⟩ := hh c.2 b.1 b.2 h2
    exact ⟨col, by simp [h1, orRaise, h3, bind, Except.bind]⟩
  choose! g hg using this
  exact ⟨_, mapM_of_forall hg⟩

/-- A state of the unadjusted branch. -/
theorem trial_getElem? (cols : List (List Fl)) {n i : ℕ} (hi : i < n) :
    (trialStates cols n)[i]? = some (cols.map fun col => col.getD i .nan) := by
  simp [trialStates, hi]

theorem isState_iff {order : List SComp} {r : SState} {v : ℕ → ℝ} :
    IsState order r v ↔ r.length = order.length ∧
      ∀ k < order.length, r[k]? = some (.fin (v k)) := by
  constructor
  · rintro rfl
    exact ⟨by simp, fun k hk => by simp [hk]⟩
  · rintro ⟨h1, h2⟩
    apply List.ext_getElem?
    intro k
    by_cases hk : k < order.length
    · rw [h2 k hk]; simp [hk]
    · rw [List.getElem?_eq_none (by omega), List.getElem?_eq_none (by simp; omega)]

theorem forall₂_length {α β : Type} {R : α → β → Prop} {l : List α} {r : List β}
    (h : List.Forall₂ R l r) : r.length = l.length := h.length_eq.symm

open Classical in
/-- The unadjusted states of a proportional path. -/
theorem propTrial {a : PathArgs} {u : ℕ → ℝ} {n : ℕ} {cols : List (List Fl)}
    (hcols : List.Forall₂ (fun c col => ∃ b, a.bounds.get? c.1 = some b ∧
        (.ok ((propHist (u c.2) b.1 b.2 n).map .fin) : Py (List Fl)) = .ok col) a.order.zipIdx cols) :
    ∃ b e : ℕ → ℝ, (∀ i < n, ∃ r, (trialStates cols n)[i]? = some r ∧
        IsState a.order r fun k => b k + i * e k) ∧
      ∀ k c lb ub, a.order[k]? = some c → a.bounds.get? c = some (lb, ub) →
        b k = (if npIsClose lb ub then lb else 0) ∧
        e k = if npIsClose lb ub then 0 else (lb + (ub - lb) * (u k + 1) / 2) / ((n : ℝ) - 1) := by
  let B : ℕ → ℝ × ℝ := fun k => (a.bounds.get? (a.order.getD k [])).getD (0, 0)
  refine ⟨fun k => if npIsClose (B k).1 (B k).2 then (B k).1 else 0,
    fun k => if npIsClose (B k).1 (B k).2 then 0
      else ((B k).1 + ((B k).2 - (B k).1) * (u k + 1) / 2) / ((n : ℝ) - 1), ?_, ?_⟩
  · intro i hi
    refine ⟨_, trial_getElem? cols hi, isState_iff.mpr ⟨?_, fun k hk => ?_⟩⟩
    · simp [forall₂_length hcols]
    · obtain ⟨col, h1, b, h2, h3⟩ := forall₂_getElem? hcols (k := k) (x := (a.order[k], k))
        (by simp [hk])
      cases h3
      have hB : B k = b := by simp [B, hk, h2]
      simp only [List.getElem?_map, h1, Option.map_some]
      rw [hB]
      congr 1
      rw [List.getD_eq_getElem?_getD, List.getElem?_map, getElem?_propHist _ _ _ _ _ hi]
      simp
  · intro k c lb ub hk hc
    have hB : B k = (lb, ub) := by
      simp [B, List.getD_eq_getElem?_getD, hk, hc]
    simp [hB]

/-- The adjustment succeeds for finite states: every state is finite or NaN. -/
theorem adjustFrom_ok {a : PathArgs} (noise : ℕ → List ℝ) (hi : a.infinitesimal = true)
    (hd : a.nDim = 2 ∨ a.nDim = 3) {s : ℝ} (hs : a.incNorm = some s) (hs0 : 0 < s)
    (hn : a.noiseStd = none) (l : List SState) (hl : ∀ r ∈ l, ∃ v, IsState a.order r v) (i : ℕ)
    {prev : SState} (hp : (∃ v, IsState a.order prev v) ∨ IsNanState a.order prev) :
    ∃ p, adjustFrom a noise i prev l = .ok p ∧
      ∀ r ∈ p, (∃ v, IsState a.order r v) ∨ IsNanState a.order r := by
  induction l generalizing i prev with
  | nil => exact ⟨[], rfl, by simp⟩
  | cons q l ih =>
    obtain ⟨w, hw⟩ := hl q (by simp)
    have : ∃ r, normPart a prev q = .ok r ∧
        ((∃ v, IsState a.order r v) ∨ IsNanState a.order r) := by
      rcases hp with ⟨v, hv⟩ | hv
      · obtain ⟨h1, h2⟩ := normPart_fin hi hd hs hs0 hv hw
        by_cases h : strainDist a.order w v = 0
        · obtain ⟨r, h3, h4⟩ := h1 h
          exact ⟨r, h3, .inr h4⟩
        · obtain ⟨r, h3, h4⟩ := h2 h
          exact ⟨r, h3, .inl ⟨_, h4⟩⟩
      · obtain ⟨r, h3, h4⟩ := normPart_nan hi hd hs hs0 hv hw
        exact ⟨r, h3, .inr h4⟩
    obtain ⟨r, h1, h2⟩ := this
    obtain ⟨p, h3, h4⟩ := ih (fun r hr => hl r (by simp [hr])) (i + 1) h2
    refine ⟨r :: p, ?_, ?_⟩
    · simp [adjustFrom, h1, noisePart, hn, h3, bind, Except.bind, pure, Except.pure]
    · intro r' hr'
      rcases List.mem_cons.mp hr' with rfl | h
      · exact h2
      · exact h4 r' h

/-- The relation between consecutive states of an adjusted branch. -/
theorem adjust_step {a : PathArgs} {noise : ℕ → List ℝ} (hn : a.noiseStd = none) {l p : List SState}
    (h : adjustPath a noise l = .ok p) {i : ℕ} (hi0 : i + 1 < l.length) :
    ∃ x y z, p[i]? = some x ∧ l[i + 1]? = some y ∧ p[i + 1]? = some z ∧ normPart a x y = .ok z := by
  cases l with
  | nil => simp at hi0
  | cons r l =>
    obtain ⟨rs, h1, h⟩ := bind_ok h
    cases h
    simpa using adjustFrom_step h1 hn i (by simpa using hi0)

theorem adjust_head {a : PathArgs} {noise : ℕ → List ℝ} {l p : List SState}
    (h : adjustPath a noise l = .ok p) : p[0]? = l[0]? := by
  cases l with
  | nil => cases h; rfl
  | cons r l =>
    obtain ⟨rs, h1, h⟩ := bind_ok h
    cases h
    rfl

theorem strainDist_nonneg (order : List SComp) (v w : ℕ → ℝ) : 0 ≤ strainDist order v w :=
  Real.sqrt_nonneg _

/-- Distance of two states on a line. -/
theorem strainDist_smul (order : List SComp) (v w x y : ℕ → ℝ) (t : ℝ)
    (h : ∀ k < order.length, x k - y k = t * (v k - w k)) :
    strainDist order x y = |t| * strainDist order v w := by
  have : ∑ k ∈ Finset.range order.length,
      (if (order.getD k []).getD 0 0 = (order.getD k []).getD 1 0 then (1 : ℝ) else 2)
        * (x k - y k) ^ 2
      = t ^ 2 * ∑ k ∈ Finset.range order.length,
      (if (order.getD k []).getD 0 0 = (order.getD k []).getD 1 0 then (1 : ℝ) else 2)
        * (v k - w k) ^ 2 := by
    rw [Finset.mul_sum]
    refine Finset.sum_congr rfl fun k hk => ?_
    rw [h k (Finset.mem_range.mp hk)]
    ring
  rw [strainDist, this, Real.sqrt_mul (sq_nonneg t), Real.sqrt_sq_eq_abs]
  rfl

theorem isState_congr {order : List SComp} {r : SState} {v w : ℕ → ℝ} (h : IsState order r v)
    (hvw : ∀ k < order.length, v k = w k) : IsState order r w := by
  rw [isState_iff] at h ⊢
  exact ⟨h.1, fun k hk => by rw [h.2 k hk, hvw k hk]⟩

theorem isState_unique {order : List SComp} {r : SState} {v w : ℕ → ℝ} (hv : IsState order r v)
    (hw : IsState order r w) (k : ℕ) (hk : k < order.length) : v k = w k := by
  have h1 := (isState_iff.mp hv).2 k hk
  rw [(isState_iff.mp hw).2 k hk] at h1
  simpa using h1.symm

/-! ### Random paths -/

theorem npMax_spec {l : List ℝ} (h : l ≠ []) : ∃ m, npMax l = .ok m ∧ m ∈ l ∧ ∀ x ∈ l, x ≤ m := by
  cases l with
  | nil => exact absurd rfl h
  | cons x l =>
    refine ⟨_, rfl, ?_⟩
    clear h
    induction l generalizing x with
    | nil => simp
    | cons y l ih =>
      obtain ⟨h1, h2⟩ := ih (max x y)
      simp only [List.foldl_cons]
      constructor
      · rcases List.mem_cons.mp h1 with h | h
        · rw [h]; rcases max_choice x y with h' | h' <;> rw [h'] <;> simp
        · simp [h]
      · intro z hz
        have hm := h2 (max x y) (by simp)
        rcases List.mem_cons.mp hz with rfl | hz
        · exact (le_max_left _ _).trans hm
        · rcases List.mem_cons.mp hz with rfl | hz
          · exact (le_max_right _ _).trans hm
          · exact h2 z (by simp [hz])

theorem npMin_spec {l : List ℝ} (h : l ≠ []) : ∃ m, npMin l = .ok m ∧ m ∈ l ∧ ∀ x ∈ l, m ≤ x := by
  cases l with
  | nil => exact absurd rfl h
  | cons x l =>
    refine ⟨_, rfl, ?_⟩
    clear h
    induction l generalizing x with
    | nil => simp
    | cons y l ih =>
      obtain ⟨h1, h2⟩ := ih (min x y)
      simp only [List.foldl_cons]
      constructor
      · rcases List.mem_cons.mp h1 with h | h
        · rw [h]; rcases min_choice x y with h' | h' <;> rw [h'] <;> simp
        · simp [h]
      · intro z hz
        have hm := h2 (min x y) (by simp)
        rcases List.mem_cons.mp hz with rfl | hz
        · exact hm.trans (min_le_left _ _)
        · rcases List.mem_cons.mp hz with rfl | hz
          · exact hm.trans (min_le_right _ _)
          · exact h2 z (by simp [hz])

/-- What the strict bound scaling achieves: one of the bounds is met, and both if at most one of them
was exceeded or if the bounds are symmetric. -/
theorem boundScaling_spec {lb ub : ℝ} (hl : lb ≤ 0) (hu : 0 ≤ ub) {h : List ℝ} (hne : h ≠ []) :
    ∃ f : ℝ, 0 ≤ f ∧ f ≤ 1 ∧ boundScaling lb ub h = .ok (h.map fun x => Fl.fin (f * x)) ∧
      ((∀ x ∈ h, lb ≤ f * x) ∨ ∀ x ∈ h, f * x ≤ ub) ∧
      (((∀ x ∈ h, lb ≤ x) ∨ (∀ x ∈ h, x ≤ ub) ∨ lb = -ub) →
        ∀ x ∈ h, lb ≤ f * x ∧ f * x ≤ ub) ∧
      ((∀ x ∈ h, lb ≤ x ∧ x ≤ ub) → f = 1) := by
  obtain ⟨m, hm, hm1, hm2⟩ := npMax_spec (l := h.map abs) (by simpa using hne)
  obtain ⟨mn, hmn, n1, n2⟩ := npMin_spec hne
  obtain ⟨mx, hmx, x1, x2⟩ := npMax_spec hne
  have hone : h.map Fl.fin = h.map fun x => Fl.fin (1 * x) := by simp
  by_cases h0 : 0 < m
  · by_cases hex : mn < lb ∨ mx > ub
    · have hbs : boundScaling lb ub h
          = .ok (h.map fun x => Fl.mul (scaleFactor lb ub mn mx) (.fin x)) := by
        simp [boundScaling, hm, h0, hmn, hmx, if_pos hex, bind, Except.bind, pure, Except.pure]
      rw [hbs]
      by_cases hd : (if mx > ub then |ub - mx| else 0) < (if mn < lb then |lb - mn| else 0)
      · have hmnlb : mn < lb := by
          by_contra hcon
          rw [if_neg hcon] at hd
          split_ifs at hd with h1
          · exact absurd hd (not_lt.mpr (abs_nonneg _))
          · exact lt_irrefl _ hd
        have hmn0 : mn < 0 := by linarith
        have hf : scaleFactor lb ub mn mx = .fin (lb / mn) := by
          simp only [scaleFactor]
          rw [if_pos hd, Fl.div_fin_ne hmn0.ne, Fl.abs, abs_of_nonneg (div_nonneg_of_nonpos hl hmn0.le)]
        have f0 : 0 ≤ lb / mn := div_nonneg_of_nonpos hl hmn0.le
        have f1 : lb / mn ≤ 1 := by rw [div_le_one_of_neg hmn0]; exact hmnlb.le
        have flow : ∀ x ∈ h, lb ≤ lb / mn * x := by
          intro x hx
          have := mul_le_mul_of_nonneg_left (n2 x hx) f0
          rwa [div_mul_cancel₀ _ hmn0.ne] at this
        refine ⟨lb / mn, f0, f1, by simp [hf], .inl flow, ?_, ?_⟩
        · intro hor x hx
          refine ⟨flow x hx, ?_⟩
          rcases hor with h' | h' | h'
          · exact absurd (h' mn n1) (not_le.mpr hmnlb)
          · rcases le_total 0 x with hx0 | hx0
            · nlinarith [h' x hx]
            · nlinarith
          · have hub : mx ≤ -mn := by
              rw [if_pos hmnlb, abs_of_nonneg (by linarith : 0 ≤ lb - mn)] at hd
              by_cases hmu : mx > ub
              · rw [if_pos hmu, abs_of_neg (by linarith)] at hd
                linarith
              · linarith
            have : x ≤ -mn := (x2 x hx).trans hub
            have := mul_le_mul_of_nonneg_left this f0
            have e : lb / mn * -mn = -lb := by rw [mul_neg, div_mul_cancel₀ _ hmn0.ne]
            linarith
        · intro hb
          exact absurd (hb mn n1).1 (not_le.mpr hmnlb)
      · have hmxub : ub < mx := by
          by_contra hcon
          rw [if_neg hcon] at hd
          rcases hex with h1 | h1
          · rw [if_pos h1] at hd
            exact hd (abs_pos.mpr (by linarith [h1]))
          · exact hcon h1
        have hmx0 : 0 < mx := by linarith
        have hf : scaleFactor lb ub mn mx = .fin (ub / mx) := by
          simp only [scaleFactor]
          rw [if_neg hd, Fl.div_fin_ne hmx0.ne', Fl.abs, abs_of_nonneg (div_nonneg hu hmx0.le)]
        have f0 : 0 ≤ ub / mx := div_nonneg hu hmx0.le
        have f1 : ub / mx ≤ 1 := by rw [div_le_one hmx0]; exact hmxub.le
        have fup : ∀ x ∈ h, ub / mx * x ≤ ub := by
          intro x hx
          have := mul_le_mul_of_nonneg_left (x2 x hx) f0
          rwa [div_mul_cancel₀ _ hmx0.ne'] at this
        refine ⟨ub / mx, f0, f1, by simp [hf], .inr fup, ?_, ?_⟩
        · intro hor x hx
          refine ⟨?_, fup x hx⟩
          rcases hor with h' | h' | h'
          · rcases le_total 0 x with hx0 | hx0
            · nlinarith
            · nlinarith [h' x hx]
          · exact absurd (h' mx x1) (not_le.mpr hmxub)
          · have hub : -mx ≤ mn := by
              rw [if_pos hmxub, abs_of_neg (by linarith : ub - mx < 0)] at hd
              by_cases hmu : mn < lb
              · rw [if_pos hmu, abs_of_pos (by linarith)] at hd
                linarith
              · linarith
            have : -mx ≤ x := hub.trans (n2 x hx)
            have := mul_le_mul_of_nonneg_left this f0
            have e : ub / mx * -mx = -ub := by rw [mul_neg, div_mul_cancel₀ _ hmx0.ne']
            linarith
        · intro hb
          exact absurd (hb mx x1).2 (not_le.mpr hmxub)
    · have hin : ∀ x ∈ h, lb ≤ 1 * x ∧ 1 * x ≤ ub := by
        push Not at hex
        intro x hx
        rw [one_mul]
        exact ⟨hex.1.trans (n2 x hx), (x2 x hx).trans hex.2⟩
      refine ⟨1, zero_le_one, le_refl _, ?_, .inl fun x hx => (hin x hx).1, fun _ => hin, fun _ => rfl⟩
      rw [← hone]
      simp [boundScaling, hm, h0, hmn, hmx, if_neg hex, bind, Except.bind, pure, Except.pure]
  · have hz : ∀ x ∈ h, x = 0 := by
      intro x hx
      have := hm2 |x| (List.mem_map_of_mem hx)
      exact abs_nonpos_iff.mp (by linarith)
    have hin : ∀ x ∈ h, lb ≤ 1 * x ∧ 1 * x ≤ ub := by
      intro x hx
      rw [hz x hx]
      simp [hl, hu]
    refine ⟨1, zero_le_one, le_refl _, ?_, .inl fun x hx => (hin x hx).1, fun _ => hin, fun _ => rfl⟩
    rw [← hone]
    simp [boundScaling, hm, h0, bind, Except.bind, pure, Except.pure]

/-- Component history of a random path with bounds containing zero. -/
theorem randomHist_spec {g : GenType} {nc : ℤ × ℤ} {d : RandomDraws} {j : ℕ} {lb ub : ℝ} {n : ℕ}
    (hl : lb ≤ 0) (hu : 0 ≤ ub) {col : List Fl} (h : randomHist g nc d j lb ub n = .ok col) :
    ∃ x : List ℝ, col = x.map Fl.fin ∧ x.length = n ∧
      ((∀ y ∈ x, lb ≤ y) ∨ ∀ y ∈ x, y ≤ ub) ∧ (lb = -ub → ∀ y ∈ x, lb ≤ y ∧ y ≤ ub) := by
  have key : ∀ z : List ℝ, z.length = n → boundScaling lb ub z = .ok col →
      ∃ x : List ℝ, col = x.map Fl.fin ∧ x.length = n ∧
      ((∀ y ∈ x, lb ≤ y) ∨ ∀ y ∈ x, y ≤ ub) ∧ (lb = -ub → ∀ y ∈ x, lb ≤ y ∧ y ≤ ub) := by
    intro z hn hb
    have hne : z ≠ [] := by
      rintro rfl
      cases hb
    obtain ⟨f, -, -, h1, h2, h3, -⟩ := boundScaling_spec hl hu hne
    rw [h1] at hb
    cases hb
    refine ⟨z.map fun x => f * x, by simp, by simp [hn], ?_, ?_⟩
    · simpa using h2
    · intro hs
      simpa using h3 (.inr (.inr hs))
  unfold randomHist at h
  split_ifs at h with hcl
  · exact key _ (length_npLinspace _ _ _) h
  · obtain ⟨-, -, h⟩ := bind_ok h
    obtain ⟨x, hx, h⟩ := bind_ok h
    refine key _ ?_ h
    obtain ⟨-, -, hx⟩ := bind_ok hx
    obtain ⟨-, -, hx⟩ := bind_ok hx
    obtain ⟨f, -, hx⟩ := bind_ok hx
    cases hx
    simp [denormalize, length_npLinspace]

/-- The interpolating polynomial passes through the first control point. -/
theorem interpolant_first {n : ℕ} (hn : 0 < n) (t y : ℕ → ℝ)
    (ht : ∀ m, m < n → m ≠ 0 → t m ≠ t 0) : interpolant n t y (t 0) = y 0 := by
  unfold interpolant
  rw [Finset.sum_eq_single_of_mem 0 (Finset.mem_range.mpr hn)]
  · rw [Finset.prod_eq_one, mul_one]
    intro m hm
    split_ifs with h
    · rfl
    · exact div_self (sub_ne_zero.mpr (ht m (Finset.mem_range.mp hm) h).symm)
  · intro k _ hk
    rw [Finset.prod_eq_zero (Finset.mem_range.mpr hn), mul_zero]
    rw [if_neg (Ne.symm hk), sub_self, zero_div]

end

end Hooke
