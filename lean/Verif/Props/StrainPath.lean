import Verif.Lemmas.StrainPathHist

/-!
# C54, C55, C56: strain loading paths
-/

namespace Hooke

noncomputable section

/-! ## C54 -/

theorem cyclicShape {a : PathArgs} {hist : ℕ → ℝ → ℝ → ℕ → Py (List Fl)} {noise : ℕ → List ℝ}
    {res} (h : generatePath a hist noise = .ok res) : CyclicShape a res.2.2 := by
  obtain ⟨cols, path, h1, -, -, h2, h3, -, -⟩ := generatePath_ok h
  obtain ⟨g1, g2, g3, g4⟩ := generatePath_shape h1 h2 h3
  have hfit : 0 < a.nCycle → 2 ≤ branchPoints a.nTime a.nCycle ∧
      2 * a.nCycle * (branchPoints a.nTime a.nCycle - 1) + 1 ≤ a.nTime :=
    fun hc => branch_le hc (by omega)
  have hwave : 0 < a.nCycle → ∀ t < a.nTime,
      res.2.2[t]? = if t < 2 * a.nCycle * (branchPoints a.nTime a.nCycle - 1)
        then res.2.2[triangle (branchPoints a.nTime a.nCycle) t]? else res.2.2[0]? := by
    intro hc t ht
    obtain ⟨f1, f2⟩ := hfit hc
    obtain ⟨k1, k2⟩ := g4 hc
    split_ifs with h
    · rw [k1 t h, g2]
      unfold triangle
      have := Nat.mod_lt t (show 0 < 2 * (branchPoints a.nTime a.nCycle - 1) by omega)
      split_ifs with h
      · exact h
      · omega
    · rw [k2 t (by omega) ht, g2 0 (by omega)]
  refine ⟨g1, fun t ht => ?_, hwave, fun hc => ⟨(hfit hc).1, (hfit hc).2, ?_⟩, fun hc => ?_⟩
  · obtain ⟨s, hs, hs'⟩ := g3 t ht
    exact ⟨s, hs, by rw [hs', g2 s hs]⟩
  · rw [branchPoints, if_neg hc.ne']
    have := Nat.lt_mul_div_succ (a.nTime - 1) (show 0 < 2 * a.nCycle by omega)
    omega
  · obtain ⟨f1, f2⟩ := hfit hc
    rw [hwave hc _ (by omega), if_neg (by omega)]

/-- **C54**, proportional paths. Every path returned by the generator has the requested number of
points and time points; with cycles it follows the loading branch back and forth, ends at the initial
strain, and never leaves the points of the loading branch. -/
theorem C54_proportional (a : PathArgs) (u : ℕ → ℝ) (noise : ℕ → List ℝ)
    (order : List SComp) (times : List ℝ) (p : List SState)
    (h : proportionalPath a u noise = .ok (order, times, p)) :
    CyclicShape a p ∧ times.length = a.nTime := by
  obtain ⟨-, -, h⟩ := bind_ok h
  obtain ⟨_, _, -, -, -, -, -, -, h2⟩ := generatePath_ok h
  refine ⟨cyclicShape h, ?_⟩
  rw [show times = _ from h2]
  exact length_npLinspace _ _ _

/-- **C54**, random paths. -/
theorem C54_random (a : PathArgs) (g : GenType) (nc : Option (ℤ × ℤ)) (d : RandomDraws)
    (noise : ℕ → List ℝ) (order : List SComp) (times : List ℝ) (p : List SState)
    (h : randomPath a g nc d noise = .ok (order, times, p)) :
    CyclicShape a p ∧ times.length = a.nTime := by
  obtain ⟨-, -, h⟩ := bind_ok h
  obtain ⟨_, -, h⟩ := bind_ok h
  obtain ⟨_, _, -, -, -, -, -, -, h2⟩ := generatePath_ok h
  refine ⟨cyclicShape h, ?_⟩
  rw [show times = _ from h2]
  exact length_npLinspace _ _ _

theorem generatePath_short {a : PathArgs} (hist : ℕ → ℝ → ℝ → ℕ → Py (List Fl)) (noise : ℕ → List ℝ)
    (hc : 0 < a.nCycle) (hn : a.nTime < 2 * a.nCycle + 1) :
    generatePath a hist noise = .error .runtimeError := by
  simp [generatePath, nForward_eq, hc, hn, bind, Except.bind]

/-- **C54**, too few points for the cycles (or inadmissible bounds) raise `RuntimeError`. -/
theorem C54_too_short (a : PathArgs) (hc : 0 < a.nCycle) (hn : a.nTime < 2 * a.nCycle + 1) :
    (∀ u noise, proportionalPath a u noise = .error .runtimeError) ∧
    ∀ g nc d noise, randomPath a g nc d noise = .error .runtimeError := by
  have hchk : a.checkBounds = .ok () ∨ a.checkBounds = .error .runtimeError := by
    unfold PathArgs.checkBounds raiseIf
    split_ifs <;> simp [bind, Except.bind]
  constructor
  · intro u noise
    rcases hchk with h | h
    · simp [proportionalPath, h, generatePath_short _ _ hc hn, bind, Except.bind]
    · simp [proportionalPath, h, bind, Except.bind]
  · intro g nc d noise
    rcases hchk with h | h
    · cases nc <;> simp [randomPath, h, orRaise, generatePath_short _ _ hc hn, bind, Except.bind]
    · simp [randomPath, h, bind, Except.bind]

theorem finishPath_ok {a : PathArgs} {path : List SState}
    (hc : ¬ (0 < a.nCycle ∧ a.nTime < 2 * a.nCycle + 1))
    (hl : path.length = branchPoints a.nTime a.nCycle) :
    ∃ p, finishPath a.nTime a.nCycle path = .ok p := by
  unfold finishPath
  split_ifs with h0
  · obtain ⟨hb, hb'⟩ := branch_le h0 (show 2 * a.nCycle + 1 ≤ a.nTime by omega)
    obtain ⟨p', h1, -⟩ := cyclicPath_ok h0 (hl ▸ hb) (hl ▸ hb')
    exact ⟨p', h1⟩
  · exact ⟨_, rfl⟩

theorem generatePath_total {a : PathArgs} (hb : GoodBounds a)
    (hc : ¬ (0 < a.nCycle ∧ a.nTime < 2 * a.nCycle + 1)) {hist : ℕ → ℝ → ℝ → ℕ → Py (List Fl)}
    {noise : ℕ → List ℝ}
    (hh : ∀ k lb ub, lb ≤ ub → ∃ col, hist k lb ub (branchPoints a.nTime a.nCycle) = .ok col)
    (hadj : ∀ cols : List (List Fl),
      List.Forall₂ (fun c col => ∃ b, a.bounds.get? c.1 = some b ∧
        hist c.2 b.1 b.2 (branchPoints a.nTime a.nCycle) = .ok col) a.order.zipIdx cols →
      ∃ p, adjustPath a noise (trialStates cols (branchPoints a.nTime a.nCycle)) = .ok p) :
    ∃ res, generatePath a hist noise = .ok res := by
  obtain ⟨cols, h1⟩ := cols_ok hb hh
  obtain ⟨path, h2⟩ := hadj cols ((mapM_forall₂ h1).imp fun c col hcol => by
    obtain ⟨b, hb, hcol⟩ := bind_ok hcol
    exact ⟨b, orRaise_ok.mp hb, hcol⟩)
  obtain ⟨p, h3⟩ := finishPath_ok (path := path) hc
    (by rw [adjustPath_length h2]; simp [trialStates])
  have hn : a.nForward = .ok (branchPoints a.nTime a.nCycle) := by rw [nForward_eq, if_neg hc]
  refine ⟨(a.order, npLinspace a.timeInit a.timeEnd a.nTime, p), ?_⟩
  unfold generatePath
  rw [hn]
  show ((a.order.zipIdx.mapM fun c => do
      let b ← orRaise (a.bounds.get? c.1) .keyError
      hist c.2 b.1 b.2 (branchPoints a.nTime a.nCycle)) >>= _) = _
  rw [h1]
  show (adjustPath a noise (trialStates cols (branchPoints a.nTime a.nCycle)) >>= _) = _
  rw [h2]
  show (finishPath a.nTime a.nCycle path >>= _) = _
  rw [h3]
  rfl

/-- **C54**, enough points: the generator succeeds for all admissible bounds and all draws. -/
theorem C54_proportional_total (a : PathArgs) (hb : GoodBounds a)
    (hc : ¬ (0 < a.nCycle ∧ a.nTime < 2 * a.nCycle + 1)) (hi : a.incNorm = none)
    (hn : a.noiseStd = none) (u : ℕ → ℝ) (noise : ℕ → List ℝ) :
    ∃ res, proportionalPath a u noise = .ok res := by
  obtain ⟨res, h⟩ := generatePath_total (noise := noise) hb hc
    (hist := fun j lb ub n => .ok ((propHist (u j) lb ub n).map .fin))
    (fun k lb ub _ => ⟨_, rfl⟩) fun cols _ => ⟨_, adjustPath_none hi hn _⟩
  exact ⟨res, by simp [proportionalPath, checkBounds_ok.mpr hb, h, bind, Except.bind]⟩

theorem adjustFrom_noise {a : PathArgs} {noise : ℕ → List ℝ} {d : ℝ} (hi : a.incNorm = none)
    (hn : a.noiseStd = some d) {l p : List SState} {i : ℕ} {prev : SState}
    (h : adjustFrom a noise i prev l = .ok p) :
    (0 < l.length → 0 ≤ d) ∧ ∀ k, p[k]? = (l[k]?).map fun r =>
      List.zipWith Fl.add r ((noise (i + k)).map .fin) := by
  induction l generalizing i prev p with
  | nil => cases h; simp
  | cons r l ih =>
    obtain ⟨r1, h1, h⟩ := bind_ok h
    obtain ⟨r2, h2, h⟩ := bind_ok h
    obtain ⟨rs, h3, h⟩ := bind_ok h
    cases h
    simp only [normPart, hi] at h1
    cases h1
    simp only [noisePart, hn] at h2
    obtain ⟨_, h4, h2⟩ := bind_ok h2
    cases h2
    refine ⟨fun _ => not_lt.1 (raiseIf_ok.1 h4), fun k => ?_⟩
    cases k with
    | zero => simp
    | succ k =>
      have := (ih h3).2 k
      rw [show i + 1 + k = i + (k + 1) by omega] at this
      simpa using this

theorem generatePath_noise {a : PathArgs} {hist : ℕ → ℝ → ℝ → ℕ → Py (List Fl)} {noise : ℕ → List ℝ}
    {d : ℝ} (hi : a.incNorm = none) (hn : a.noiseStd = some d) {res res0}
    (h : generatePath a hist noise = .ok res)
    (h0 : generatePath { a with noiseStd := none } hist noise = .ok res0) :
    (2 ≤ branchPoints a.nTime a.nCycle → 0 ≤ d) ∧
    ∀ t < branchPoints a.nTime a.nCycle, res.2.2[t]? = (res0.2.2[t]?).map fun r =>
      if t = 0 then r else List.zipWith Fl.add r ((noise t).map .fin) := by
  obtain ⟨cols, path, c1, c2, c3, c4, c5, -, -⟩ := generatePath_ok h
  obtain ⟨cols0, path0, d1, d2, d3, d4, d5, -, -⟩ := generatePath_ok h0
  have hcols : cols = cols0 := by
    refine List.ext_getElem (by rw [← c2.length_eq, ← d2.length_eq]; rfl) fun n h1 h2 => ?_
    have hlo : n < a.order.zipIdx.length := by rw [c2.length_eq]; exact h1
    obtain ⟨b, e1, e2⟩ := c2.get hlo h1
    obtain ⟨b', e1', e2'⟩ := d2.get (i := n) hlo h2
    simp only [List.get_eq_getElem] at e1 e2 e1' e2'
    have hbb : some b = some b' := e1.symm.trans e1'
    cases hbb
    have := e2.symm.trans e2'
    exact Except.ok.inj this
  subst hcols
  rw [adjustPath_none (a := { a with noiseStd := none }) hi rfl] at d3
  cases d3
  have s1 := (generatePath_shape c1 c4 c5).2.1
  have s2 := (generatePath_shape (a := { a with noiseStd := none }) d1 d4 d5).2.1
  have hlen : (trialStates cols (branchPoints a.nTime a.nCycle)).length = branchPoints a.nTime a.nCycle := d4
  have s2' : ∀ t < branchPoints a.nTime a.nCycle,
      res0.2.2[t]? = (trialStates cols (branchPoints a.nTime a.nCycle))[t]? := s2
  generalize hL : trialStates cols (branchPoints a.nTime a.nCycle) = L at c3 hlen s2'
  cases L with
  | nil =>
    simp only [List.length_nil] at hlen
    exact ⟨fun h => by omega, fun t ht => by omega⟩
  | cons r l =>
    obtain ⟨rs, e1, e2⟩ := bind_ok c3
    cases e2
    obtain ⟨n1, n2⟩ := adjustFrom_noise hi hn e1
    refine ⟨fun h => n1 (by simp only [List.length_cons] at hlen; omega), fun t ht => ?_⟩
    rw [s1 t ht, s2' t ht]
    cases t with
    | zero => simp
    | succ t =>
      have := n2 t
      rw [show 1 + t = t + 1 by omega] at this
      simpa using this

/-- **C54**, noise without prescribed increment. The states of the loading branch are those of the same
path without noise plus the values drawn, and the first state is free of noise; a negative standard
deviation is rejected as soon as the branch has two points. -/
theorem C54_noise (a : PathArgs) (d : ℝ) (hi : a.incNorm = none) (hn : a.noiseStd = some d)
    (noise : ℕ → List ℝ) :
    (∀ u res res0, proportionalPath a u noise = .ok res →
      proportionalPath { a with noiseStd := none } u noise = .ok res0 →
      (2 ≤ branchPoints a.nTime a.nCycle → 0 ≤ d) ∧
      ∀ t < branchPoints a.nTime a.nCycle, res.2.2[t]? = (res0.2.2[t]?).map fun r =>
        if t = 0 then r else List.zipWith Fl.add r ((noise t).map .fin)) ∧
    ∀ g nc dr res res0, randomPath a g nc dr noise = .ok res →
      randomPath { a with noiseStd := none } g nc dr noise = .ok res0 →
      (2 ≤ branchPoints a.nTime a.nCycle → 0 ≤ d) ∧
      ∀ t < branchPoints a.nTime a.nCycle, res.2.2[t]? = (res0.2.2[t]?).map fun r =>
        if t = 0 then r else List.zipWith Fl.add r ((noise t).map .fin) := by
  refine ⟨fun u res res0 h h0 => ?_, fun g nc dr res res0 h h0 => ?_⟩
  · obtain ⟨-, -, h⟩ := bind_ok h
    obtain ⟨-, -, h0⟩ := bind_ok h0
    exact generatePath_noise hi hn h h0
  · obtain ⟨-, -, h⟩ := bind_ok h
    obtain ⟨x, hx, h⟩ := bind_ok h
    obtain ⟨-, -, h0⟩ := bind_ok h0
    obtain ⟨y, hy, h0⟩ := bind_ok h0
    obtain rfl : x = y := by
      rw [orRaise_ok] at hx hy
      rw [hx] at hy
      exact Option.some.inj hy
    exact generatePath_noise hi hn h h0

theorem adjustPath_noise_total {a : PathArgs} {d : ℝ} (hi : a.incNorm = none)
    (hn : a.noiseStd = some d) (hd : 0 ≤ d) (noise : ℕ → List ℝ) (l : List SState) :
    ∃ p, adjustPath a noise l = .ok p := by
  have h : ∀ (l : List SState) i prev, ∃ p, adjustFrom a noise i prev l = .ok p := by
    intro l
    induction l with
    | nil => exact fun _ _ => ⟨[], rfl⟩
    | cons r l ih =>
      intro i prev
      obtain ⟨p, hp⟩ := ih (i + 1) (List.zipWith Fl.add r ((noise i).map .fin))
      refine ⟨List.zipWith Fl.add r ((noise i).map .fin) :: p, ?_⟩
      simp [adjustFrom, normPart, noisePart, hi, hn, raiseIf, not_lt.2 hd, hp, bind, Except.bind, pure,
        Except.pure]
  cases l with
  | nil => exact ⟨[], rfl⟩
  | cons r l =>
    obtain ⟨p, hp⟩ := h l 1 r
    exact ⟨r :: p, by simp [adjustPath, hp, bind, Except.bind, pure, Except.pure]⟩

/-- **C54**, noise with a standard deviation that is not negative never makes the generator fail. -/
theorem C54_noise_total (a : PathArgs) (hb : GoodBounds a)
    (hc : ¬ (0 < a.nCycle ∧ a.nTime < 2 * a.nCycle + 1)) (hi : a.incNorm = none) (d : ℝ)
    (hn : a.noiseStd = some d) (hd : 0 ≤ d) (u : ℕ → ℝ) (noise : ℕ → List ℝ) :
    ∃ res, proportionalPath a u noise = .ok res := by
  obtain ⟨res, h⟩ := generatePath_total (noise := noise) hb hc
    (hist := fun j lb ub n => .ok ((propHist (u j) lb ub n).map .fin))
    (fun k lb ub _ => ⟨_, rfl⟩) fun cols _ => adjustPath_noise_total hi hn hd noise _
  exact ⟨res, by simp [proportionalPath, checkBounds_ok.mpr hb, h, bind, Except.bind]⟩

/-! ## C55 -/

/-- **C55**, proportional paths. With bounds containing zero, no prescribed increment and no noise, all
components of all states of the path (with any number of cycles) are within their bounds. -/
theorem C55_proportional (a : PathArgs) (hi : a.incNorm = none) (hn : a.noiseStd = none)
    (hz : ∀ e ∈ a.bounds, e.2.1 ≤ 0 ∧ 0 ≤ e.2.2) (u : ℕ → ℝ) (hu : ∀ k, -1 ≤ u k ∧ u k ≤ 1)
    (noise : ℕ → List ℝ) (order : List SComp) (times : List ℝ) (p : List SState)
    (h : proportionalPath a u noise = .ok (order, times, p)) :
    ∀ r ∈ p, ∀ (k : ℕ) c lb ub, a.order[k]? = some c → a.bounds.get? c = some (lb, ub) →
      ∃ x : ℝ, r[k]? = some (Fl.fin x) ∧ lb ≤ x ∧ x ≤ ub := by
  obtain ⟨⟨⟩, hchk, h⟩ := bind_ok h
  have hb := checkBounds_ok.mp hchk
  obtain ⟨cols, path, h1, h2, h3, h4, h5, -, -⟩ := generatePath_ok h
  obtain ⟨g1, -, g3, -⟩ := generatePath_shape h1 h4 h5
  rw [adjustPath_none hi hn] at h3
  cases h3
  obtain ⟨b, e, k1, k2⟩ := propTrial h2
  intro r hr k c lb ub hk hc
  obtain ⟨t, ht, rfl⟩ := List.mem_iff_getElem.mp hr
  obtain ⟨i, hi, hti⟩ := g3 t (g1 ▸ ht)
  obtain ⟨r', hr', hst⟩ := k1 i hi
  obtain rfl : p[t] = r' := by
    have h' : p[t]? = some r' := hti.trans hr'
    rw [List.getElem?_eq_getElem ht] at h'
    simpa using h'
  have hkl : k < a.order.length := by
    by_contra hcon
    rw [List.getElem?_eq_none (by omega)] at hk
    cases hk
  refine ⟨_, (isState_iff.mp hst).2 k hkl, ?_⟩
  obtain ⟨e1, e2⟩ := k2 k c lb ub hk hc
  rw [e1, e2]
  have hmem : (c, (lb, ub)) ∈ a.bounds := KDict.get?_mem hc
  obtain ⟨z1, z2⟩ := hz _ hmem
  simp only at z1 z2
  split_ifs with hcl
  · simp; linarith
  · obtain ⟨u1, u2⟩ := hu k
    have hE : lb ≤ lb + (ub - lb) * (u k + 1) / 2 ∧ lb + (ub - lb) * (u k + 1) / 2 ≤ ub := by
      constructor <;> nlinarith
    generalize lb + (ub - lb) * (u k + 1) / 2 = E at hE
    have hθ : ∃ θ : ℝ, 0 ≤ θ ∧ θ ≤ 1 ∧
        (i : ℝ) * (E / ((branchPoints a.nTime a.nCycle : ℝ) - 1)) = θ * E := by
      by_cases h1 : branchPoints a.nTime a.nCycle = 1
      · have : i = 0 := by omega
        exact ⟨0, le_refl _, zero_le_one, by simp [this]⟩
      · have h2 : (0 : ℝ) < (branchPoints a.nTime a.nCycle : ℝ) - 1 := by
          have : (1 : ℝ) < (branchPoints a.nTime a.nCycle : ℝ) := by
            exact_mod_cast (show 1 < branchPoints a.nTime a.nCycle by omega)
          linarith
        refine ⟨i / ((branchPoints a.nTime a.nCycle : ℝ) - 1), by positivity, ?_, by ring⟩
        rw [div_le_one h2]
        have : (i : ℝ) + 1 ≤ branchPoints a.nTime a.nCycle := by exact_mod_cast hi
        linarith
    obtain ⟨θ, t0, t1, hθ⟩ := hθ
    rw [hθ, zero_add]
    constructor <;> nlinarith

/-- **C55**, proportional paths start at zero strain and are straight: the states of the loading branch
are `i / (n - 1)` times one state, when no component has coinciding bounds. -/
theorem C55_proportional_line (a : PathArgs) (hi : a.incNorm = none) (hn : a.noiseStd = none)
    (hz : ∀ e ∈ a.bounds, ¬ npIsClose e.2.1 e.2.2) (u : ℕ → ℝ)
    (noise : ℕ → List ℝ) (order : List SComp) (times : List ℝ) (p : List SState)
    (h : proportionalPath a u noise = .ok (order, times, p)) :
    ∃ e : ℕ → ℝ, ∀ i < branchPoints a.nTime a.nCycle, ∃ r, p[i]? = some r ∧
      IsState a.order r fun k => i / ((branchPoints a.nTime a.nCycle : ℝ) - 1) * e k := by
  obtain ⟨⟨⟩, hchk, h⟩ := bind_ok h
  have hb := checkBounds_ok.mp hchk
  obtain ⟨cols, path, h1, h2, h3, h4, h5, -, -⟩ := generatePath_ok h
  obtain ⟨g1, g2, g3, -⟩ := generatePath_shape h1 h4 h5
  rw [adjustPath_none hi hn] at h3
  cases h3
  obtain ⟨b, e, k1, k2⟩ := propTrial h2
  refine ⟨fun k => e k * ((branchPoints a.nTime a.nCycle : ℝ) - 1), fun i hi => ?_⟩
  obtain ⟨r, hr, hst⟩ := k1 i hi
  refine ⟨r, (g2 i hi).trans hr, isState_congr hst fun k hk => ?_⟩
  obtain ⟨B, hB, -⟩ := hb.get (k := k) (c := a.order[k]) (by simp [hk])
  obtain ⟨e1, e2⟩ := k2 k _ B.1 B.2 (by simp [hk]) hB
  have hncl : ¬ npIsClose B.1 B.2 := hz (a.order[k], B) (KDict.get?_mem hB)
  rw [if_neg hncl] at e1 e2
  by_cases hF : branchPoints a.nTime a.nCycle = 1
  · have : i = 0 := by omega
    simp [this, e1]
  · have h2 : ((branchPoints a.nTime a.nCycle : ℝ) - 1) ≠ 0 := by
      rw [sub_ne_zero]; exact_mod_cast hF
    rw [e1]
    field_simp
    ring

/-- The values of a component along a path without prescribed increment and noise are those of its
history. -/
theorem path_component {a : PathArgs} (hi : a.incNorm = none) (hn : a.noiseStd = none)
    {hist : ℕ → ℝ → ℝ → ℕ → Py (List Fl)} {noise : ℕ → List ℝ} {res}
    (h : generatePath a hist noise = .ok res) {k : ℕ} {c : SComp} {lb ub : ℝ}
    (hk : a.order[k]? = some c) (hc : a.bounds.get? c = some (lb, ub)) :
    ∃ col, hist k lb ub (branchPoints a.nTime a.nCycle) = .ok col ∧
      ∀ r ∈ res.2.2, ∃ i < branchPoints a.nTime a.nCycle, r[k]? = some (col.getD i .nan) := by
  obtain ⟨cols, path, h1, h2, h3, h4, h5, -, -⟩ := generatePath_ok h
  obtain ⟨g1, g2, g3, -⟩ := generatePath_shape h1 h4 h5
  rw [adjustPath_none hi hn] at h3
  cases h3
  obtain ⟨col, k1, b, k2, k3⟩ := forall₂_getElem? h2 (k := k) (x := (c, k)) (by simp [hk])
  rw [hc] at k2
  cases k2
  refine ⟨col, k3, fun r hr => ?_⟩
  obtain ⟨t, ht, rfl⟩ := List.mem_iff_getElem.mp hr
  obtain ⟨i, hi, hti⟩ := g3 t (g1 ▸ ht)
  rw [trial_getElem? cols hi, List.getElem?_eq_getElem ht] at hti
  refine ⟨i, hi, ?_⟩
  rw [Option.some.inj hti]
  simp [k1]

/-- **C55**, random paths (any regression, any draws, any number of cycles; no prescribed increment and
no noise): every component with bounds containing zero is finite, meets at least one of its two bounds
at all times, and both if the bounds are symmetric.  Missing: both bounds in general, which is false
(`C55_random_violated`). -/
theorem C55_random_partial (a : PathArgs) (hi : a.incNorm = none) (hn : a.noiseStd = none)
    (g : GenType) (nc : Option (ℤ × ℤ)) (d : RandomDraws) (noise : ℕ → List ℝ)
    (order : List SComp) (times : List ℝ) (p : List SState)
    (h : randomPath a g nc d noise = .ok (order, times, p)) (k : ℕ) (c : SComp) (lb ub : ℝ)
    (hk : a.order[k]? = some c) (hc : a.bounds.get? c = some (lb, ub)) (hl : lb ≤ 0) (hu : 0 ≤ ub) :
    ((∀ r ∈ p, ∃ x : ℝ, r[k]? = some (Fl.fin x) ∧ lb ≤ x) ∨
      ∀ r ∈ p, ∃ x : ℝ, r[k]? = some (Fl.fin x) ∧ x ≤ ub) ∧
    (lb = -ub → ∀ r ∈ p, ∃ x : ℝ, r[k]? = some (Fl.fin x) ∧ lb ≤ x ∧ x ≤ ub) := by
  obtain ⟨-, -, h⟩ := bind_ok h
  obtain ⟨nc', -, h⟩ := bind_ok h
  obtain ⟨col, h1, h2⟩ := path_component hi hn h hk hc
  obtain ⟨x, rfl, h3, h4, h5⟩ := randomHist_spec hl hu h1
  have h6 : ∀ r ∈ p, ∃ y ∈ x, r[k]? = some (Fl.fin y) := by
    intro r hr
    obtain ⟨i, hi, hr⟩ := h2 r hr
    have hix : i < x.length := h3 ▸ hi
    refine ⟨x[i], List.getElem_mem hix, ?_⟩
    rw [hr, List.getD_eq_getElem?_getD, List.getElem?_map, List.getElem?_eq_getElem hix]
    rfl
  constructor
  · rcases h4 with h4 | h4
    · left
      intro r hr
      obtain ⟨y, hy, hr⟩ := h6 r hr
      exact ⟨y, hr, h4 y hy⟩
    · right
      intro r hr
      obtain ⟨y, hy, hr⟩ := h6 r hr
      exact ⟨y, hr, h4 y hy⟩
  · intro hs r hr
    obtain ⟨y, hy, hr⟩ := h6 r hr
    exact ⟨y, hr, h5 hs y hy⟩

/-- **C55**, random paths, the rescaling of a history `h` of a component with bounds containing zero: it
multiplies by one factor in `[0, 1]`, leaves a history within the bounds unchanged, and brings a history
exceeding only one of the bounds within both. -/
theorem C55_random_scaling (lb ub : ℝ) (hl : lb ≤ 0) (hu : 0 ≤ ub) (h : List ℝ) (hne : h ≠ []) :
    ∃ f : ℝ, 0 ≤ f ∧ f ≤ 1 ∧ boundScaling lb ub h = .ok (h.map fun x => Fl.fin (f * x)) ∧
      ((∀ x ∈ h, lb ≤ x ∧ x ≤ ub) → f = 1) ∧
      (((∀ x ∈ h, lb ≤ x) ∨ ∀ x ∈ h, x ≤ ub) → ∀ x ∈ h, lb ≤ f * x ∧ f * x ≤ ub) := by
  obtain ⟨f, h1, h2, h3, -, h4, h5⟩ := boundScaling_spec hl hu hne
  exact ⟨f, h1, h2, h3, h5, fun h => h4 (by tauto)⟩

/-- The normal strain in direction 1 is between -3 and 1, the other components vanish. -/
def witnessBounds : KDict SComp (ℝ × ℝ) := [([1, 1], (-3, 1)), ([2, 2], (0, 0)), ([1, 2], (0, 0))]

/-- A path of five points without cycles. -/
def witnessArgs : PathArgs := ⟨2, true, witnessBounds, 5, 0, 1, none, none, 0⟩

/-- Four control points with normalised strains -1, 3/4, 3/4 after the initial one. -/
def witnessDraws : RandomDraws :=
  ⟨fun _ => 4, fun _ k => if k = 1 then -1 else 3 / 4, fun _ _ _ _ => 0⟩

theorem witness_hist : randomHist .polynomial (4, 4) witnessDraws 0 (-3) 1 5
    = .ok [.fin 0, .fin (-3), .fin (-69 / 52), .fin (9 / 8), .fin (6 / 13)] := by
  have hcl : ¬ npIsClose (-3) 1 := by
    unfold npIsClose
    norm_num [abs_of_neg]
  have hx : randomNormalized .polynomial witnessDraws 0 (-3) 1 5
      = .ok [1 / 2, -9 / 8, -7 / 32, 71 / 64, 3 / 4] := by
    have ht : npLinspace (-1) 1 4 = [-1, -1 / 3, 1 / 3, 1] := by
      norm_num [npLinspace, List.range_succ]
    have hq : npLinspace (-1) 1 5 = [-1, -1 / 2, 0, 1 / 2, 1] := by
      norm_num [npLinspace, List.range_succ]
    have h4 : ((4 : ℤ)).toNat = 4 := rfl
    simp only [randomNormalized, witnessDraws, raiseIf, regression, h4, ht, hq, bind, Except.bind, pure,
      Except.pure]
    norm_num [interpolant, Finset.sum_range_succ, Finset.prod_range_succ]
  have hd : denormalize (-3) 1 [1 / 2, -9 / 8, -7 / 32, 71 / 64, 3 / 4]
      = [0, -13 / 4, -23 / 16, 39 / 32, 1 / 2] := by
    norm_num [denormalize]
  have hs : scaleFactor (-3) 1 (-(13 / 4)) (39 / 32) = .fin (12 / 13) := by
    norm_num [scaleFactor, Fl.div, Fl.abs, abs_of_pos, abs_of_neg]
  simp only [randomHist, if_neg hcl, raiseIf, hx, hd, bind, Except.bind]
  simp only [boundScaling, npMax, npMin, List.map_cons, List.map_nil, List.foldl_cons, List.foldl_nil,
    bind, Except.bind, pure, Except.pure]
  norm_num [abs_of_pos, abs_of_neg, max_def, min_def, hs]

/-- **C55** fails for random paths: with four control points of a polynomial, the normal strain with
the bounds -3 and 1 reaches 9/8 at the fourth of five points, since the path is scaled for the lower
bound only. -/
theorem C55_random_violated :
    ∃ times p, randomPath witnessArgs .polynomial (some (4, 4)) witnessDraws (fun _ => [])
        = .ok (symOrder 2, times, p) ∧
      (∀ j k, -1 ≤ witnessDraws.strain j k ∧ witnessDraws.strain j k < 1) ∧
      ∃ r, p[3]? = some r ∧ r[0]? = some (Fl.fin (9 / 8)) ∧ (1 : ℝ) < 9 / 8 := by
  have hcl : npIsClose 0 0 := by simp [npIsClose]
  have h0 : ∀ j, randomHist .polynomial (4, 4) witnessDraws j 0 0 5
      = .ok [.fin 0, .fin 0, .fin 0, .fin 0, .fin 0] := by
    intro j
    simp [randomHist, hcl, boundScaling, npLinspace, List.range_succ, npMax, bind, Except.bind,
      pure, Except.pure]
  have hb : GoodBounds witnessArgs :=
    ⟨by intro k; simp [witnessArgs, witnessBounds, KDict.keys, PathArgs.order, symOrder],
      by intro e he; simp [witnessArgs, witnessBounds] at he; rcases he with rfl | rfl | rfl <;> norm_num⟩
  have hgen : generatePath witnessArgs (randomHist .polynomial (4, 4) witnessDraws) (fun _ => [])
      = .ok (symOrder 2, npLinspace 0 1 5, [[.fin 0, .fin 0, .fin 0], [.fin (-3), .fin 0, .fin 0],
        [.fin (-69 / 52), .fin 0, .fin 0], [.fin (9 / 8), .fin 0, .fin 0],
        [.fin (6 / 13), .fin 0, .fin 0]]) := by
    simp [generatePath, witnessArgs, witnessBounds, PathArgs.nForward, PathArgs.order, symOrder,
      KDict.get?, orRaise, witness_hist, h0, adjustPath, adjustFrom, normPart, noisePart, finishPath,
      bind, Except.bind, pure, Except.pure, List.range_succ]
  refine ⟨npLinspace 0 1 5, [[.fin 0, .fin 0, .fin 0], [.fin (-3), .fin 0, .fin 0],
        [.fin (-69 / 52), .fin 0, .fin 0], [.fin (9 / 8), .fin 0, .fin 0],
        [.fin (6 / 13), .fin 0, .fin 0]], ?_, ?_, [.fin (9 / 8), .fin 0, .fin 0], rfl, rfl, by norm_num⟩
  · simp [randomPath, checkBounds_ok.mpr hb, orRaise, hgen, bind, Except.bind]
  · intro j k
    simp only [witnessDraws]
    split_ifs <;> norm_num

/-- **C55** fails for bounds which do not contain zero: a proportional path starts at zero strain. -/
theorem C55_bounds_without_zero_violated (a : PathArgs) (hi : a.incNorm = none)
    (hn : a.noiseStd = none) (u : ℕ → ℝ) (noise : ℕ → List ℝ)
    (order : List SComp) (times : List ℝ) (p : List SState)
    (h : proportionalPath a u noise = .ok (order, times, p)) (k : ℕ) (c : SComp) (lb ub : ℝ)
    (hk : a.order[k]? = some c) (hc : a.bounds.get? c = some (lb, ub)) (hcl : ¬ npIsClose lb ub)
    (hlb : 0 < lb) (ht : 0 < branchPoints a.nTime a.nCycle) :
    ∃ r ∈ p, ∃ x : ℝ, r[k]? = some (Fl.fin x) ∧ x < lb := by
  obtain ⟨⟨⟩, hchk, h⟩ := bind_ok h
  obtain ⟨cols, path, h1, h2, h3, h4, h5, -, -⟩ := generatePath_ok h
  obtain ⟨g1, g2, g3, -⟩ := generatePath_shape h1 h4 h5
  rw [adjustPath_none hi hn] at h3
  cases h3
  obtain ⟨b, e, k1, k2⟩ := propTrial h2
  obtain ⟨r, hr, hst⟩ := k1 0 ht
  have hkl : k < a.order.length := by
    by_contra hcon
    rw [List.getElem?_eq_none (by omega)] at hk
    cases hk
  refine ⟨r, List.mem_of_getElem? ((g2 0 ht).trans hr), _, (isState_iff.mp hst).2 k hkl, ?_⟩
  rw [(k2 k c lb ub hk hc).1, if_neg hcl]
  simpa using hlb

/-- The initial strain of a random polynomial path vanishes: the history before the rescaling starts
with zero, whatever is drawn. -/
theorem C54_random_start (d : RandomDraws) (j : ℕ) (lb ub : ℝ) (hcl : ¬ npIsClose lb ub) (n : ℕ)
    (hn : 0 < n) (x : List ℝ) (h : randomNormalized .polynomial d j lb ub n = .ok x) :
    (denormalize lb ub x)[0]? = some 0 := by
  obtain ⟨⟨⟩, h1, h⟩ := bind_ok h
  obtain ⟨⟨⟩, h2, h⟩ := bind_ok h
  rw [raiseIf_ok] at h1 h2
  have hpos : 0 < (d.nControl j).toNat := by omega
  simp only [regression, bind, Except.bind, pure, Except.pure] at h
  cases h
  set m := (d.nControl j).toNat with hm
  have ht : ∀ k < m, (npLinspace (-1) 1 m).getD k 0 = -1 + k * ((1 - -1) / ((m : ℝ) - 1)) := by
    intro k hk
    rw [List.getD_eq_getElem?_getD, getElem?_npLinspace _ _ _ _ hk]
    rfl
  have h0 : (npLinspace (-1) 1 m).getD 0 0 = -1 := by rw [ht 0 hpos]; simp
  have hnode : ∀ k, k < m → k ≠ 0 → (npLinspace (-1) 1 m).getD k 0 ≠ (npLinspace (-1) 1 m).getD 0 0 := by
    intro k hk hk0
    rw [h0, ht k hk]
    have hm1 : (0 : ℝ) < (m : ℝ) - 1 := by
      have : (1 : ℝ) < m := by exact_mod_cast (show 1 < m by omega)
      linarith
    have hk1 : (0 : ℝ) < k := by exact_mod_cast Nat.pos_of_ne_zero hk0
    have : (0 : ℝ) < k * ((1 - -1) / ((m : ℝ) - 1)) := by
      apply mul_pos hk1; apply div_pos _ hm1; norm_num
    linarith
  have hi := interpolant_first hpos (fun k => (npLinspace (-1) 1 m).getD k 0)
    (fun k => if k = 0 then -(ub + lb) / (ub - lb) else d.strain j k) hnode
  simp only [h0, if_true] at hi
  simp only [denormalize, List.getElem?_map, getElem?_npLinspace _ _ _ _ hn, Option.map_some]
  have hz : (-1 : ℝ) + ((0 : ℕ) : ℝ) * ((1 - -1) / ((n : ℝ) - 1)) = -1 := by simp
  rw [hz]
  have h3 := not_close_ne hcl
  congr 1
  rw [show interpolant m (fun k => (npLinspace (-1) 1 m).getD k 0)
    (fun k => if k = 0 then -(ub + lb) / (ub - lb) else d.strain j k) (-1) = _ from hi]
  field_simp
  ring

/-! ## C56 -/

theorem normStep_of {a : PathArgs} (hi : a.infinitesimal = true) (hd : a.nDim = 2 ∨ a.nDim = 3)
    {s : ℝ} (hs : a.incNorm = some s) (hs0 : 0 < s) {x y z : SState} {w : ℕ → ℝ}
    (hx : (∃ v, IsState a.order x v) ∨ IsNanState a.order x) (hy : IsState a.order y w)
    (h : normPart a x y = .ok z) : NormStep a.order s x w z := by
  rcases hx with ⟨v, hv⟩ | hx
  · obtain ⟨h1, h2⟩ := normPart_fin hi hd hs hs0 hv hy
    by_cases h0 : strainDist a.order w v = 0
    · obtain ⟨r, h3, h4⟩ := h1 h0
      rw [h] at h3; cases h3
      exact .inr ⟨v, hv, .inl ⟨h0, h4⟩⟩
    · obtain ⟨r, h3, h4⟩ := h2 h0
      rw [h] at h3; cases h3
      exact .inr ⟨v, hv, .inr ⟨h0, h4⟩⟩
  · obtain ⟨r, h3, h4⟩ := normPart_nan hi hd hs hs0 hx hy
    rw [h] at h3; cases h3
    exact .inl ⟨hx, h4⟩

/-- **C56**, proportional paths. For every positive norm and all draws the generator succeeds, and on
the loading branch each state follows from the previous one and the unconstrained path (the path of the
same call without prescribed norm). -/
theorem C56_proportional (a : PathArgs) (hb : GoodBounds a)
    (hc : ¬ (0 < a.nCycle ∧ a.nTime < 2 * a.nCycle + 1)) (hinf : a.infinitesimal = true)
    (hd : a.nDim = 2 ∨ a.nDim = 3) (s : ℝ) (hs : a.incNorm = some s) (hs0 : 0 < s)
    (hn : a.noiseStd = none) (u : ℕ → ℝ) (noise : ℕ → List ℝ) :
    ∃ times p q, proportionalPath a u noise = .ok (a.order, times, p) ∧
      proportionalPath { a with incNorm := none } u noise = .ok (a.order, times, q) ∧
      p[0]? = q[0]? ∧
      ∃ b e : ℕ → ℝ, (∀ i < branchPoints a.nTime a.nCycle, ∃ y, q[i]? = some y ∧
          IsState a.order y fun k => b k + i * e k) ∧
        ∀ i, i + 1 < branchPoints a.nTime a.nCycle →
          ∃ x z, p[i]? = some x ∧ p[i + 1]? = some z ∧
            NormStep a.order s x (fun k => b k + (i + 1 : ℕ) * e k) z := by
  have hord : ({ a with incNorm := none } : PathArgs).order = a.order := rfl
  obtain ⟨q', hq'⟩ := C54_proportional_total { a with incNorm := none } ⟨hb.keys, hb.sorted⟩ hc rfl hn
    u noise
  have hfin : ∀ cols : List (List Fl),
      List.Forall₂ (fun c col => ∃ b, a.bounds.get? c.1 = some b ∧
        (.ok ((propHist (u c.2) b.1 b.2 (branchPoints a.nTime a.nCycle)).map Fl.fin) : Py (List Fl))
          = .ok col) a.order.zipIdx cols →
      ∀ r ∈ trialStates cols (branchPoints a.nTime a.nCycle), ∃ v, IsState a.order r v := by
    intro cols hcols r hr
    obtain ⟨b, e, k1, -⟩ := propTrial hcols
    obtain ⟨i, hi, rfl⟩ := List.mem_iff_getElem.mp hr
    obtain ⟨r', hr', hst⟩ := k1 i (by simpa [trialStates] using hi)
    rw [List.getElem?_eq_getElem hi] at hr'
    cases hr'
    exact ⟨_, hst⟩
  have hadj : ∀ cols : List (List Fl),
      List.Forall₂ (fun c col => ∃ b, a.bounds.get? c.1 = some b ∧
        (.ok ((propHist (u c.2) b.1 b.2 (branchPoints a.nTime a.nCycle)).map Fl.fin) : Py (List Fl))
          = .ok col) a.order.zipIdx cols →
      ∃ p, adjustPath a noise (trialStates cols (branchPoints a.nTime a.nCycle)) = .ok p ∧
        ∀ r ∈ p, (∃ v, IsState a.order r v) ∨ IsNanState a.order r := by
    intro cols hcols
    have hf := hfin cols hcols
    cases htr : trialStates cols (branchPoints a.nTime a.nCycle) with
    | nil => exact ⟨[], rfl, by simp⟩
    | cons r l =>
      rw [htr] at hf
      obtain ⟨v, hv⟩ := hf r (by simp)
      obtain ⟨p, h1, h2⟩ := adjustFrom_ok noise hinf hd hs hs0 hn l
        (fun r' hr' => hf r' (by simp [hr'])) 1 (.inl ⟨v, hv⟩)
      refine ⟨r :: p, by simp [adjustPath, h1, bind, Except.bind, pure, Except.pure], ?_⟩
      intro r' hr'
      rcases List.mem_cons.mp hr' with rfl | h
      · exact .inl ⟨v, hv⟩
      · exact h2 r' h
  obtain ⟨res, hres⟩ := generatePath_total (noise := noise) hb hc
    (hist := fun j lb ub n => .ok ((propHist (u j) lb ub n).map .fin))
    (fun k lb ub _ => ⟨_, rfl⟩) fun cols hcols => (hadj cols hcols).imp fun _ h => h.1
  obtain ⟨o, tm, p⟩ := res
  obtain ⟨o', tm', q⟩ := q'
  obtain ⟨⟨⟩, -, hq⟩ := bind_ok hq'
  obtain ⟨cols, path, h1, h2, h3, h4, h5, h6, h7⟩ := generatePath_ok hres
  obtain ⟨cols', path', g1, g2, g3, g4, g5, g6, g7⟩ := generatePath_ok hq
  simp only at h6 h7 g6 g7
  obtain rfl : o = a.order := h6
  obtain rfl : o' = a.order := g6
  subst h7 g7
  obtain rfl : cols' = cols := by
    apply List.ext_getElem?
    intro k
    by_cases hk : k < a.order.length
    · obtain ⟨c1, k1, b1, k2, k3⟩ := forall₂_getElem? h2 (k := k) (x := (a.order[k], k)) (by simp [hk])
      obtain ⟨c2, l1, b2, l2, l3⟩ := forall₂_getElem? g2 (k := k) (x := (a.order[k], k))
        (by simp [hk, hord])
      simp only at k2 l2
      rw [k2] at l2
      cases l2; cases k3; cases l3
      rw [k1, l1]
    · rw [List.getElem?_eq_none, List.getElem?_eq_none]
      · rw [forall₂_length h2]; simp; omega
      · rw [forall₂_length g2]; simp [hord]; omega
  rw [adjustPath_none (a := { a with incNorm := none }) rfl hn] at g3
  obtain rfl := Except.ok.inj g3
  obtain ⟨-, s2, -, -⟩ := generatePath_shape h1 h4 h5
  obtain ⟨-, t2, -, -⟩ := generatePath_shape g1 g4 g5
  simp only at t2
  obtain ⟨b, e, k1, -⟩ := propTrial h2
  obtain ⟨p', hp', hpst⟩ := hadj _ h2
  rw [h3] at hp'
  cases hp'
  refine ⟨_, p, q, ?_, hq', ?_, b, e, fun i hi => ?_, fun i hi => ?_⟩
  · simp [proportionalPath, checkBounds_ok.mpr hb, hres, bind, Except.bind]
  · by_cases hF : 0 < branchPoints a.nTime a.nCycle
    · rw [s2 0 hF, t2 0 hF]
      exact adjust_head h3
    · have hnc : a.nCycle = 0 := by
        by_contra hcon
        simp [branchPoints, hcon] at hF
      have hnt : a.nTime = 0 := by simpa [branchPoints, hnc] using hF
      have e1 := (cyclicShape hres).length
      have e2 := (cyclicShape hq).length
      simp only [hnt] at e1 e2
      rw [List.getElem?_eq_none (by omega), List.getElem?_eq_none (by omega)]
  · obtain ⟨r, hr, hst⟩ := k1 i hi
    exact ⟨r, (t2 i hi).trans hr, hst⟩
  · obtain ⟨x, y, z, m1, m2, m3, m4⟩ := adjust_step hn h3 (i := i)
      (by simpa [trialStates] using hi)
    obtain ⟨r, hr, hst⟩ := k1 (i + 1) hi
    rw [m2] at hr
    cases hr
    exact ⟨x, z, (s2 i (by omega)).trans m1, (s2 (i + 1) hi).trans m3,
      normStep_of hinf hd hs hs0 (hpst x (List.mem_of_getElem? m1)) hst m4⟩

/-- **C56**, random paths with bounds containing zero: whenever the generator succeeds, so does the call
without prescribed norm, and on the loading branch each state follows from the previous one and the
unconstrained path. -/
theorem C56_random (a : PathArgs) (hinf : a.infinitesimal = true) (hd : a.nDim = 2 ∨ a.nDim = 3)
    (s : ℝ) (hs : a.incNorm = some s) (hs0 : 0 < s) (hn : a.noiseStd = none)
    (hz : ∀ e ∈ a.bounds, e.2.1 ≤ 0 ∧ 0 ≤ e.2.2) (g : GenType) (nc : Option (ℤ × ℤ))
    (d : RandomDraws) (noise : ℕ → List ℝ) (order : List SComp) (times : List ℝ) (p : List SState)
    (h : randomPath a g nc d noise = .ok (order, times, p)) :
    ∃ q, randomPath { a with incNorm := none } g nc d noise = .ok (order, times, q) ∧
      ∀ i, i + 1 < branchPoints a.nTime a.nCycle →
        ∃ x y z w, p[i]? = some x ∧ q[i + 1]? = some y ∧ p[i + 1]? = some z ∧ IsState a.order y w ∧
          NormStep a.order s x w z := by
  obtain ⟨⟨⟩, hchk, h⟩ := bind_ok h
  obtain ⟨nc', hnc, h⟩ := bind_ok h
  obtain ⟨cols, path, h1, h2, h3, h4, h5, h6, h7⟩ := generatePath_ok h
  obtain ⟨-, s2, -, -⟩ := generatePath_shape h1 h4 h5
  simp only at h6 h7
  subst h6 h7
  set F := branchPoints a.nTime a.nCycle with hF
  -- the unconstrained states are finite
  have hfin : ∀ r ∈ trialStates cols F, ∃ v, IsState a.order r v := by
    intro r hr
    obtain ⟨i, hi, rfl⟩ := List.mem_iff_getElem.mp hr
    have hiF : i < F := by simpa [trialStates] using hi
    have hcol : ∀ k, k < a.order.length → ∃ x : ℝ, (trialStates cols F)[i][k]? = some (Fl.fin x) := by
      intro k hk
      obtain ⟨col, k1, b, k2, k3⟩ := forall₂_getElem? h2 (k := k) (x := (a.order[k], k)) (by simp [hk])
      obtain ⟨z1, z2⟩ := hz _ (KDict.get?_mem k2)
      obtain ⟨x, rfl, hx, -⟩ := randomHist_spec z1 z2 k3
      have hix : i < x.length := by rw [hx]; exact hiF
      refine ⟨x[i], ?_⟩
      have ht : (trialStates cols F)[i] = cols.map fun col => col.getD i .nan := by
        have := trial_getElem? cols hiF
        rw [List.getElem?_eq_getElem hi] at this
        exact Option.some.inj this
      rw [ht, List.getElem?_map, k1]
      simp [List.getD_eq_getElem?_getD, hix]
    choose! v hv using hcol
    refine ⟨v, isState_iff.mpr ⟨?_, hv⟩⟩
    have ht : (trialStates cols F)[i] = cols.map fun col => col.getD i .nan := by
      have := trial_getElem? cols hiF
      rw [List.getElem?_eq_getElem hi] at this
      exact Option.some.inj this
    rw [ht]
    simp [forall₂_length h2]
  -- the call without prescribed norm
  obtain ⟨q, hq⟩ := finishPath_ok (a := a) (path := trialStates cols F) h1 (by simp [trialStates, hF])
  have hgen : generatePath { a with incNorm := none } (randomHist g nc' d) noise
      = .ok (a.order, npLinspace a.timeInit a.timeEnd a.nTime, q) := by
    have hmap : (a.order.zipIdx.mapM fun c => do
        let b ← orRaise (a.bounds.get? c.1) .keyError
        randomHist g nc' d c.2 b.1 b.2 F) = .ok cols := by
      clear * - h2
      revert h2
      generalize a.order.zipIdx = l
      intro h2
      induction h2 with
      | nil => rfl
      | cons hx _ ih =>
        obtain ⟨b, hb1, hb2⟩ := hx
        rw [List.mapM_cons, ih]
        simp [hb1, orRaise, hb2, bind, Except.bind, pure, Except.pure]
    have hnf : ({ a with incNorm := none } : PathArgs).nForward = .ok F := by
      rw [nForward_eq, if_neg h1]
    unfold generatePath
    rw [hnf]
    show ((a.order.zipIdx.mapM fun c => do
        let b ← orRaise (a.bounds.get? c.1) .keyError
        randomHist g nc' d c.2 b.1 b.2 F) >>= _) = _
    rw [hmap]
    show (adjustPath { a with incNorm := none } noise (trialStates cols F) >>= _) = _
    rw [adjustPath_none (a := { a with incNorm := none }) rfl hn]
    show (finishPath a.nTime a.nCycle (trialStates cols F) >>= _) = _
    rw [hq]
    rfl
  obtain ⟨-, t2, -, -⟩ := generatePath_shape h1 (by simp [trialStates, hF]) hq
  -- the states are finite or NaN
  have hpst : ∀ r ∈ path, (∃ v, IsState a.order r v) ∨ IsNanState a.order r := by
    cases htr : trialStates cols F with
    | nil => rw [htr] at h3; cases h3; simp
    | cons r l =>
      rw [htr] at hfin h3
      obtain ⟨v, hv⟩ := hfin r (by simp)
      obtain ⟨p', k1, k2⟩ := adjustFrom_ok noise hinf hd hs hs0 hn l
        (fun r' hr' => hfin r' (by simp [hr'])) 1 (.inl ⟨v, hv⟩)
      have : path = r :: p' := by
        simp only [adjustPath, k1, bind, Except.bind] at h3
        exact (Except.ok.inj h3).symm
      subst this
      intro r' hr'
      rcases List.mem_cons.mp hr' with rfl | h
      · exact .inl ⟨v, hv⟩
      · exact k2 r' h
  refine ⟨q, ?_, fun i hi => ?_⟩
  · have hchk' : ({ a with incNorm := none } : PathArgs).checkBounds = .ok () := hchk
    simp [randomPath, hchk', hnc, hgen, bind, Except.bind]
  · obtain ⟨x, y, z, m1, m2, m3, m4⟩ := adjust_step hn h3 (i := i) (by simpa [trialStates] using hi)
    obtain ⟨w, hw⟩ := hfin y (List.mem_of_getElem? m2)
    exact ⟨x, y, z, w, (s2 i (by omega)).trans m1, (t2 (i + 1) hi).trans m2,
      (s2 (i + 1) hi).trans m3, hw, normStep_of hinf hd hs hs0 (hpst x (List.mem_of_getElem? m1)) hw m4⟩

/-- **C56**: consecutive finite states are at distance exactly `s` (in the norm of the strain tensor).
With `C56_proportional` and `C56_random` this holds on the whole loading branch. -/
theorem C56_norm (order : List SComp) (s : ℝ) (hs : 0 < s) (x z : SState) (w v v' : ℕ → ℝ)
    (h : NormStep order s x w z) (ho : order ≠ []) (hx : IsState order x v) (hz : IsState order z v') :
    strainDist order v' v = s := by
  have hne : ∀ {r : SState} {y : ℕ → ℝ}, IsState order r y → ¬ IsNanState order r := by
    intro r y h1 h2
    have h3 := (isState_iff.mp h1).2 0 (List.length_pos_iff.mpr ho)
    rw [h2, List.getElem?_replicate, if_pos (List.length_pos_iff.mpr ho)] at h3
    simp at h3
  rcases h with ⟨h1, -⟩ | ⟨v0, h1, ⟨-, h2⟩ | ⟨h2, h3⟩⟩
  · exact absurd h1 (hne hx)
  · exact absurd h2 (hne hz)
  · have e1 := isState_unique hx h1
    have e2 := isState_unique hz h3
    rw [strainDist_smul order w v0 v' v (s / strainDist order w v0), abs_of_nonneg
      (div_nonneg hs.le (strainDist_nonneg _ _ _)), div_mul_cancel₀ _ h2]
    intro k hk
    rw [e1 k hk, e2 k hk]
    ring

/-- The first two states of a proportional path with prescribed norm: the first step of length `s` goes
along the direction of the unconstrained path. -/
theorem prop_first {order : List SComp} {s : ℝ} {b e : ℕ → ℝ} {x z : SState}
    (hx : IsState order x fun k => b k + (0 : ℕ) * e k) (ho : order ≠ [])
    (h0 : strainDist order (fun k => b k + (1 : ℕ) * e k) (fun k => b k + (0 : ℕ) * e k) ≠ 0)
    (hst : NormStep order s x (fun k => b k + (1 : ℕ) * e k) z) :
    IsState order z fun k => b k + s * (e k /
      strainDist order (fun k => b k + (1 : ℕ) * e k) (fun k => b k + (0 : ℕ) * e k)) := by
  have hlen := List.length_pos_iff.mpr ho
  rcases hst with ⟨h1, -⟩ | ⟨v0, h1, h2⟩
  · have h3 := (isState_iff.mp hx).2 0 hlen
    rw [h1, List.getElem?_replicate, if_pos hlen] at h3
    simp at h3
  · have e1 := isState_unique h1 hx
    have e2 : strainDist order (fun k => b k + (1 : ℕ) * e k) v0
        = strainDist order (fun k => b k + (1 : ℕ) * e k) (fun k => b k + (0 : ℕ) * e k) := by
      have := strainDist_smul order (fun k => b k + (1 : ℕ) * e k) (fun k => b k + (0 : ℕ) * e k)
        (fun k => b k + (1 : ℕ) * e k) v0 1 (by intro k hk; rw [e1 k hk]; ring)
      simpa using this
    rcases h2 with ⟨h2, -⟩ | ⟨-, h2⟩
    · exact absurd (e2 ▸ h2) h0
    · refine isState_congr h2 fun k hk => ?_
      rw [e2, e1 k hk]
      push_cast
      ring_nf

/-- **C56**, along a proportional path with prescribed norm `s`, whose unconstrained steps have length
`h`: as long as `j * s < (j + 1) * h`, the path is at `j * s` along the direction of the unconstrained
path. In particular it is monotone if `s ≤ h`. -/
theorem C56_monotone (order : List SComp) (ho : order ≠ []) (s h : ℝ) (hh : 0 < h)
    (b e : ℕ → ℝ)
    (hstep : strainDist order (fun k => b k + (1 : ℕ) * e k) (fun k => b k + (0 : ℕ) * e k) = h)
    (p : List SState) (n : ℕ)
    (h0 : ∀ r, p[0]? = some r → IsState order r fun k => b k + (0 : ℕ) * e k)
    (hp : ∀ i, i + 1 < n → ∃ x z, p[i]? = some x ∧ p[i + 1]? = some z ∧
      NormStep order s x (fun k => b k + (i + 1 : ℕ) * e k) z)
    (i : ℕ) (hi : i < n) (hfar : ∀ j < i, j * s < (j + 1) * h) (r : SState) (hr : p[i]? = some r) :
    IsState order r fun k => b k + i * s * (e k / h) := by
  have hlen := List.length_pos_iff.mpr ho
  induction i generalizing r with
  | zero => exact isState_congr (h0 r hr) fun k _ => by simp
  | succ i ih =>
    obtain ⟨x, z, h1, h2, h3⟩ := hp i hi
    rw [hr] at h2
    cases h2
    have hx := ih (by omega) (fun j hj => hfar j (by omega)) x h1
    have hlt := hfar i (by omega)
    rcases h3 with ⟨h4, -⟩ | ⟨v0, h4, h5⟩
    · have h3 := (isState_iff.mp hx).2 0 hlen
      rw [h4, List.getElem?_replicate, if_pos hlen] at h3
      simp at h3
    · have e1 := isState_unique h4 hx
      have e2 : strainDist order (fun k => b k + (i + 1 : ℕ) * e k) v0 = (i + 1) * h - i * s := by
        have := strainDist_smul order (fun k => b k + (1 : ℕ) * e k) (fun k => b k + (0 : ℕ) * e k)
          (fun k => b k + (i + 1 : ℕ) * e k) v0 (((i + 1) * h - i * s) / h) (by
            intro k hk
            rw [e1 k hk]
            push_cast
            field_simp
            ring)
        rw [this, hstep, abs_of_nonneg (div_nonneg (by linarith) hh.le), div_mul_cancel₀ _ hh.ne']
      rcases h5 with ⟨h5, -⟩ | ⟨-, h5⟩
      · rw [e2] at h5
        exact absurd h5 (by linarith)
      · refine isState_congr h5 fun k hk => ?_
        have hD : (i + 1) * h - i * s ≠ 0 := by linarith
        rw [e2, e1 k hk]
        push_cast
        have : ((b k + (i + 1) * e k - (b k + i * s * (e k / h))) / ((i + 1) * h - i * s)) = e k / h := by
          field_simp
          ring
        rw [this]
        ring

/-- **C56** (finding). If the unconstrained steps of a proportional path are shorter than half of the
prescribed norm, the path reverses its direction: its third state is the initial one. -/
theorem C56_reversal_violated (a : PathArgs) (hb : GoodBounds a)
    (hc : ¬ (0 < a.nCycle ∧ a.nTime < 2 * a.nCycle + 1)) (hi : a.infinitesimal = true)
    (hd : a.nDim = 2 ∨ a.nDim = 3) (s : ℝ) (hs : a.incNorm = some s) (hs0 : 0 < s)
    (hn : a.noiseStd = none) (u : ℕ → ℝ) (noise : ℕ → List ℝ)
    (hF : 3 ≤ branchPoints a.nTime a.nCycle) :
    ∃ times p q v w, proportionalPath a u noise = .ok (a.order, times, p) ∧
      proportionalPath { a with incNorm := none } u noise = .ok (a.order, times, q) ∧
      (∃ r, q[0]? = some r ∧ IsState a.order r v) ∧ (∃ r, q[1]? = some r ∧ IsState a.order r w) ∧
      (strainDist a.order w v ≠ 0 → 2 * strainDist a.order w v < s → p[2]? = p[0]?) ∧
      (strainDist a.order w v ≠ 0 → 2 * strainDist a.order w v = s →
        ∃ r, p[2]? = some r ∧ IsNanState a.order r) := by
  obtain ⟨times, p, q, h1, h2, h3, b, e, h4, h5⟩ := C56_proportional a hb hc hi hd s hs hs0 hn u noise
  have ho : a.order ≠ [] := by
    rw [order_of hi]; unfold symOrder; split_ifs <;> simp
  have hlen := List.length_pos_iff.mpr ho
  obtain ⟨r0, q0, q0'⟩ := h4 0 (by omega)
  obtain ⟨r1, q1, q1'⟩ := h4 1 (by omega)
  obtain ⟨x0, x1, p0, p1, n1⟩ := h5 0 (by omega)
  obtain ⟨x1', x2, p1', p2, n2⟩ := h5 1 (by omega)
  rw [p1] at p1'
  cases p1'
  rw [p0, q0] at h3
  cases h3
  refine ⟨times, p, q, _, _, h1, h2, ⟨r0, q0, q0'⟩, ⟨r1, q1, q1'⟩, ?_, ?_⟩
  · intro hne hlt
    have hx1 := prop_first q0' ho hne n1
    set h := strainDist a.order (fun k => b k + (1 : ℕ) * e k) (fun k => b k + (0 : ℕ) * e k) with hh
    have hpos : 0 < h := lt_of_le_of_ne (strainDist_nonneg _ _ _) (Ne.symm hne)
    rcases n2 with ⟨h4, -⟩ | ⟨v0, h4, h5⟩
    · have h3 := (isState_iff.mp hx1).2 0 hlen
      rw [h4, List.getElem?_replicate, if_pos hlen] at h3
      simp at h3
    · have e1 := isState_unique h4 hx1
      have e2 : strainDist a.order (fun k => b k + (1 + 1 : ℕ) * e k) v0 = s - 2 * h := by
        have := strainDist_smul a.order (fun k => b k + (1 : ℕ) * e k) (fun k => b k + (0 : ℕ) * e k)
          (fun k => b k + (1 + 1 : ℕ) * e k) v0 ((2 * h - s) / h) (by
            intro k hk
            rw [e1 k hk]
            push_cast
            field_simp
            ring)
        rw [this, ← hh, abs_of_nonpos (div_nonpos_of_nonpos_of_nonneg (by linarith) hpos.le), neg_mul,
          div_mul_cancel₀ _ hpos.ne']
        ring
      rcases h5 with ⟨h5, -⟩ | ⟨-, h5⟩
      · rw [e2] at h5
        exact absurd h5 (by linarith)
      · rw [p2, p0]
        congr 1
        have : IsState a.order x2 fun k => b k + (0 : ℕ) * e k := by
          refine isState_congr h5 fun k hk => ?_
          have hD : s - 2 * h ≠ 0 := by linarith
          rw [e2, e1 k hk]
          push_cast
          have : (b k + (1 + 1) * e k - (b k + s * (e k / h))) / (s - 2 * h) = -(e k / h) := by
            rw [div_eq_iff hD]
            field_simp
            ring
          norm_num at this ⊢
          rw [this]
          ring
        rw [show x2 = _ from this, show r0 = _ from q0']
  · intro hne heq
    have hx1 := prop_first q0' ho hne n1
    set h := strainDist a.order (fun k => b k + (1 : ℕ) * e k) (fun k => b k + (0 : ℕ) * e k) with hh
    refine ⟨x2, p2, ?_⟩
    rcases n2 with ⟨-, h4⟩ | ⟨v0, h4, h5⟩
    · exact h4
    · have e1 := isState_unique h4 hx1
      have e2 : strainDist a.order (fun k => b k + (1 + 1 : ℕ) * e k) v0 = 0 := by
        have := strainDist_smul a.order (fun k => b k + (1 : ℕ) * e k) (fun k => b k + (0 : ℕ) * e k)
          (fun k => b k + (1 + 1 : ℕ) * e k) v0 0 (by
            intro k hk
            rw [e1 k hk, ← heq]
            push_cast
            field_simp
            ring)
        simpa using this
      rcases h5 with ⟨-, h5⟩ | ⟨h5, -⟩
      · exact h5
      · exact absurd e2 h5

/-- The errors of a prescribed norm: a norm which is not positive, and the finite strain formulation. -/
theorem C56_errors (a : PathArgs) (x y : SState) (s : ℝ) (hs : a.incNorm = some s) :
    (s ≤ 0 → normPart a x y = .error .runtimeError) ∧
    (a.infinitesimal = false → a.nDim = 2 ∨ a.nDim = 3 → x.length = a.order.length →
      y.length = a.order.length → normPart a x y = .error .runtimeError) := by
  constructor
  · intro h
    simp [normPart, hs, raiseIf, h, bind, Except.bind]
  · intro hf hd hx hy
    by_cases h : s ≤ 0
    · simp [normPart, hs, raiseIf, h, bind, Except.bind]
    · have hbuild : ∀ r : SState, r.length = a.order.length →
          ∃ S, buildStrain a.nDim r a.order false = .ok S := by
        intro r hr
        simp only [PathArgs.order, hf] at hr ⊢
        rcases hd with hd | hd
        · rw [hd] at hr ⊢
          match r, hr with
          | [r1, r2, r3, r4], _ =>
            simp [buildStrain, nsymOrder, raiseIf, List.zipIdx, buildStep, orRaise, bind, Except.bind,
              pure, Except.pure]
        · rw [hd] at hr ⊢
          match r, hr with
          | [r1, r2, r3, r4, r5, r6, r7, r8, r9], _ =>
            simp [buildStrain, nsymOrder, raiseIf, List.zipIdx, buildStep, orRaise, bind, Except.bind,
              pure, Except.pure]
      obtain ⟨S, hS⟩ := hbuild y hy
      obtain ⟨R, hR⟩ := hbuild x hx
      simp [normPart, hs, raiseIf, h, hf, hS, hR, bind, Except.bind]

/-- Arguments meeting the hypotheses of the theorems above: eleven points and two cycles, strains
within ±1 %. -/
example : ∃ a : PathArgs, GoodBounds a ∧ ¬ (0 < a.nCycle ∧ a.nTime < 2 * a.nCycle + 1) ∧
    0 < a.nCycle ∧ a.infinitesimal = true ∧ a.nDim = 2 ∧ a.incNorm = some 1 ∧ a.noiseStd = none ∧
    3 ≤ branchPoints a.nTime a.nCycle ∧ (∀ e ∈ a.bounds, e.2.1 ≤ 0 ∧ 0 ≤ e.2.2) ∧
    ∀ e ∈ a.bounds, ¬ npIsClose e.2.1 e.2.2 := by
  have key : ∀ e ∈ ([([1, 1], (-1 / 100, 1 / 100)), ([2, 2], (-1 / 100, 1 / 100)),
      ([1, 2], (-1 / 100, 1 / 100))] : KDict SComp (ℝ × ℝ)), e.2 = (-1 / 100, 1 / 100) := by
    intro e he
    simp only [List.mem_cons, List.not_mem_nil, or_false] at he
    rcases he with rfl | rfl | rfl <;> rfl
  refine ⟨⟨2, true, [([1, 1], (-1 / 100, 1 / 100)), ([2, 2], (-1 / 100, 1 / 100)),
      ([1, 2], (-1 / 100, 1 / 100))], 11, 0, 1, some 1, none, 2⟩, ⟨?_, ?_⟩, ?_, ?_, rfl, rfl, rfl, rfl,
      ?_, ?_, ?_⟩
  · intro k; simp [KDict.keys, PathArgs.order, symOrder]
  · intro e he; rw [key e he]; norm_num
  · simp
  · simp
  · simp [branchPoints]
  · intro e he; rw [key e he]; norm_num
  · intro e he
    rw [key e he]
    unfold npIsClose
    norm_num [abs_of_neg, abs_of_pos]

end

end Hooke
