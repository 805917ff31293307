import Mathlib.Tactic
import Verif.Lemmas.Py
import Verif.Spec.StrainPath

namespace Hooke

noncomputable section

/-! ### `mapM` -/

theorem mapM_forall₂ {α β : Type} {f : α → Py β} {l : List α} {r : List β} (h : l.mapM f = .ok r) :
    List.Forall₂ (fun x y => f x = .ok y) l r := by
  induction l generalizing r with
  | nil => simp [pure, Except.pure] at h; subst h; exact .nil
  | cons x l ih =>
    rw [List.mapM_cons] at h
    obtain ⟨y, hy, h⟩ := bind_ok h
    obtain ⟨ys, hys, h⟩ := bind_ok h
    cases h
    exact .cons hy (ih hys)

theorem mapM_of_forall {α β : Type} {f : α → Py β} {g : α → β} {l : List α}
    (h : ∀ x ∈ l, f x = .ok (g x)) : l.mapM f = .ok (l.map g) := by
  induction l with
  | nil => rfl
  | cons x l ih =>
    rw [List.mapM_cons, h x (by simp), ih fun y hy => h y (by simp [hy])]
    rfl

/-! ### Cycles -/

theorem length_backward {α : Type} (l : List α) : (backward l).length = l.length - 2 := by
  simp [backward]; omega

theorem getElem?_cycle {α : Type} (l : List α) (hl : 2 ≤ l.length) (r : ℕ)
    (hr : r < 2 * (l.length - 1)) :
    (l ++ backward l)[r]? = if r < l.length then l[r]? else l[2 * (l.length - 1) - r]? := by
  split_ifs with h
  · rw [List.getElem?_append_left h]
  · rw [List.getElem?_append_right (by omega), backward, List.getElem?_reverse (by simp; omega)]
    rw [List.getElem?_dropLast, if_pos (by simp; omega), List.getElem?_drop]
    congr 1
    simp
    omega

theorem foldl_append_const {α : Type} (b c : List α) (n : ℕ) :
    (List.range n).foldl (fun acc _ => acc ++ b) c = c ++ (List.replicate n b).flatten := by
  induction n generalizing c with
  | zero => simp
  | succ n ih => rw [List.range_succ, List.foldl_append, ih]; simp [List.replicate_succ']

theorem getElem?_replicate_flatten {α : Type} (b : List α) (n t : ℕ) (ht : t < n * b.length) :
    (List.replicate n b).flatten[t]? = b[t % b.length]? := by
  induction n generalizing t with
  | zero => simp at ht
  | succ n ih =>
    rw [List.replicate_succ, List.flatten_cons]
    by_cases h : t < b.length
    · rw [List.getElem?_append_left h, Nat.mod_eq_of_lt h]
    · rw [List.getElem?_append_right (by omega), ih _ (by rw [Nat.succ_mul] at ht; omega),
        Nat.mod_eq_sub_mod (a := t) (by omega)]

theorem cyclicPath_ok {α : Type} {n c : ℕ} {l : List α} (hc : 0 < c) (hl : 2 ≤ l.length)
    (hn : 2 * c * (l.length - 1) + 1 ≤ n) :
    ∃ p, cyclicPath n c l = .ok p ∧ p.length = n ∧
      (∀ t < 2 * c * (l.length - 1), p[t]? = l[triangle l.length t]?) ∧
      (∀ t, 2 * c * (l.length - 1) ≤ t → t < n → p[t]? = l[0]?) := by
  obtain ⟨x, l', rfl⟩ : ∃ x l', l = x :: l' := by
    cases l with
    | nil => simp at hl
    | cons x l' => exact ⟨x, l', rfl⟩
  set l := x :: l' with hldef
  set b := l ++ backward l with hb
  have hbl : b.length = 2 * (l.length - 1) := by
    rw [hb, List.length_append, length_backward]; omega
  have hP : (List.range (c - 1)).foldl (fun acc _ => acc ++ l ++ backward l) b
      = (List.replicate c b).flatten := by
    have : (fun (acc : List α) (_ : ℕ) => acc ++ l ++ backward l) = fun acc _ => acc ++ b := by
      funext acc _; rw [hb, List.append_assoc]
    rw [this, foldl_append_const]
    obtain ⟨c, rfl⟩ := Nat.exists_eq_succ_of_ne_zero hc.ne'
    simp [List.replicate_succ]
  have hPl : (List.replicate c b).flatten.length = 2 * c * (l.length - 1) := by
    simp [hbl]; ring
  refine ⟨(List.replicate c b).flatten ++ [x] ++
    (List.replicate (n - ((List.replicate c b).flatten ++ [x]).length) [x]).flatten, ?_, ?_, ?_, ?_⟩
  · simp only [cyclicPath, hldef, List.head?_cons, orRaise, bind, Except.bind]
    rw [← hldef, ← hb, hP, foldl_append_const]
    rfl
  · rw [List.length_append, List.length_append, hPl]
    simp
    omega
  · intro t ht
    rw [List.append_assoc, List.getElem?_append_left (by rw [hPl]; exact ht),
      getElem?_replicate_flatten _ _ _ (by rw [hbl]; calc
        t < 2 * c * (l.length - 1) := ht
        _ = _ := by ring), hbl, hb, getElem?_cycle l hl _ (Nat.mod_lt _ (by omega)), triangle]
    split_ifs <;> rfl
  · intro t ht htn
    rw [List.append_assoc, List.getElem?_append_right (by rw [hPl]; exact ht), hPl]
    have hrep : [x] ++ (List.replicate (n - ((List.replicate c b).flatten ++ [x]).length) [x]).flatten
        = List.replicate (n - 2 * c * (l.length - 1)) x := by
      have : (List.replicate (n - ((List.replicate c b).flatten ++ [x]).length) [x]).flatten
          = List.replicate (n - ((List.replicate c b).flatten ++ [x]).length) x := by
        generalize n - ((List.replicate c b).flatten ++ [x]).length = m
        induction m with
        | zero => rfl
        | succ m ih => simp [List.replicate_succ, ih]
      rw [this, List.length_append, hPl, List.singleton_append, ← List.replicate_succ]
      congr 1
      simp only [List.length_singleton]
      omega
    rw [hrep, List.getElem?_replicate, if_pos (by omega)]
    simp [hldef]

/-! ### Adjustment of the states -/

theorem adjustFrom_length {a : PathArgs} {noise : ℕ → List ℝ} {i : ℕ} {prev : SState}
    {l p : List SState} (h : adjustFrom a noise i prev l = .ok p) : p.length = l.length := by
  induction l generalizing i prev p with
  | nil => cases h; rfl
  | cons r l ih =>
    obtain ⟨r1, -, h⟩ := bind_ok h
    obtain ⟨r2, -, h⟩ := bind_ok h
    obtain ⟨rs, h3, h⟩ := bind_ok h
    cases h
    simp [ih h3]

theorem adjustPath_length {a : PathArgs} {noise : ℕ → List ℝ} {l p : List SState}
    (h : adjustPath a noise l = .ok p) : p.length = l.length := by
  cases l with
  | nil => cases h; rfl
  | cons r l =>
    obtain ⟨rs, h3, h⟩ := bind_ok h
    cases h
    simp [adjustFrom_length h3]

theorem adjustFrom_step {a : PathArgs} {noise : ℕ → List ℝ} {i : ℕ} {prev : SState}
    {l p : List SState} (h : adjustFrom a noise i prev l = .ok p) (hn : a.noiseStd = none) (k : ℕ)
    (hk : k < l.length) : ∃ x y z, (prev :: p)[k]? = some x ∧ l[k]? = some y ∧ p[k]? = some z ∧
      normPart a x y = .ok z := by
  induction l generalizing i prev p k with
  | nil => simp at hk
  | cons r l ih =>
    obtain ⟨r1, h1, h⟩ := bind_ok h
    obtain ⟨r2, h2, h⟩ := bind_ok h
    obtain ⟨rs, h3, h⟩ := bind_ok h
    cases h
    simp only [noisePart, hn] at h2
    cases h2
    cases k with
    | zero => exact ⟨prev, r, r1, rfl, rfl, rfl, h1⟩
    | succ k => simpa using ih h3 k (by simpa using hk)

theorem adjustPath_none {a : PathArgs} {noise : ℕ → List ℝ} (hi : a.incNorm = none)
    (hn : a.noiseStd = none) (l : List SState) : adjustPath a noise l = .ok l := by
  have h : ∀ (l : List SState) i prev, adjustFrom a noise i prev l = .ok l := by
    intro l
    induction l with
    | nil => intros; rfl
    | cons r l ih => intro i prev; simp [adjustFrom, normPart, noisePart, hi, hn, ih, bind, Except.bind, pure, Except.pure]
  cases l with
  | nil => rfl
  | cons r l => simp [adjustPath, h, bind, Except.bind, pure, Except.pure]

theorem nForward_eq (a : PathArgs) : a.nForward =
    if 0 < a.nCycle ∧ a.nTime < 2 * a.nCycle + 1 then .error .runtimeError
    else .ok (branchPoints a.nTime a.nCycle) := by
  unfold PathArgs.nForward branchPoints
  split_ifs <;> first | rfl | omega

/-- The unadjusted states of a branch. -/
def trialStates (cols : List (List Fl)) (n : ℕ) : List SState :=
  (List.range n).map fun i => cols.map fun col => col.getD i .nan

theorem generatePath_ok {a : PathArgs} {hist : ℕ → ℝ → ℝ → ℕ → Py (List Fl)} {noise : ℕ → List ℝ}
    {res} (h : generatePath a hist noise = .ok res) :
    ∃ cols path, ¬ (0 < a.nCycle ∧ a.nTime < 2 * a.nCycle + 1) ∧
      List.Forall₂ (fun c col => ∃ b, a.bounds.get? c.1 = some b ∧
        hist c.2 b.1 b.2 (branchPoints a.nTime a.nCycle) = .ok col) a.order.zipIdx cols ∧
      adjustPath a noise (trialStates cols (branchPoints a.nTime a.nCycle)) = .ok path ∧
      path.length = branchPoints a.nTime a.nCycle ∧
      finishPath a.nTime a.nCycle path = .ok res.2.2 ∧
      res.1 = a.order ∧ res.2.1 = npLinspace a.timeInit a.timeEnd a.nTime := by
  obtain ⟨n, h1, h⟩ := bind_ok h
  obtain ⟨cols, h2, h⟩ := bind_ok h
  obtain ⟨path, h3, h⟩ := bind_ok h
  obtain ⟨p, h4, h⟩ := bind_ok h
  cases h
  rw [nForward_eq] at h1
  split_ifs at h1 with hc
  cases h1
  refine ⟨cols, path, hc, (mapM_forall₂ h2).imp ?_, h3, ?_, h4, rfl, rfl⟩
  · intro c col hcol
    obtain ⟨b, hb, hcol⟩ := bind_ok hcol
    exact ⟨b, orRaise_ok.mp hb, hcol⟩
  · rw [adjustPath_length h3]; simp [trialStates]

theorem branch_le {n c : ℕ} (hc : 0 < c) (h : 2 * c + 1 ≤ n) :
    2 ≤ branchPoints n c ∧ 2 * c * (branchPoints n c - 1) + 1 ≤ n := by
  rw [branchPoints, if_neg hc.ne']
  have h1 : 0 < 2 * c := by omega
  have h2 : 1 ≤ (n - 1) / (2 * c) := (Nat.one_le_div_iff h1).mpr (by omega)
  have h3 := Nat.mul_div_le (n - 1) (2 * c)
  refine ⟨by omega, ?_⟩
  rw [Nat.add_sub_cancel]
  omega

/-- Shape of the returned path in terms of the loading branch. -/
theorem generatePath_shape {a : PathArgs} {path p : List SState}
    (hc : ¬ (0 < a.nCycle ∧ a.nTime < 2 * a.nCycle + 1))
    (hl : path.length = branchPoints a.nTime a.nCycle)
    (h : finishPath a.nTime a.nCycle path = .ok p) :
    p.length = a.nTime ∧ (∀ t < branchPoints a.nTime a.nCycle, p[t]? = path[t]?) ∧
    (∀ t < a.nTime, ∃ s < branchPoints a.nTime a.nCycle, p[t]? = path[s]?) ∧
    (0 < a.nCycle → (∀ t < 2 * a.nCycle * (branchPoints a.nTime a.nCycle - 1),
        p[t]? = path[triangle (branchPoints a.nTime a.nCycle) t]?) ∧
      ∀ t, 2 * a.nCycle * (branchPoints a.nTime a.nCycle - 1) ≤ t → t < a.nTime →
        p[t]? = path[0]?) := by
  unfold finishPath at h
  split_ifs at h with h0
  · have hn : 2 * a.nCycle + 1 ≤ a.nTime := by omega
    obtain ⟨hb, hb'⟩ := branch_le h0 hn
    obtain ⟨p', h1, h2, h3, h4⟩ := cyclicPath_ok h0 (hl ▸ hb) (hl ▸ hb')
    rw [h1] at h
    cases h
    rw [hl] at h3 h4
    have htri : ∀ t, triangle (branchPoints a.nTime a.nCycle) t < branchPoints a.nTime a.nCycle := by
      intro t
      unfold triangle
      have := Nat.mod_lt t (show 0 < 2 * (branchPoints a.nTime a.nCycle - 1) by omega)
      split_ifs with h
      · exact h
      · omega
    refine ⟨h2, fun t ht => ?_, fun t ht => ?_, fun _ => ⟨h3, h4⟩⟩
    · have hlt : t < 2 * a.nCycle * (branchPoints a.nTime a.nCycle - 1) := by
        have : 2 * (branchPoints a.nTime a.nCycle - 1)
            ≤ 2 * a.nCycle * (branchPoints a.nTime a.nCycle - 1) :=
          Nat.mul_le_mul_right _ (by omega)
        by_cases h22 : branchPoints a.nTime a.nCycle = 2 ∨ t < 2 * (branchPoints a.nTime a.nCycle - 1)
        · omega
        · omega
      rw [h3 t hlt, triangle]
      have : t % (2 * (branchPoints a.nTime a.nCycle - 1)) = t := Nat.mod_eq_of_lt (by omega)
      rw [this, if_pos ht]
    · by_cases h : t < 2 * a.nCycle * (branchPoints a.nTime a.nCycle - 1)
      · exact ⟨_, htri t, h3 t h⟩
      · exact ⟨0, by omega, h4 t (by omega) ht⟩
  · cases h
    have hb : branchPoints a.nTime a.nCycle = a.nTime := by simp [branchPoints]; omega
    rw [hb] at hl ⊢
    exact ⟨hl, fun _ _ => rfl, fun t ht => ⟨t, ht, rfl⟩, fun h => absurd h h0⟩

/-! ### Prescribed norm -/

@[simp] theorem Fl.fin_add (x y : ℝ) : Fl.add (.fin x) (.fin y) = .fin (x + y) := rfl
@[simp] theorem Fl.fin_sub (x y : ℝ) : Fl.sub (.fin x) (.fin y) = .fin (x - y) := by
  simp [Fl.sub, Fl.neg, Fl.add, sub_eq_add_neg]
@[simp] theorem Fl.fin_mul (x y : ℝ) : Fl.mul (.fin x) (.fin y) = .fin (x * y) := rfl
@[simp] theorem Fl.sub_nan (x : Fl) : Fl.sub x .nan = .nan := by cases x <;> rfl
@[simp] theorem Fl.add_nan (x : Fl) : Fl.add x .nan = .nan := by cases x <;> rfl
@[simp] theorem Fl.nan_add (x : Fl) : Fl.add .nan x = .nan := by cases x <;> rfl
@[simp] theorem Fl.mul_nan (x : Fl) : Fl.mul x .nan = .nan := by cases x <;> rfl
@[simp] theorem Fl.nan_div (x : Fl) : Fl.div .nan x = .nan := by cases x <;> rfl

theorem order_of {a : PathArgs} (hi : a.infinitesimal = true) : a.order = symOrder a.nDim := by
  simp [PathArgs.order, hi]

/-- The symmetric array with the given components. -/
theorem buildStrain_two (x y z : Fl) : ∃ S, buildStrain 2 [x, y, z] (symOrder 2) true = .ok S ∧
    S 0 0 = x ∧ S 1 1 = y ∧ S 0 1 = z ∧ S 1 0 = z := by
  simp [buildStrain, symOrder, raiseIf, List.zipIdx, buildStep, orRaise, bind, Except.bind, pure,
      Except.pure, FlMat.put]

theorem buildStrain_three (x y z u v w : Fl) : ∃ S,
    buildStrain 3 [x, y, z, u, v, w] (symOrder 3) true = .ok S ∧
    S 0 0 = x ∧ S 1 1 = y ∧ S 2 2 = z ∧ S 0 1 = u ∧ S 1 0 = u ∧ S 1 2 = v ∧ S 2 1 = v ∧
    S 0 2 = w ∧ S 2 0 = w := by
  simp [buildStrain, symOrder, raiseIf, List.zipIdx, buildStep, orRaise, bind, Except.bind, pure,
      Except.pure, FlMat.put]

theorem flSum_fin (l : List ℝ) : Fl.sum (l.map Fl.fin) = .fin l.sum := by
  have : ∀ (l : List ℝ) x, (l.map Fl.fin).foldl Fl.add (.fin x) = .fin (x + l.sum) := by
    intro l
    induction l with
    | nil => simp
    | cons y l ih => intro x; simp [ih, add_assoc]
  simpa [Fl.sum] using this l 0

theorem flNorm_two (S : FlMat) {x y z : ℝ} (h1 : S 0 0 = .fin x) (h2 : S 1 1 = .fin y)
    (h3 : S 0 1 = .fin z) (h4 : S 1 0 = .fin z) :
    flNorm 2 S = .fin √(x ^ 2 + y ^ 2 + 2 * z ^ 2) := by
  have : flNorm 2 S = Fl.sqrt (Fl.sum ([x * x, z * z, z * z, y * y].map .fin)) := by
    simp [flNorm, List.range_succ, h1, h2, h3, h4]
  rw [this, flSum_fin, Fl.sqrt, if_neg]
  · congr 2; simp; ring
  · simp; nlinarith [mul_self_nonneg x, mul_self_nonneg y, mul_self_nonneg z]

theorem flNorm_three (S : FlMat) {x y z u v w : ℝ} (h1 : S 0 0 = .fin x) (h2 : S 1 1 = .fin y)
    (h3 : S 2 2 = .fin z) (h4 : S 0 1 = .fin u) (h5 : S 1 0 = .fin u) (h6 : S 1 2 = .fin v)
    (h7 : S 2 1 = .fin v) (h8 : S 0 2 = .fin w) (h9 : S 2 0 = .fin w) :
    flNorm 3 S = .fin √(x ^ 2 + y ^ 2 + z ^ 2 + 2 * u ^ 2 + 2 * v ^ 2 + 2 * w ^ 2) := by
  have : flNorm 3 S = Fl.sqrt (Fl.sum ([x * x, u * u, w * w, u * u, y * y, v * v, w * w, v * v,
      z * z].map .fin)) := by
    simp [flNorm, List.range_succ, h1, h2, h3, h4, h5, h6, h7, h8, h9]
  rw [this, flSum_fin, Fl.sqrt, if_neg]
  · congr 2; simp; ring
  · simp
    nlinarith [mul_self_nonneg x, mul_self_nonneg y, mul_self_nonneg z, mul_self_nonneg u,
      mul_self_nonneg v, mul_self_nonneg w]

@[simp] theorem Fl.div_fin_ne {x y : ℝ} (h : y ≠ 0) : Fl.div (.fin x) (.fin y) = .fin (x / y) :=
  if_neg h

@[simp] theorem Fl.zero_div_zero : Fl.div (.fin 0) (.fin 0) = .nan := by simp [Fl.div]

/-- The entry of an array at a component. -/
def atComp (S : FlMat) (c : SComp) : Fl := S (c.getD 0 0 - 1) (c.getD 1 0 - 1)

theorem build_states {n : ℕ} (hn : n = 2 ∨ n = 3) (f g : ℕ → Fl) :
    ∃ S R, buildStrain n ((List.range (symOrder n).length).map f) (symOrder n) true = .ok S ∧
      buildStrain n ((List.range (symOrder n).length).map g) (symOrder n) true = .ok R ∧
      (∀ k, (hk : k < (symOrder n).length) → atComp S (symOrder n)[k] = f k) ∧
      (∀ k, (hk : k < (symOrder n).length) → atComp R (symOrder n)[k] = g k) ∧
      ∀ v w : ℕ → ℝ, (∀ k, f k = .fin (v k)) → (∀ k, g k = .fin (w k)) →
        flNorm n (fun i j => Fl.sub (S i j) (R i j)) = .fin (strainDist (symOrder n) v w) := by
  rcases hn with rfl | rfl
  · obtain ⟨S, hS, S1, S2, S3, S4⟩ := buildStrain_two (f 0) (f 1) (f 2)
    obtain ⟨R, hR, R1, R2, R3, R4⟩ := buildStrain_two (g 0) (g 1) (g 2)
    refine ⟨S, R, hS, hR, fun k hk => ?_, fun k hk => ?_, fun v w hv hw => ?_⟩
    · replace hk : k < 3 := hk
      interval_cases k <;> assumption
    · replace hk : k < 3 := hk
      interval_cases k <;> assumption
    · rw [flNorm_two (x := v 0 - w 0) (y := v 1 - w 1) (z := v 2 - w 2)]
      · simp [strainDist, symOrder, Finset.sum_range_succ]
      all_goals simp [*]
  · obtain ⟨S, hS, S1, S2, S3, S4, S5, S6, S7, S8, S9⟩ :=
      buildStrain_three (f 0) (f 1) (f 2) (f 3) (f 4) (f 5)
    obtain ⟨R, hR, R1, R2, R3, R4, R5, R6, R7, R8, R9⟩ :=
      buildStrain_three (g 0) (g 1) (g 2) (g 3) (g 4) (g 5)
    refine ⟨S, R, hS, hR, fun k hk => ?_, fun k hk => ?_, fun v w hv hw => ?_⟩
    · replace hk : k < 6 := hk
      interval_cases k <;> assumption
    · replace hk : k < 6 := hk
      interval_cases k <;> assumption
    · rw [flNorm_three (x := v 0 - w 0) (y := v 1 - w 1) (z := v 2 - w 2) (u := v 3 - w 3)
        (v := v 4 - w 4) (w := v 5 - w 5)]
      · simp [strainDist, symOrder, Finset.sum_range_succ]
      all_goals simp [*]

theorem normPart_eq {a : PathArgs} (hi : a.infinitesimal = true) {s : ℝ} (hs : a.incNorm = some s)
    (hs0 : 0 < s) {p q : SState} {S R : FlMat}
    (hS : buildStrain a.nDim q (symOrder a.nDim) true = .ok S)
    (hR : buildStrain a.nDim p (symOrder a.nDim) true = .ok R) :
    normPart a p q = .ok ((symOrder a.nDim).map fun c => Fl.add (atComp R c) (Fl.mul (.fin s)
      (Fl.div (Fl.sub (atComp S c) (atComp R c))
        (flNorm a.nDim fun i j => Fl.sub (S i j) (R i j))))) := by
  have h0 : ¬ s ≤ 0 := not_le.mpr hs0
  simp only [normPart, hs, raiseIf, if_neg h0, order_of hi, hi, hS, hR, bind, Except.bind]
  rfl

theorem map_order {β : Type} (order : List SComp) (F : SComp → β) (G : ℕ → β)
    (h : ∀ k, (hk : k < order.length) → F order[k] = G k) :
    order.map F = (List.range order.length).map G := by
  apply List.ext_getElem
  · simp
  · intro k h1 h2
    simpa using h k (by simpa using h1)

theorem strainDist_eq_zero {order : List SComp} {v w : ℕ → ℝ} (h : strainDist order v w = 0) (k : ℕ)
    (hk : k < order.length) : v k = w k := by
  rw [strainDist, Real.sqrt_eq_zero (Finset.sum_nonneg fun k _ => by split_ifs <;> positivity),
    Finset.sum_eq_zero_iff_of_nonneg (fun k _ => by split_ifs <;> positivity)] at h
  have := h k (Finset.mem_range.mpr hk)
  split_ifs at this <;> nlinarith [sq_nonneg (v k - w k)]

/-- A step with a prescribed norm between finite states. -/
theorem normPart_fin {a : PathArgs} (hi : a.infinitesimal = true) (hd : a.nDim = 2 ∨ a.nDim = 3)
    {s : ℝ} (hs : a.incNorm = some s) (hs0 : 0 < s) {p q : SState} {v w : ℕ → ℝ}
    (hp : IsState a.order p v) (hq : IsState a.order q w) :
    (strainDist a.order w v = 0 → ∃ r, normPart a p q = .ok r ∧ IsNanState a.order r) ∧
    (strainDist a.order w v ≠ 0 → ∃ r, normPart a p q = .ok r ∧ IsState a.order r
      fun k => v k + s * ((w k - v k) / strainDist a.order w v)) := by
  rw [order_of hi] at *
  obtain ⟨S, R, hS, hR, h1, h2, h3⟩ := build_states hd (fun k => .fin (w k)) fun k => .fin (v k)
  rw [← hp] at hR
  rw [← hq] at hS
  rw [normPart_eq hi hs hs0 hS hR, h3 w v (fun _ => rfl) fun _ => rfl]
  constructor
  · intro h
    refine ⟨_, rfl, ?_⟩
    rw [IsNanState, ← List.map_const', List.map_inj_left]
    intro c hc
    obtain ⟨k, hk, rfl⟩ := List.mem_iff_getElem.mp hc
    rw [h1 k hk, h2 k hk, h, strainDist_eq_zero h k hk]
    simp
  · intro h
    refine ⟨_, rfl, ?_⟩
    rw [IsState]
    apply map_order
    intro k hk
    rw [h1 k hk, h2 k hk]
    simp [h]

/-- A step with a prescribed norm from a NaN state. -/
theorem normPart_nan {a : PathArgs} (hi : a.infinitesimal = true) (hd : a.nDim = 2 ∨ a.nDim = 3)
    {s : ℝ} (hs : a.incNorm = some s) (hs0 : 0 < s) {p q : SState} {w : ℕ → ℝ}
    (hp : IsNanState a.order p) (hq : IsState a.order q w) :
    ∃ r, normPart a p q = .ok r ∧ IsNanState a.order r := by
  rw [order_of hi] at *
  obtain ⟨S, R, hS, hR, h1, h2, -⟩ := build_states hd (fun k => .fin (w k)) fun _ => .nan
  have hp' : p = (List.range (symOrder a.nDim).length).map fun _ => Fl.nan := by
    rw [hp]; simp
  rw [← hp'] at hR
  rw [← hq] at hS
  rw [normPart_eq hi hs hs0 hS hR]
  refine ⟨_, rfl, ?_⟩
  rw [IsNanState, ← List.map_const', List.map_inj_left]
  intro c hc
  obtain ⟨k, hk, rfl⟩ := List.mem_iff_getElem.mp hc
  rw [h2 k hk]
  simp

end

end Hooke
