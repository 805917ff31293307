import Verif.Spec.UniaxialPath
import Verif.Lemmas.Py
import Mathlib.Analysis.Calculus.Deriv.Add
import Mathlib.Analysis.Calculus.Deriv.Mul
import Mathlib.Analysis.Calculus.Deriv.Pow
import Mathlib.Tactic.LinearCombination
import Mathlib.Tactic.FieldSimp
import Mathlib.Tactic.NormNum

/-!
# C121: uniaxial stress paths
-/

noncomputable section

open Classical

namespace Hooke

open Spec

/-! ### The material model -/

theorem callMaterial_ok {name : String} {m : PathModel} {s : List (List ℝ)} {T c : ℝ}
    {r : List (List ℝ)} :
    callMaterial name m s T c = .ok r ↔ NamesModel name m ∧ r = pathStress m T c s := by
  unfold callMaterial
  by_cases h1 : name = "von_mises"
  · subst h1
    cases m <;> simp [NamesModel, pathStress, eq_comm]
  · by_cases h2 : name = "gru"
    · subst h2
      cases m <;> simp [NamesModel, pathStress, gruForwardPath, gruFeatures, eq_comm]
    · simp only [h1, h2, if_false]
      cases m <;> simp [NamesModel, h1, h2]

/-- **C121, stresses.** The script's call of a material model returns exactly the stress path of the
model, and it does so if and only if the name is the one of the kind of the model and the stresses have
the shape of the strains. -/
theorem C121_forward (name : String) (m : PathModel) (T c : ℝ) (s r : List (List ℝ)) :
    forwardMaterial name m T c s = .ok r ↔
      NamesModel name m ∧ r = pathStress m T c s ∧ r.map List.length = s.map List.length := by
  unfold forwardMaterial
  rw [bind_ok_iff]
  constructor
  · rintro ⟨r', h1, h2⟩
    obtain ⟨hn, rfl⟩ := callMaterial_ok.mp h1
    obtain ⟨u, h3, h4⟩ := bind_ok h2
    rw [raiseIf_ok, not_not] at h3
    cases h4
    exact ⟨hn, rfl, h3⟩
  · rintro ⟨hn, rfl, h⟩
    refine ⟨_, callMaterial_ok.mpr ⟨hn, rfl⟩, ?_⟩
    have h' : ¬ ¬ sameShape (pathStress m T c s) s := not_not.mpr h
    rw [(raiseIf_ok (u := ())).mpr h']
    rfl

theorem forward_eq {name : String} {m : PathModel} {T c : ℝ} {s : List (List ℝ)}
    (hn : NamesModel name m) (h6 : SixComponents (pathStress m T c)) (hs : ∀ r ∈ s, r.length = 6) :
    forwardMaterial name m T c s = .ok (pathStress m T c s) := by
  rw [C121_forward]
  refine ⟨hn, rfl, ?_⟩
  obtain ⟨hl, hr⟩ := h6 s hs
  apply List.ext_getElem
  · simp [hl]
  · intro i h1 h2
    simp only [List.getElem_map]
    rw [hr _ (List.getElem_mem _), hs _ (List.getElem_mem _)]

/-- A residual is the one of the model. -/
theorem residual_ok {name : String} {m : PathModel} {T c : ℝ} {past : List (List ℝ)} {e : ℝ}
    {x r : ℝ × ℝ} (h : lateralResidual (forwardMaterial name m T c) past e x = .ok r) :
    r = lateralAfter (pathStress m T c) past e x := by
  unfold lateralResidual at h
  obtain ⟨st, h1, h⟩ := bind_ok h
  obtain ⟨row, h2, h⟩ := bind_ok h
  obtain ⟨s0, h3, h⟩ := bind_ok h
  obtain ⟨s1, h4, h⟩ := bind_ok h
  rw [orRaise_ok] at h2 h3 h4
  cases h
  obtain ⟨_, rfl, hl⟩ := (C121_forward ..).mp h1
  have hlen : (pathStress m T c (past ++ [trialStrain x e])).length = past.length + 1 := by
    have := congrArg List.length hl
    simpa using this
  rw [List.getLast?_eq_getElem?, hlen] at h2
  simp only [Nat.add_sub_cancel] at h2
  unfold lateralAfter lateral
  have hd : (pathStress m T c (past ++ [[x.1, x.2, e, 0, 0, 0]])).getD past.length [] = row := by
    rw [List.getD_eq_getElem?_getD]
    exact (congrArg (fun o => o.getD []) h2)
  rw [hd]
  simp [List.getD_eq_getElem?_getD, h3, h4]

theorem residual_eq {name : String} {m : PathModel} {T c : ℝ} {past : List (List ℝ)} {e : ℝ}
    (hn : NamesModel name m) (h6 : SixComponents (pathStress m T c)) (hp : ∀ r ∈ past, r.length = 6)
    (x : ℝ × ℝ) :
    lateralResidual (forwardMaterial name m T c) past e x
      = .ok (lateralAfter (pathStress m T c) past e x) := by
  have hs : ∀ r ∈ past ++ [trialStrain x e], r.length = 6 := by
    intro r hr
    rcases List.mem_append.mp hr with h | h
    · exact hp r h
    · rw [List.mem_singleton.mp h]; rfl
  have hf := forward_eq hn h6 hs
  obtain ⟨hl, hr⟩ := h6 _ hs
  have hlen : (pathStress m T c (past ++ [trialStrain x e])).length = past.length + 1 := by
    simpa using hl
  obtain ⟨row, hrow⟩ : ∃ row, (pathStress m T c (past ++ [trialStrain x e])).getLast? = some row := by
    cases h : (pathStress m T c (past ++ [trialStrain x e])).getLast? with
    | none => rw [List.getLast?_eq_none_iff] at h; rw [h] at hlen; simp at hlen
    | some row => exact ⟨row, rfl⟩
  have hr6 : row.length = 6 := hr row (List.mem_of_getLast? hrow)
  have key : ∃ r, lateralResidual (forwardMaterial name m T c) past e x = .ok r := by
    refine ⟨(row[0], row[1]), ?_⟩
    unfold lateralResidual
    rw [hf]
    change (do
      let row ← orRaise (pathStress m T c (past ++ [trialStrain x e])).getLast? PyErr.indexError
      let s0 ← orRaise row[0]? PyErr.indexError
      let s1 ← orRaise row[1]? PyErr.indexError
      (.ok (s0, s1) : Py (ℝ × ℝ))) = _
    rw [hrow]
    change (do
      let s0 ← orRaise row[0]? PyErr.indexError
      let s1 ← orRaise row[1]? PyErr.indexError
      (.ok (s0, s1) : Py (ℝ × ℝ))) = _
    rw [List.getElem?_eq_getElem (by omega), List.getElem?_eq_getElem (by omega)]
    rfl
  obtain ⟨r, h⟩ := key
  rw [h, residual_ok h]

theorem converged_iff {tol e : ℝ} {r : ℝ × ℝ} : uniaxialConverged tol e r ↔ SmallLateral tol e r := by
  unfold uniaxialConverged SmallLateral magnitude
  constructor
  · rintro ⟨h1, h2⟩
    have h3 : 0 < |e| := lt_of_le_of_ne (abs_nonneg e) (Ne.symm h1)
    exact ⟨abs_ne_zero.mp h1, (div_lt_iff₀ h3).mp h2⟩
  · rintro ⟨h1, h2⟩
    exact ⟨abs_ne_zero.mpr h1, (div_lt_iff₀ (abs_pos.mpr h1)).mpr h2⟩

theorem solve2_ok {J : (ℝ × ℝ) × (ℝ × ℝ)} {b d : ℝ × ℝ} (h : solve2 J b = .ok d) :
    J.1.1 * d.1 + J.1.2 * d.2 = b.1 ∧ J.2.1 * d.1 + J.2.2 * d.2 = b.2 := by
  unfold solve2 at h
  obtain ⟨u, h1, h⟩ := bind_ok h
  rw [raiseIf_ok] at h1
  cases h
  have h2 : J.1.1 * J.2.2 - J.1.2 * J.2.1 ≠ 0 := h1
  generalize hd : J.1.1 * J.2.2 - J.1.2 * J.2.1 = d at h2
  constructor <;> field_simp <;> rw [← hd] <;> ring

theorem solve2_eq {J : (ℝ × ℝ) × (ℝ × ℝ)} {b : ℝ × ℝ} (h : J.1.1 * J.2.2 - J.1.2 * J.2.1 ≠ 0) :
    solve2 J b = .ok ((J.2.2 * b.1 - J.1.2 * b.2) / (J.1.1 * J.2.2 - J.1.2 * J.2.1),
      (J.1.1 * b.2 - J.2.1 * b.1) / (J.1.1 * J.2.2 - J.1.2 * J.2.1)) := by
  unfold solve2
  simp only []
  rw [(raiseIf_ok (u := ())).mpr h]
  rfl

/-! ### The iterations -/

/-- The iterations from the iterate `k0` of a run. -/
theorem newton_run {name : String} {m : PathModel} {T c tol : ℝ} {past : List (List ℝ)} {e : ℝ}
    (hg : ∀ x, residualValue (forwardMaterial name m T c) past e x
      = lateralAfter (pathStress m T c) past e x)
    (n : ℕ) : ∀ (k0 : ℕ) (xs : ℕ → ℝ × ℝ),
      NewtonIterates (lateralAfter (pathStress m T c) past e) xs k0 →
      (∀ j < k0, ¬ SmallLateral tol e (lateralAfter (pathStress m T c) past e (xs j))) →
      ∀ x, uniaxialNewton (forwardMaterial name m T c) tol past e n (xs k0) = .ok x →
      ∃ (k : ℕ) (ys : ℕ → ℝ × ℝ), k ≤ k0 + n ∧
        NewtonIterates (lateralAfter (pathStress m T c) past e) ys k ∧ x = ys k ∧
        (∀ j < k, ¬ SmallLateral tol e (lateralAfter (pathStress m T c) past e (ys j))) ∧
        (k < k0 + n → SmallLateral tol e (lateralAfter (pathStress m T c) past e x)) := by
  induction n with
  | zero =>
      intro k0 xs hx hns x h
      cases h
      exact ⟨k0, xs, le_refl _, hx, rfl, hns, fun h => absurd h (by simp)⟩
  | succ n ih =>
      intro k0 xs hx hns x h
      unfold uniaxialNewton at h
      obtain ⟨r, h1, h⟩ := bind_ok h
      have hr := residual_ok h1
      by_cases hc : uniaxialConverged tol e r
      · rw [if_pos hc] at h
        cases h
        refine ⟨k0, xs, by omega, hx, rfl, hns, fun _ => ?_⟩
        rw [← hr]
        exact converged_iff.mp hc
      · rw [if_neg hc] at h
        obtain ⟨d, h2, h⟩ := bind_ok h
        obtain ⟨hd1, hd2⟩ := solve2_ok h2
        have hfun : residualValue (forwardMaterial name m T c) past e
            = lateralAfter (pathStress m T c) past e := funext hg
        rw [hfun] at hd1 hd2
        simp only [jacobian2] at hd1 hd2
        set ys : ℕ → ℝ × ℝ := fun j =>
          if j ≤ k0 then xs j else ((xs k0).1 + d.1, (xs k0).2 + d.2) with hys
        have hold : ∀ j, j ≤ k0 → ys j = xs j := fun j hj => by simp [hys, hj]
        have hnew : ys (k0 + 1) = ((xs k0).1 + d.1, (xs k0).2 + d.2) := by simp [hys]
        have hit : NewtonIterates (lateralAfter (pathStress m T c) past e) ys (k0 + 1) := by
          constructor
          · rw [hold 0 (by omega), hx.start]
          · intro k hk
            by_cases hk' : k < k0
            · rw [hold k (by omega), hold (k + 1) (by omega)]
              exact hx.first k hk'
            · have : k = k0 := by omega
              subst this
              rw [hold k (le_refl _), hnew]
              rw [hr] at hd1
              simp only [add_sub_cancel_left]
              linarith
          · intro k hk
            by_cases hk' : k < k0
            · rw [hold k (by omega), hold (k + 1) (by omega)]
              exact hx.second k hk'
            · have : k = k0 := by omega
              subst this
              rw [hold k (le_refl _), hnew]
              rw [hr] at hd2
              simp only [add_sub_cancel_left]
              linarith
        have hns' : ∀ j < k0 + 1, ¬ SmallLateral tol e (lateralAfter (pathStress m T c) past e (ys j)) := by
          intro j hj
          rw [hold j (by omega)]
          by_cases hj' : j < k0
          · exact hns j hj'
          · have : j = k0 := by omega
            subst this
            rw [← hr]
            exact fun hs => hc (converged_iff.mpr hs)
        rw [← hnew] at h
        obtain ⟨k, zs, hk, hz, hxz, hn1, hn2⟩ := ih (k0 + 1) ys hit hns' x h
        exact ⟨k, zs, by omega, hz, hxz, hn1, fun hlt => hn2 (by omega)⟩

/-- The rows of a path while it is built. -/
theorem steps_run {name : String} {m : PathModel} {T c tol : ℝ} {maxIter : ℕ} :
    ∀ (es : List ℝ) (p q : List (List ℝ)),
      es.foldlM (uniaxialStep (forwardMaterial name m T c) tol maxIter) p = .ok q →
      q.length = p.length + es.length ∧ q.take p.length = p ∧
      ∀ (i : ℕ) (hi : i < es.length), ∃ x : ℝ × ℝ,
        uniaxialNewton (forwardMaterial name m T c) tol (q.take (p.length + i)) es[i] maxIter (0, 0)
          = .ok x ∧ q[p.length + i]? = some [x.1, x.2, es[i], 0, 0, 0]
  | [], p, q, h => by
      cases h
      exact ⟨by simp, by simp, fun i hi => absurd hi (by simp)⟩
  | e :: es, p, q, h => by
      rw [List.foldlM_cons] at h
      obtain ⟨p1, h1, h⟩ := bind_ok h
      unfold uniaxialStep at h1
      obtain ⟨x, hx, h1⟩ := bind_ok h1
      cases h1
      obtain ⟨hl, ht, hs⟩ := steps_run es _ q h
      have hl1 : (p ++ [trialStrain x e]).length = p.length + 1 := by simp
      rw [hl1] at hl ht hs
      have hp : q.take p.length = p := by
        have := congrArg (List.take p.length) ht
        rw [List.take_take, min_eq_left (by omega), List.take_left' rfl] at this
        exact this
      refine ⟨by simp only [List.length_cons]; omega, hp, ?_⟩
      intro i hi
      cases i with
      | zero =>
          refine ⟨x, ?_, ?_⟩
          · rw [Nat.add_zero, hp]
            exact hx
          · have := congrArg (fun l => l[p.length]?) ht
            simp only [List.getElem?_take] at this
            rw [if_pos (by omega)] at this
            rw [Nat.add_zero, this]
            simp [trialStrain]
      | succ i =>
          simp only [List.length_cons] at hi
          obtain ⟨y, h2, h3⟩ := hs i (by omega)
          refine ⟨y, ?_, ?_⟩
          · rw [show p.length + (i + 1) = p.length + 1 + i by omega]
            exact h2
          · rw [show p.length + (i + 1) = p.length + 1 + i by omega]
            exact h3

/-- **C121, strains.** Every pair of paths that is returned has a row for each prescribed axial strain:
the first strain is zero, and each later one has the prescribed axial strain and no shear strains.  The
stresses are the ones of the material model for the returned strains. -/
theorem C121_strains (name : String) (m : PathModel) (T c tol : ℝ) (maxIter : ℕ) (es : List ℝ)
    (strain stress : List (List ℝ))
    (h : uniaxialPath name m T c tol maxIter es = .ok (strain, stress)) :
    strain.length = es.length ∧ stress = pathStress m T c strain ∧
      (∀ (_ : 0 < es.length), strain[0]? = some [0, 0, 0, 0, 0, 0]) ∧
      ∀ (i : ℕ) (_ : 0 < i) (hi : i < es.length),
        ∃ x y : ℝ, strain[i]? = some [x, y, es[i], 0, 0, 0] := by
  unfold uniaxialPath at h
  obtain ⟨st, h1, h⟩ := bind_ok h
  obtain ⟨sg, h2, h⟩ := bind_ok h
  cases h
  obtain ⟨_, h3, _⟩ := (C121_forward ..).mp h2
  obtain ⟨hl, ht, hs⟩ := steps_run _ _ _ h1
  cases es with
  | nil =>
      simp only [List.take_nil, List.map_nil, List.tail_nil, List.length_nil] at hl
      exact ⟨hl, h3, fun h => absurd h (by simp), fun i _ hi => absurd hi (by simp)⟩
  | cons e0 es =>
      simp only [List.take_succ_cons, List.take_zero, List.map_cons, List.map_nil, List.tail_cons,
        List.length_cons, List.length_nil] at hl ht hs
      refine ⟨by simp only [List.length_cons]; omega, h3, fun _ => ?_, ?_⟩
      · have := congrArg (fun l => l[0]?) ht
        simp only [List.getElem?_take] at this
        rw [if_pos (by omega)] at this
        rw [this]
        simp [trialStrain]
      · intro i hi0 hi
        obtain ⟨j, rfl⟩ : ∃ j, i = j + 1 := ⟨i - 1, by omega⟩
        simp only [List.length_cons] at hi
        obtain ⟨x, _, hx⟩ := hs j (by omega)
        refine ⟨x.1, x.2, ?_⟩
        rw [show 0 + 1 + j = j + 1 by omega] at hx
        exact hx

theorem residualValue_eq {name : String} {m : PathModel} {T c : ℝ} {past : List (List ℝ)} {e : ℝ}
    (hn : NamesModel name m) (h6 : SixComponents (pathStress m T c)) (hp : ∀ r ∈ past, r.length = 6)
    (x : ℝ × ℝ) :
    residualValue (forwardMaterial name m T c) past e x = lateralAfter (pathStress m T c) past e x := by
  unfold residualValue
  rw [residual_eq hn h6 hp x]

/-- Rows of a returned path have six components. -/
theorem strains_six {name : String} {m : PathModel} {T c tol : ℝ} {maxIter : ℕ} {es : List ℝ}
    {strain stress : List (List ℝ)} (h : uniaxialPath name m T c tol maxIter es = .ok (strain, stress)) :
    ∀ r ∈ strain, r.length = 6 := by
  obtain ⟨hl, _, h0, hs⟩ := C121_strains _ _ _ _ _ _ _ _ _ h
  intro r hr
  obtain ⟨i, hi, rfl⟩ := List.getElem_of_mem hr
  have hi' : i < es.length := by omega
  by_cases hz : i = 0
  · subst hz
    have := h0 hi'
    rw [List.getElem?_eq_getElem hi] at this
    rw [Option.some.inj this]; rfl
  · obtain ⟨x, y, hxy⟩ := hs i (by omega) hi'
    rw [List.getElem?_eq_getElem hi] at hxy
    rw [Option.some.inj hxy]; rfl

/-- Splitting a path at a time. -/
theorem split_at {α : Type} (l : List α) (i : ℕ) (a : α) (h : l[i]? = some a) :
    l = l.take i ++ a :: l.drop (i + 1) := by
  obtain ⟨hi, rfl⟩ := List.getElem?_eq_some_iff.mp h
  rw [← List.drop_eq_getElem_cons hi, List.take_append_drop]

/-- For a causal law the stresses of a time are the ones of the path up to the time. -/
theorem lateral_at {law : List (List ℝ) → List (List ℝ)} (hc : Causal law) {strain : List (List ℝ)}
    {i : ℕ} {x y e : ℝ} (h : strain[i]? = some [x, y, e, 0, 0, 0]) :
    lateral ((law strain).getD i []) = lateralAfter law (strain.take i) e (x, y) := by
  have hi : i < strain.length := (List.getElem?_eq_some_iff.mp h).1
  have hl : (strain.take i).length = i := by simp; omega
  have hs := hc (strain.take i) [x, y, e, 0, 0, 0] (strain.drop (i + 1))
  rw [← split_at strain i _ h, hl] at hs
  unfold lateralAfter
  rw [hl, List.getD_eq_getElem?_getD, hs, List.getD_eq_getElem?_getD]

/-- **C121, lateral stresses.** For a causal material model and every returned pair of paths, the lateral
strains of each time after the first one are an iterate of Newton's method for vanishing lateral
stresses, started from zero: the first iterate whose lateral stresses are small relative to the
prescribed strain, if there is one among the first `maxIter` iterates, and the iterate `maxIter`
otherwise.  In the first case the returned lateral stresses of that time are small. -/
theorem C121_lateral (name : String) (m : PathModel) (T c tol : ℝ) (maxIter : ℕ) (es : List ℝ)
    (strain stress : List (List ℝ)) (h6 : SixComponents (pathStress m T c))
    (hc : Causal (pathStress m T c))
    (h : uniaxialPath name m T c tol maxIter es = .ok (strain, stress))
    (i : ℕ) (hi0 : 0 < i) (hi : i < es.length) :
    ∃ (k : ℕ) (x : ℕ → ℝ × ℝ), k ≤ maxIter ∧
      NewtonIterates (lateralAfter (pathStress m T c) (strain.take i) es[i]) x k ∧
      strain[i]? = some [(x k).1, (x k).2, es[i], 0, 0, 0] ∧
      lateral (stress.getD i []) = lateralAfter (pathStress m T c) (strain.take i) es[i] (x k) ∧
      (∀ j < k, ¬ SmallLateral tol es[i] (lateralAfter (pathStress m T c) (strain.take i) es[i] (x j))) ∧
      (k < maxIter → SmallLateral tol es[i] (lateral (stress.getD i []))) := by
  have h6s := strains_six h
  have hst := (C121_strains _ _ _ _ _ _ _ _ _ h).2.1
  unfold uniaxialPath at h
  obtain ⟨st, h1, h⟩ := bind_ok h
  obtain ⟨sg, h2, h⟩ := bind_ok h
  cases h
  obtain ⟨hn, -, -⟩ := (C121_forward ..).mp h2
  obtain ⟨hl, ht, hs⟩ := steps_run _ _ _ h1
  cases es with
  | nil => simp at hi
  | cons e0 es =>
      simp only [List.take_succ_cons, List.take_zero, List.map_cons, List.map_nil, List.tail_cons,
        List.length_cons, List.length_nil] at hl ht hs hi
      obtain ⟨j, rfl⟩ : ∃ j, i = j + 1 := ⟨i - 1, by omega⟩
      obtain ⟨x, hx, hrow⟩ := hs j (by omega)
      rw [show 0 + 1 + j = j + 1 by omega] at hx hrow
      have hg := fun y => residualValue_eq (e := es[j]'(by omega)) hn h6
        (fun r hr => h6s r (List.mem_of_mem_take hr)) y (past := strain.take (j + 1))
      obtain ⟨k, ys, hk, hy, hxy, hn1, hn2⟩ := newton_run hg maxIter 0 (fun _ => (0, 0))
        ⟨rfl, fun k hk => absurd hk (by omega), fun k hk => absurd hk (by omega)⟩
        (fun j hj => absurd hj (by omega)) x hx
      rw [Nat.zero_add] at hk hn2
      subst hxy
      have hlat := lateral_at hc hrow
      simp only [List.getElem_cons_succ]
      refine ⟨k, ys, hk, hy, hrow, ?_, hn1, fun hlt => ?_⟩
      · rw [hst, hlat]
      · rw [hst, hlat]
        exact hn2 hlt

end Hooke
