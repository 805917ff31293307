import Verif.Spec.Training
import Verif.Props.ModelState
import Verif.Lemmas.Py

/-! Lemmas on the training loop. -/

namespace Hooke

noncomputable section

variable {σ : Type}

/-! ## Early stopper -/

/-- The early stopper after `m` validations, at epochs `0, f, 2 f, …`. -/
def stopperSeq (ec : EarlyCfg σ) (st : ℕ → σ) : ℕ → Stopper σ
  | 0 => Stopper.start σ
  | m + 1 => ((stopperSeq ec st m).evaluate ec (st (m * ec.freq)) (m * ec.freq)
      (ec.vloss (m * ec.freq) (st (m * ec.freq)))).2

theorem evaluate_stop (ec : EarlyCfg σ) (s : Stopper σ) (x : σ) (e : ℕ) (v : Fl) :
    (s.evaluate ec x e v).1 = decide (ec.trigger ≤ (s.evaluate ec x e v).2.notImprove) := rfl

theorem pushHistory_spec {hist : List Fl} {f m : ℕ} {v : ℕ → Fl} (hf : 0 < f)
    (hlen : hist.length = m * f + 1) (hv : ∀ i ≤ m * f, hist[i]? = some (v (i / f))) :
    (pushHistory hist ((m + 1) * f) (v (m + 1))).length = (m + 1) * f + 1 ∧
    ∀ i ≤ (m + 1) * f, (pushHistory hist ((m + 1) * f) (v (m + 1)))[i]? = some (v (i / f)) := by
  have hlast : hist.getLast? = some (v m) := by
    rw [List.getLast?_eq_getElem?, hlen, Nat.add_sub_cancel, hv _ le_rfl, Nat.mul_div_cancel _ hf]
  have hgap : (m + 1) * f - hist.length = f - 1 := by
    rw [hlen, Nat.succ_mul]; omega
  have e : pushHistory hist ((m + 1) * f) (v (m + 1))
      = hist ++ List.replicate (f - 1) (v m) ++ [v (m + 1)] := by
    unfold pushHistory
    rw [hlast, hgap]
  rw [e]
  have hs : (m + 1) * f = m * f + f := Nat.succ_mul m f
  constructor
  · simp [hlen, hs]; omega
  · intro i hi
    by_cases h1 : i ≤ m * f
    · rw [List.append_assoc, List.getElem?_append_left (by omega), hv i h1]
    · by_cases h2 : i < (m + 1) * f
      · rw [List.getElem?_append_left (by simp [hlen]; omega),
          List.getElem?_append_right (by omega), List.getElem?_replicate,
          if_pos (by omega)]
        congr 2
        symm
        exact Nat.div_eq_of_lt_le (by omega) (by omega)
      · have hi' : i = (m + 1) * f := by omega
        subst hi'
        rw [List.getElem?_append_right (by simp [hlen]; omega)]
        have : (m + 1) * f - (hist ++ List.replicate (f - 1) (v m)).length = 0 := by
          simp [hlen]; omega
        rw [this, Nat.mul_div_cancel _ hf]
        rfl

/-- Invariant of the early stopper after `m + 1` validations. -/
structure StopInv (ec : EarlyCfg σ) (st : ℕ → σ) (w : ℕ → ℝ) (m : ℕ) (s : Stopper σ) : Prop where
  steps : s.steps.length = m + 1
  minLoss : ∃ μ, s.minLoss = .fin μ ∧ IsLeast (w '' {j | j < m + 1}) μ
  best : ∃ k, FirstLeast w m k ∧ s.best = some (st (k * ec.freq), k * ec.freq)
  stalled : ∀ t, t ≤ s.notImprove ↔ Stalled ec.tol w m t

theorem fl_div_gt {m x tol : ℝ} (hx : x < m) :
    Fl.lt (.fin tol) (Fl.div (Fl.sub (.fin m) (.fin x)) (Fl.abs (.fin m))) ↔ tol * |m| < m - x := by
  simp only [Fl.sub, Fl.neg, Fl.add, Fl.abs, Fl.div]
  by_cases hm : m = 0
  · subst hm
    have hx' : x ≠ 0 := hx.ne
    simp [hx', Fl.lt, hx.le]
    linarith
  · have hm' : |m| ≠ 0 := by simpa using hm
    have hpos : 0 < |m| := lt_of_le_of_ne (abs_nonneg m) hm'.symm
    rw [if_neg hm', Fl.lt, lt_div_iff₀ hpos]
    simp [sub_eq_add_neg]

theorem stopInv (ec : EarlyCfg σ) (st : ℕ → σ) (w : ℕ → ℝ)
    (hw : ∀ i, ec.vloss (i * ec.freq) (st (i * ec.freq)) = .fin (w i)) (m : ℕ) :
    StopInv ec st w m (stopperSeq ec st (m + 1)) := by
  induction m with
  | zero =>
    have e : stopperSeq ec st 1 = ((Stopper.start σ).evaluate ec (st (0 * ec.freq)) (0 * ec.freq)
      (.fin (w 0))).2 := by
      rw [← hw 0]; rfl
    rw [e]
    refine ⟨rfl, ⟨w 0, by simp [Stopper.evaluate, Stopper.start, Fl.lt], ?_⟩, ⟨0, ⟨le_rfl, ?_, ?_⟩, ?_⟩, ?_⟩
    · refine ⟨⟨0, by simp, rfl⟩, ?_⟩
      rintro x ⟨j, hj, rfl⟩
      obtain rfl : j = 0 := by simpa using hj
      exact le_rfl
    · intro i hi; obtain rfl := Nat.le_zero.mp hi; exact le_rfl
    · intro i hi; exact absurd hi (Nat.not_lt_zero i)
    · simp [Stopper.evaluate, Stopper.start, Fl.lt]
    · intro t
      have hn : ((Stopper.start σ).evaluate ec (st (0 * ec.freq)) (0 * ec.freq)
        (.fin (w 0))).2.notImprove = 0 := by
        simp [Stopper.evaluate, Stopper.start, Fl.lt]
      rw [hn]
      constructor
      · intro ht
        obtain rfl := Nat.le_zero.mp ht
        exact ⟨le_rfl, fun i h1 h2 => by omega⟩
      · exact fun h => h.1
  | succ m ih =>
    have e : stopperSeq ec st (m + 1 + 1) = ((stopperSeq ec st (m + 1)).evaluate ec
        (st ((m + 1) * ec.freq)) ((m + 1) * ec.freq) (.fin (w (m + 1)))).2 := by
      rw [← hw (m + 1)]; rfl
    rw [e]
    obtain ⟨hsteps, ⟨μ, hμ, hleast⟩, ⟨k, ⟨hk1, hk2, hk3⟩, hk4⟩, hst⟩ := ih
    generalize stopperSeq ec st (m + 1) = s at *
    have hlt : Fl.lt (.fin (w (m + 1))) s.minLoss ↔ w (m + 1) < μ := by rw [hμ]; rfl
    have hμk : μ = w k := by
      obtain ⟨⟨j, hj, hj'⟩, hlb⟩ := hleast
      apply le_antisymm
      · exact hlb ⟨k, Nat.lt_succ_of_le hk1, rfl⟩
      · rw [← hj']; exact hk2 j (Nat.le_of_lt_succ hj)
    have hsig : Significant ec.tol w (m + 1) ↔ w (m + 1) < μ ∧ ec.tol * |μ| < μ - w (m + 1) := by
      constructor
      · rintro ⟨μ', h1, h2, h3⟩
        obtain rfl := h1.unique hleast
        exact ⟨h2, h3⟩
      · rintro ⟨h1, h2⟩
        exact ⟨μ, hleast, h1, h2⟩
    have hn : (s.evaluate ec (st ((m + 1) * ec.freq)) ((m + 1) * ec.freq)
        (.fin (w (m + 1)))).2.notImprove
        = (open Classical in if Significant ec.tol w (m + 1) then 0 else s.notImprove + 1) := by
      by_cases h : w (m + 1) < μ
      · have h1 : 1 < (s.steps ++ [(m + 1) * ec.freq]).length := by simp [hsteps]
        by_cases h2 : ec.tol * |μ| < μ - w (m + 1)
        · rw [if_pos (hsig.mpr ⟨h, h2⟩)]
          simp only [Stopper.evaluate, hlt, h, if_true, h1]
          rw [hμ, if_pos ((fl_div_gt h).mpr h2)]
        · rw [if_neg fun hh => h2 (hsig.mp hh).2]
          simp only [Stopper.evaluate, hlt, h, if_true, h1]
          rw [hμ, if_neg fun hh => h2 ((fl_div_gt h).mp hh)]
      · rw [if_neg fun hh => h (hsig.mp hh).1]
        simp only [Stopper.evaluate, hlt, h, if_false]
    refine ⟨by simp [Stopper.evaluate, hsteps], ?_, ?_, ?_⟩
    · by_cases h : w (m + 1) < μ
      · refine ⟨w (m + 1), by simp [Stopper.evaluate, hlt, h], ⟨m + 1, by simp, rfl⟩, ?_⟩
        rintro x ⟨j, hj, rfl⟩
        rcases Nat.lt_succ_iff_lt_or_eq.mp hj with hj | rfl
        · exact h.le.trans (hleast.2 ⟨j, hj, rfl⟩)
        · exact le_rfl
      · refine ⟨μ, (if_neg fun hh => h (hlt.mp hh)).trans hμ, ?_, ?_⟩
        · obtain ⟨j, hj, hj'⟩ := hleast.1
          exact ⟨j, Nat.lt_succ_of_lt hj, hj'⟩
        · rintro x ⟨j, hj, rfl⟩
          rcases Nat.lt_succ_iff_lt_or_eq.mp hj with hj | rfl
          · exact hleast.2 ⟨j, hj, rfl⟩
          · exact not_lt.mp h
    · by_cases h : w (m + 1) < μ
      · refine ⟨m + 1, ⟨le_rfl, fun i hi => ?_, fun i hi => ?_⟩,
          by simp [Stopper.evaluate, hlt, h]⟩
        · rcases Nat.le_succ_iff.mp hi with hi | rfl
          · exact h.le.trans (hleast.2 ⟨i, Nat.lt_succ_of_le hi, rfl⟩)
          · exact le_rfl
        · exact h.trans_le (hleast.2 ⟨i, hi, rfl⟩)
      · refine ⟨k, ⟨hk1.trans (Nat.le_succ m), fun i hi => ?_, hk3⟩,
          by simp [Stopper.evaluate, hlt, h, hk4]⟩
        rcases Nat.le_succ_iff.mp hi with hi | rfl
        · exact hk2 i hi
        · rw [← hμk]; exact not_lt.mp h
    · intro t
      rw [hn]
      split_ifs with hs
      · constructor
        · intro ht
          obtain rfl := Nat.le_zero.mp ht
          exact ⟨Nat.zero_le _, fun i h1 h2 => by omega⟩
        · rintro ⟨h1, h2⟩
          by_contra ht
          exact h2 (m + 1) (by omega) le_rfl hs
      · cases t with
        | zero => simp [Stalled]; intro i h1 h2; omega
        | succ t =>
          rw [Nat.succ_le_succ_iff, hst t]
          constructor
          · rintro ⟨h1, h2⟩
            refine ⟨Nat.succ_le_succ h1, fun i h3 h4 => ?_⟩
            rcases Nat.le_succ_iff.mp h4 with h4 | rfl
            · exact h2 i (by omega) h4
            · exact hs
          · rintro ⟨h1, h2⟩
            exact ⟨Nat.le_of_succ_le_succ h1, fun i h3 h4 => h2 i (by omega) (by omega)⟩

theorem stopperSeq_hist (ec : EarlyCfg σ) (st : ℕ → σ) (hf : 0 < ec.freq) (m : ℕ) :
    (stopperSeq ec st (m + 1)).hist.length = m * ec.freq + 1 ∧
    ∀ i ≤ m * ec.freq, (stopperSeq ec st (m + 1)).hist[i]?
      = some (ec.vloss (i / ec.freq * ec.freq) (st (i / ec.freq * ec.freq))) := by
  induction m with
  | zero =>
    refine ⟨by simp [stopperSeq, Stopper.evaluate, pushHistory, Stopper.start], fun i hi => ?_⟩
    obtain rfl : i = 0 := by omega
    simp [stopperSeq, Stopper.evaluate, pushHistory, Stopper.start]
  | succ m ih =>
    exact pushHistory_spec (v := fun k => ec.vloss (k * ec.freq) (st (k * ec.freq))) hf ih.1 ih.2

/-! ## Running minimum of the losses -/

theorem pyMin_append {l : List Fl} {m x : Fl} (h : pyMin l = .ok m) :
    pyMin (l ++ [x]) = .ok (pyMinStep m x) := by
  cases l with
  | nil => cases h
  | cons y ys =>
    obtain rfl := Except.ok.inj h
    simp [pyMin]

theorem pyMin_range {loss : ℕ → Fl} (h : StartsFinite loss) (e : ℕ) :
    ∃ μ, pyMin ((List.range (e + 1)).map loss) = .ok (.fin μ) ∧ IsMinLoss loss e μ := by
  obtain ⟨⟨x0, h0⟩, hinf⟩ := h
  induction e with
  | zero =>
    refine ⟨x0, by simp [pyMin, h0], ⟨0, le_rfl, h0⟩, fun i hi x hx => ?_⟩
    obtain rfl := Nat.le_zero.mp hi
    rw [h0] at hx
    exact (Fl.fin.inj hx).le
  | succ e ih =>
    obtain ⟨μ, h1, ⟨i, hi, hi'⟩, h2⟩ := ih
    rw [List.range_succ, List.map_append, List.map_singleton, pyMin_append h1]
    rcases hx : loss (e + 1) with x | s | _
    · by_cases hlt : x < μ
      · refine ⟨x, by rw [pyMinStep, if_pos (show Fl.lt (.fin x) (.fin μ) from hlt)], ⟨e + 1, le_rfl, hx⟩, fun j hj y hy => ?_⟩
        rcases Nat.le_succ_iff.mp hj with hj | rfl
        · exact hlt.le.trans (h2 j hj y hy)
        · rw [hx] at hy; exact (Fl.fin.inj hy).le
      · refine ⟨μ, by rw [pyMinStep, if_neg (show ¬ Fl.lt (.fin x) (.fin μ) from hlt)], ⟨i, by omega, hi'⟩, fun j hj y hy => ?_⟩
        rcases Nat.le_succ_iff.mp hj with hj | rfl
        · exact h2 j hj y hy
        · rw [hx] at hy; rw [← Fl.fin.inj hy]; exact not_lt.mp hlt
    · cases s with
      | true => exact absurd hx (hinf _)
      | false =>
        refine ⟨μ, by simp [pyMinStep, Fl.lt], ⟨i, by omega, hi'⟩, fun j hj y hy => ?_⟩
        rcases Nat.le_succ_iff.mp hj with hj | rfl
        · exact h2 j hj y hy
        · rw [hx] at hy; cases hy
    · refine ⟨μ, by simp [pyMinStep, Fl.lt], ⟨i, by omega, hi'⟩, fun j hj y hy => ?_⟩
      rcases Nat.le_succ_iff.mp hj with hj | rfl
      · exact h2 j hj y hy
      · rw [hx] at hy; cases hy

theorem le_min_iff {loss : ℕ → Fl} {e : ℕ} {μ : ℝ} (h : StartsFinite loss)
    (hm : IsMinLoss loss e μ) : Fl.le (loss e) (.fin μ) ↔ loss e = .fin μ := by
  rcases hx : loss e with x | s | _
  · constructor
    · intro hle
      have := hm.2 e le_rfl x hx
      rw [le_antisymm hle this]
    · intro hh
      rw [Fl.fin.inj hh]
      exact le_refl μ
  · cases s with
    | true => exact absurd hx (h.2 _)
    | false => simp [Fl.le]
  · simp [Fl.le]

theorem lossIndex_ok {x : Fl} (hx : x ≠ .nan) {l : List Fl} {k : ℕ} (hk : l[k]? = some x)
    (hlt : ∀ i < k, l[i]? ≠ some x) : lossIndex x l = .ok k := by
  induction l generalizing k with
  | nil => simp at hk
  | cons y ys ih =>
    cases k with
    | zero =>
      obtain rfl : y = x := by simpa using hk
      simp [lossIndex, hx]
    | succ k =>
      have hy : y ≠ x := by
        have := hlt 0 (Nat.succ_pos k)
        simpa using this
      have := ih (k := k) (by simpa using hk) fun i hi => by
        have := hlt (i + 1) (Nat.succ_lt_succ hi)
        simpa using this
      simp [lossIndex, hy, this, Except.map]

theorem firstBest_exists {loss : ℕ → Fl} {n : ℕ} {μ : ℝ} (hm : IsMinLoss loss n μ) :
    ∃ k, k ≤ n ∧ loss k = .fin μ ∧ ∀ i < k, loss i ≠ .fin μ := by
  classical
  have hex : ∃ k, loss k = .fin μ := by
    obtain ⟨i, -, hi⟩ := hm.1
    exact ⟨i, hi⟩
  refine ⟨Nat.find hex, ?_, Nat.find_spec hex, fun i hi => Nat.find_min hex hi⟩
  obtain ⟨i, hin, hi⟩ := hm.1
  exact (Nat.find_min' hex hi).trans hin

theorem lossIndex_range {loss : ℕ → Fl} {n : ℕ} {μ : ℝ} {k : ℕ} (hk : k ≤ n) (h : loss k = .fin μ)
    (hlt : ∀ i < k, loss i ≠ .fin μ) :
    lossIndex (.fin μ) ((List.range (n + 1)).map loss) = .ok k := by
  refine lossIndex_ok (by simp) ?_ fun i hi => ?_
  · rw [List.getElem?_map, List.getElem?_range (by omega)]
    simp [h]
  · rw [List.getElem?_map, List.getElem?_range (by omega)]
    simpa using hlt i hi

end

end Hooke
