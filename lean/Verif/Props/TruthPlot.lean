import Verif.Model.TruthPlot
import Verif.Props.ScatterPlot

/-!
# C167: plots of predictions against references
-/

noncomputable section

namespace Hooke

open Spec

theorem mem_pairValues {pts : List (ℝ × ℝ)} {x : ℝ} :
    x ∈ pairValues pts ↔ ∃ q ∈ pts, x = q.1 ∨ x = q.2 := by
  unfold pairValues
  simp [List.mem_flatMap]

theorem pairValues_ne_nil {pts : List (ℝ × ℝ)} (h : pts ≠ []) : pairValues pts ≠ [] := by
  obtain ⟨q, hq⟩ := List.exists_mem_of_ne_nil _ h
  intro h'
  have := mem_pairValues.mpr ⟨q, hq, Or.inl rfl⟩
  rw [h'] at this
  cases this

theorem normalizePairs_ok {pts : List (ℝ × ℝ)} (h : pts ≠ []) {mn mx : ℝ}
    (hs : Spans (pairValues pts) mn mx) :
    normalizePairs pts = .ok (if mx - mn = 0 then none
      else some (pts.map fun q => ((q.1 - mn) / (mx - mn), (q.2 - mn) / (mx - mn)))) := by
  obtain ⟨a, h1, h2, h3⟩ := npMin_spec (pairValues_ne_nil h)
  obtain ⟨b, h4, h5, h6⟩ := npMax_spec (pairValues_ne_nil h)
  have ha : a = mn := le_antisymm (h3 _ hs.2.1) (hs.1 a h2).1
  have hb : b = mx := le_antisymm (hs.1 b h5).2 (h6 _ hs.2.2)
  unfold normalizePairs
  rw [h1, h4, ha, hb]
  rfl

theorem pairValues_map (f : ℝ → ℝ) (pts : List (ℝ × ℝ)) :
    pairValues (pts.map fun q => (f q.1, f q.2)) = (pairValues pts).map f := by
  unfold pairValues
  induction pts with
  | nil => rfl
  | cons q pts ih =>
    rw [List.map_cons, List.flatMap_cons, ih, List.flatMap_cons, List.map_append]
    rfl

/-- The value of a step of the loop. -/
theorem truthStep_ok (isNormalize : Bool) {s : String × List (ℝ × ℝ)} (hp : s.2 ≠ []) :
    ∃ o : String × Option (List (ℝ × ℝ)), (do
        let v ← if isNormalize then normalizePairs s.2 else .ok (some s.2)
        return (s.1, v) : Py (String × Option (List (ℝ × ℝ)))) = .ok o ∧ o.1 = s.1 ∧
        (isNormalize = false → o.2 = some s.2) ∧
        (isNormalize = true → normalizePairs s.2 = .ok o.2) := by
  cases isNormalize with
  | false => exact ⟨(s.1, some s.2), rfl, rfl, fun _ => rfl, fun h => (by cases h)⟩
  | true =>
    obtain ⟨a, h1, -, -⟩ := npMin_spec (pairValues_ne_nil hp)
    obtain ⟨b, h4, -, -⟩ := npMax_spec (pairValues_ne_nil hp)
    have h : ∃ v, normalizePairs s.2 = .ok v := by
      unfold normalizePairs
      rw [h1, h4]
      exact ⟨_, rfl⟩
    obtain ⟨v, hv⟩ := h
    refine ⟨(s.1, v), ?_, rfl, fun h => (by cases h), fun _ => hv⟩
    rw [if_pos rfl, hv]
    rfl

/-- **C167 (points).** Every prediction process is plotted with its label, in order: its points as they are,
or, normalized and not all the same number, with the smallest of all its references and predictions mapped
to zero and the largest one to one, so that all points are in the unit square and the order of references
and predictions is the same. -/
theorem C167_points {isNormalize : Bool} {sets : List (String × List (ℝ × ℝ))} (hne : sets ≠ [])
    (hp : ∀ s ∈ sets, s.2 ≠ []) :
    ∃ out, truthSets isNormalize sets = .ok out ∧
      List.Forall₂ (fun s (o : String × Option (List (ℝ × ℝ))) => o.1 = s.1 ∧
        (isNormalize = false → o.2 = some s.2) ∧
        (isNormalize = true → ∀ mn mx, Spans (pairValues s.2) mn mx → mn < mx →
          ∃ pts, o.2 = some pts ∧ pts.length = s.2.length ∧
            Spans (pairValues pts) 0 1 ∧
            List.Forall₂ (fun q (n : ℝ × ℝ) => mn + n.1 * (mx - mn) = q.1 ∧ mn + n.2 * (mx - mn) = q.2 ∧
              (n.1 ≤ n.2 ↔ q.1 ≤ q.2)) s.2 pts)) sets out := by
  choose! o ho using fun (s : String × List (ℝ × ℝ)) (h : s.2 ≠ []) => truthStep_ok isNormalize h
  refine ⟨sets.map o, ?_, ?_⟩
  · unfold truthSets
    rw [raiseIf, if_neg hne]
    exact mapM_of_forall fun s hs => (ho s (hp s hs)).1
  · rw [List.forall₂_map_right_iff, List.forall₂_same]
    intro s hs
    obtain ⟨-, h1, h2, h3⟩ := ho s (hp s hs)
    refine ⟨h1, h2, ?_⟩
    intro hb mn mx hsp hlt
    have h4 := h3 hb
    have hd : 0 < mx - mn := sub_pos.mpr hlt
    rw [normalizePairs_ok (hp s hs) hsp, if_neg hd.ne'] at h4
    refine ⟨_, (Except.ok.inj h4).symm, by simp, ?_, ?_⟩
    · rw [pairValues_map fun x => (x - mn) / (mx - mn)]
      refine ⟨?_, ?_, ?_⟩
      · intro y hy
        obtain ⟨x, hx, rfl⟩ := List.mem_map.mp hy
        obtain ⟨l1, l2⟩ := hsp.1 x hx
        exact ⟨div_nonneg (by linarith) hd.le, (div_le_one hd).mpr (by linarith)⟩
      · exact List.mem_map.mpr ⟨mn, hsp.2.1, by simp⟩
      · exact List.mem_map.mpr ⟨mx, hsp.2.2, div_self hd.ne'⟩
    · rw [List.forall₂_map_right_iff, List.forall₂_same]
      intro q _
      refine ⟨by field_simp; ring, by field_simp; ring, ?_⟩
      rw [div_le_div_iff_of_pos_right hd]
      constructor <;> intro h <;> linarith

/-- **C167 (coefficient).** Normalizing a prediction process does not change its coefficient of
determination, unless the spread of the references is below the tolerance. -/
theorem C167_r2 {pts out : List (ℝ × ℝ)} {a b : ℝ} (ha : SquaredErrors pts a) (hb : SquaredSpread pts b)
    (hs : 1 / 10 ^ 8 * a ≤ b) (h : normalizePairs pts = .ok (some out)) : r2Value out = r2Value pts := by
  unfold normalizePairs at h
  obtain ⟨mn, -, h⟩ := bind_ok h
  obtain ⟨mx, -, h⟩ := bind_ok h
  have h := Except.ok.inj h
  split_ifs at h with h0
  obtain rfl := Option.some.inj h
  rw [← C165_units ha hb hs (s := 1 / (mx - mn)) (by simpa using h0) (-mn / (mx - mn))]
  congr 1
  refine List.map_congr_left fun q _ => ?_
  refine Prod.ext ?_ ?_ <;> dsimp only <;> ring

/-- **C167 is violated for the error bound of normalized processes.** The band of a relative error holds
points of a normalized process by their distances from the smallest number, not by their relative errors:
the prediction 109 of the reference 100 has a relative error of 9 %, and is outside the band of 10 %. -/
theorem C167_band_violated :
    ∃ out n, normalizePairs [(100, 109), (200, 200)] = .ok (some out) ∧ out[0]? = some n ∧
      |(109 : ℝ) - 100| ≤ 0.1 * |100| ∧
      ¬ (min (identityBand 0.1 n.1).1 (identityBand 0.1 n.1).2 ≤ n.2 ∧
        n.2 ≤ max (identityBand 0.1 n.1).1 (identityBand 0.1 n.1).2) := by
  have hs : Spans (pairValues [((100 : ℝ), (109 : ℝ)), (200, 200)]) 100 200 := by
    refine ⟨?_, ?_, ?_⟩
    · intro x hx
      obtain ⟨q, hq, h⟩ := mem_pairValues.mp hx
      fin_cases hq <;> rcases h with rfl | rfl <;> norm_num
    · simp [pairValues]
    · simp [pairValues]
  refine ⟨_, (0, 0.09), by rw [normalizePairs_ok (by simp) hs, if_neg (by norm_num)], ?_, by norm_num [abs_of_pos], ?_⟩
  · simp only [List.map_cons, List.getElem?_cons_zero]
    norm_num
  · rw [C165_band (by norm_num)]
    norm_num [abs_of_pos]

/-- **C167 is violated for constant processes.** A normalized process whose references and predictions are
all the same number has no points: they are not numbers. -/
theorem C167_constant_violated {pts : List (ℝ × ℝ)} (h : pts ≠ []) {x : ℝ} (hx : ∀ q ∈ pts, q = (x, x)) :
    normalizePairs pts = .ok none := by
  obtain ⟨q, hq⟩ := List.exists_mem_of_ne_nil _ h
  have hs : Spans (pairValues pts) x x := by
    refine ⟨?_, ?_, ?_⟩
    · intro y hy
      obtain ⟨r, hr, h⟩ := mem_pairValues.mp hy
      rw [hx r hr] at h
      rcases h with rfl | rfl <;> exact ⟨le_rfl, le_rfl⟩
    · exact mem_pairValues.mpr ⟨q, hq, Or.inl (by rw [hx q hq])⟩
    · exact mem_pairValues.mpr ⟨q, hq, Or.inl (by rw [hx q hq])⟩
  rw [normalizePairs_ok h hs, if_pos (sub_self x)]

/-- **C167 (refusals).** No process at all, and normalizing a process without points, are refused. -/
theorem C167_refusals : (∀ b, truthSets b [] = .error .valueError) ∧
    ∀ l, truthSets true [(l, [])] = .error .valueError := by
  constructor
  · intro b
    unfold truthSets
    rw [raiseIf, if_pos rfl]
    rfl
  · intro l
    unfold truthSets
    rw [raiseIf, if_neg (by simp)]
    rfl

/-- **C167 (coefficient shown).** The plot of a single process shows the coefficient of determination of its
references and predictions, whether they are normalized or not, unless the spread of the references is below
the tolerance. -/
theorem C167_shown {l : String} {pts : List (ℝ × ℝ)} {a b : ℝ} (ha : SquaredErrors pts a)
    (hb : SquaredSpread pts b) (h0 : b ≠ 0) (hs : 1 / 10 ^ 8 * a ≤ b) (isNormalize : Bool) :
    ∃ out r, truthSets isNormalize [(l, pts)] = .ok out ∧ truthR2 true out = .ok (some (some r)) ∧
      IsR2 pts r := by
  obtain ⟨r, hr, hr2, -⟩ := C165_r2 ha hb h0 hs
  have hne : pts ≠ [] := by
    rintro rfl
    obtain ⟨μ, -, e⟩ := hb
    exact h0 (by simpa using e)
  obtain ⟨o, ho, -, h1, h2⟩ := truthStep_ok isNormalize (s := (l, pts)) hne
  refine ⟨[o], r, ?_, ?_, hr2⟩
  · unfold truthSets
    rw [raiseIf, if_neg (by simp), List.mapM_cons, ho]
    rfl
  · have hv : ∃ v, o.2 = some v ∧ r2Value v = some r := by
      cases isNormalize with
      | false => exact ⟨pts, h1 rfl, hr⟩
      | true =>
        have h3 := h2 rfl
        cases e : o.2 with
        | some v =>
          rw [e] at h3
          exact ⟨v, rfl, (C167_r2 ha hb hs h3).trans hr⟩
        | none =>
          exfalso
          rw [e] at h3
          unfold normalizePairs at h3
          obtain ⟨mn, hmn, h3⟩ := bind_ok h3
          obtain ⟨mx, hmx, h3⟩ := bind_ok h3
          have h3 := Except.ok.inj h3
          split_ifs at h3 with h4
          obtain ⟨a', e1, -, e3⟩ := npMin_spec (pairValues_ne_nil hne)
          obtain ⟨b', e4, -, e6⟩ := npMax_spec (pairValues_ne_nil hne)
          dsimp only at hmn hmx
          rw [e1] at hmn
          rw [e4] at hmx
          cases hmn
          cases hmx
          have hc : ∀ q ∈ pts, q.1 = mn := fun q hq => by
            have hm := mem_pairValues.mpr ⟨q, hq, Or.inl rfl⟩
            have := e3 _ hm
            have := e6 _ hm
            linarith
          obtain ⟨μ, hμ, hb⟩ := hb
          have e7 : (pts.map Prod.fst).sum = pts.length * mn := by
            have : pts.map Prod.fst = List.replicate pts.length mn := by
              rw [List.eq_replicate_iff]
              refine ⟨by simp, fun x hx => ?_⟩
              obtain ⟨q, hq, rfl⟩ := List.mem_map.mp hx
              exact hc q hq
            rw [this, List.sum_replicate, nsmul_eq_mul]
          have hlen : (0 : ℝ) < pts.length := by exact_mod_cast List.length_pos_of_ne_nil hne
          unfold IsMean at hμ
          rw [e7, List.length_map] at hμ
          have hmu : μ = mn := by
            have : (pts.length : ℝ) * (μ - mn) = 0 := by linarith
            rcases mul_eq_zero.mp this with h | h
            · exact absurd h hlen.ne'
            · linarith
          apply h0
          rw [hb]
          refine List.sum_eq_zero fun x hx => ?_
          obtain ⟨q, hq, rfl⟩ := List.mem_map.mp hx
          rw [hc q hq, hmu]
          ring
    obtain ⟨v, hv1, hv2⟩ := hv
    simp only [truthR2, if_true]
    rw [hv1]
    dsimp only
    rw [hv2]
    rfl

/-- **C167 is violated for the coefficient of a constant process.** The plot of a process whose references and
predictions are all the same number raises a `ZeroDivisionError` where its coefficient of determination is
asked for. -/
theorem C167_coefficient_violated {l : String} {pts : List (ℝ × ℝ)} (_h : pts ≠ []) {x : ℝ}
    (hx : ∀ q ∈ pts, q = (x, x)) :
    ∃ out, truthSets false [(l, pts)] = .ok out ∧ truthR2 true out = .error .zeroDivision := by
  refine ⟨[(l, some pts)], ?_, ?_⟩
  · unfold truthSets
    rw [raiseIf, if_neg (by simp)]
    rfl
  · have hn : r2Value pts = none := C165_constant_violated hx
    simp only [truthR2, if_true]
    rw [hn]
    rfl

/-- A process with two points, whose numbers span the interval from 100 to 200. -/
example : Spans (pairValues [((100 : ℝ), (109 : ℝ)), (200, 200)]) 100 200 ∧
    SquaredErrors [(100, 109), (200, 200)] 81 ∧ SquaredSpread [(100, 109), (200, 200)] 5000 := by
  refine ⟨⟨?_, by simp [pairValues], by simp [pairValues]⟩, ?_, 150, ?_, ?_⟩
  · intro x hx
    obtain ⟨q, hq, h⟩ := mem_pairValues.mp hx
    fin_cases hq <;> rcases h with rfl | rfl <;> norm_num
  · unfold SquaredErrors
    norm_num
  · unfold IsMean
    norm_num
  · norm_num

end Hooke
