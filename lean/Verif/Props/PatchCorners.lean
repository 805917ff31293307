import Verif.Spec.PatchCorners
import Std.Data.String.ToNat
import Verif.Lemmas.Py
import Verif.Lemmas.PyDict
import Verif.Props.Hybrid
import Verif.Props.TimeSeriesBatch

/-!
# C96: displacements of the corners of a material patch
-/

noncomputable section

namespace Hooke

open Spec

theorem cornerIndex_ok {nDim : ℕ} {l : String} {c : ℕ} (h : cornerIndex nDim l = .ok c) :
    c < nCorners nDim ∧ l = toString (c + 1) := by
  unfold cornerIndex at h
  have h := orRaise_ok.mp h
  have h1 := List.find?_some h
  have h2 := List.mem_of_find?_eq_some h
  exact ⟨List.mem_range.mp h2, by simpa using (of_decide_eq_true h1).symm⟩

theorem toString_succ_inj {a b : ℕ} (h : toString (a + 1) = toString (b + 1)) : a = b := by
  have := Nat.repr_inj.mp (show Nat.repr (a + 1) = Nat.repr (b + 1) from h)
  omega

theorem cornerIndex_label {nDim c : ℕ} (h : c < nCorners nDim) :
    cornerIndex nDim (toString (c + 1)) = .ok c := by
  unfold cornerIndex
  have : (List.range (nCorners nDim)).find? (fun i => decide (toString (i + 1) = toString (c + 1))) =
      some c := by
    rw [List.find?_eq_some_iff_getElem]
    refine ⟨by simp, c, by simpa using h, by simp, fun j hj => ?_⟩
    simp only [List.getElem_range, Bool.not_eq_true', decide_eq_false_iff_not]
    intro h
    have := toString_succ_inj h
    omega
  rw [this]
  rfl

theorem setCornerBc_ok {nDim : ℕ} {bc bc' : ℕ → List ℤ} {item : String × Option (List ℤ)} :
    setCornerBc nDim bc item = .ok bc' ↔ ∃ c v, c < nCorners nDim ∧ item.1 = toString (c + 1) ∧
      item.2 = some v ∧ v.length = nDim ∧ bc' = Function.update bc c v := by
  constructor
  · intro h
    unfold setCornerBc at h
    obtain ⟨c, hc, h⟩ := bind_ok h
    obtain ⟨v, hv, h⟩ := bind_ok h
    obtain ⟨_, hl, h⟩ := bind_ok h
    obtain ⟨h1, h2⟩ := cornerIndex_ok hc
    exact ⟨c, v, h1, h2, orRaise_ok.mp hv, not_not.mp (raiseIf_ok.mp hl), by cases h; rfl⟩
  · rintro ⟨c, v, h1, h2, h3, h4, rfl⟩
    unfold setCornerBc
    rw [h2, cornerIndex_label h1, h3]
    simp [orRaise, raiseIf, h4, bind, Except.bind, pure, Except.pure]

theorem bcFold_ok {nDim : ℕ} {d : PyDict (Option (List ℤ))} (hd : (KDict.keys d).Nodup)
    {bc₀ bc : ℕ → List ℤ} (h : d.foldlM (setCornerBc nDim) bc₀ = .ok bc) (c : ℕ) :
    bc c = (match d.get? (toString (c + 1)) with | some (some v) => v | _ => bc₀ c) := by
  induction d generalizing bc₀ with
  | nil => cases h; rfl
  | cons a d ih =>
    rw [List.foldlM_cons] at h
    obtain ⟨bc₁, h1, h2⟩ := bind_ok h
    obtain ⟨c', v, hc', ha, hv, -, rfl⟩ := setCornerBc_ok.mp h1
    obtain ⟨k, w⟩ := a
    simp only at ha hv
    subst ha hv
    simp only [KDict.keys, List.map_cons, List.nodup_cons] at hd
    rw [ih hd.2 h2]
    simp only [KDict.get?]
    by_cases hc : c' = c
    · subst hc
      have : KDict.get? d (toString (c' + 1)) = none := KDict.get?_eq_none.mpr hd.1
      rw [this, if_pos rfl]
      simp
    · rw [if_neg fun h => hc (toString_succ_inj h)]
      have : Function.update bc₀ c' v c = bc₀ c := Function.update_of_ne (Ne.symm hc) _ _
      rw [this]

theorem bcFold_exists {nDim : ℕ} {d : PyDict (Option (List ℤ))} (bc₀ : ℕ → List ℤ) :
    (∃ bc, d.foldlM (setCornerBc nDim) bc₀ = .ok bc) ↔ BcOk nDim (.dict d) := by
  induction d generalizing bc₀ with
  | nil => simp [BcOk, pure, Except.pure]
  | cons a d ih =>
    rw [List.foldlM_cons]
    constructor
    · rintro ⟨bc, h⟩
      obtain ⟨bc₁, h1, h2⟩ := bind_ok h
      obtain ⟨c', v, hc', ha, hv, hl, -⟩ := setCornerBc_ok.mp h1
      have := (ih bc₁).mp ⟨bc, h2⟩
      intro b hb
      rcases List.mem_cons.mp hb with rfl | hb
      · exact ⟨⟨c', hc', ha⟩, v, hv, hl⟩
      · exact this b hb
    · intro h
      obtain ⟨⟨c, hc, h1⟩, v, h2, h3⟩ := h a (by simp)
      have h4 := (setCornerBc_ok (bc := bc₀)).mpr ⟨c, v, hc, h1, h2, h3, rfl⟩
      rw [h4]
      exact (ih _).mpr fun b hb => h b (by simp [hb])

theorem buildCornersBc_fixed {nDim : ℕ} {bc : DictArg (Option (List ℤ))}
    (hd : ∀ d, bc = .dict d → (KDict.keys d).Nodup) {b : ℕ → List ℤ}
    (h : buildCornersBc nDim bc = .ok b) (c k : ℕ) :
    (b c).getD k 0 = 1 ↔ CornerFixed bc c k := by
  have hrep : ¬ (List.replicate nDim (0 : ℤ)).getD k 0 = 1 := by
    rw [List.getD_eq_getElem?_getD, List.getElem?_replicate]
    split <;> simp
  cases bc with
  | none =>
    cases h
    simp only [CornerFixed, reduceCtorEq, false_and, exists_false, iff_false]
    exact hrep
  | other =>
    cases h
    simp only [CornerFixed, reduceCtorEq, false_and, exists_false, iff_false]
    exact hrep
  | dict d =>
    rw [bcFold_ok (hd d rfl) h c]
    unfold CornerFixed
    cases hg : KDict.get? d (toString (c + 1)) with
    | none =>
      simp only [DictArg.dict.injEq]
      constructor
      · exact fun h => absurd h hrep
      · rintro ⟨_, v, rfl, h, -⟩; rw [hg] at h; cases h
    | some o =>
      cases o with
      | none =>
        simp only [DictArg.dict.injEq]
        constructor
        · exact fun h => absurd h hrep
        · rintro ⟨_, v, rfl, h, -⟩; rw [hg] at h; cases h
      | some v =>
        simp only [DictArg.dict.injEq]
        rw [List.getD_eq_getElem?_getD]
        constructor
        · intro h
          refine ⟨d, v, rfl, hg, ?_⟩
          cases hv : v[k]? with
          | none => simp [hv] at h
          | some z => simpa [hv] using h
        · rintro ⟨_, w, rfl, h, hw⟩
          rw [hg] at h
          cases h
          simp [hw]

theorem rangeOf_ok {r : Option (List ℝ)} {a b : ℝ} : rangeOf r = .ok (a, b) ↔ r = some [a, b] := by
  unfold rangeOf
  rcases r with _ | (_ | ⟨x, _ | ⟨y, _ | ⟨z, l⟩⟩⟩) <;>
    simp [orRaise, bind, Except.bind, pure, Except.pure]

theorem cornerRanges_spec {nDim c : ℕ} {d : PyDict (Option (List (Option (List ℝ))))}
    {l : List (ℝ × ℝ)} (h : cornerRanges nDim d c = .ok l) {k : ℕ} (hk : k < nDim) :
    (∃ w, d.get? (toString (c + 1)) = some (some w) ∧
        w[k]? = some (some [(l.getD k (0, 0)).1, (l.getD k (0, 0)).2])) ∨
      (toString (c + 1) ∉ d.keys ∧ l.getD k (0, 0) = (0, 0)) := by
  unfold cornerRanges at h
  cases hg : d.get? (toString (c + 1)) with
  | none =>
    rw [hg] at h
    cases h
    refine Or.inr ⟨KDict.get?_eq_none.mp hg, ?_⟩
    rw [List.getD_eq_getElem?_getD, List.getElem?_replicate]
    split <;> rfl
  | some o =>
    rw [hg] at h
    cases o with
    | none => cases h
    | some w =>
      simp only at h
      split_ifs at h with hl
      refine Or.inl ⟨w, rfl, ?_⟩
      have hf := mapM_forall₂ h
      rw [not_not] at hl
      have hlw := hf.length_eq
      have := (List.forall₂_iff_get.mp hf).2 k (by omega) (by omega)
      simp only [List.get_eq_getElem] at this
      rw [List.getD_eq_getElem _ _ (by omega), List.getElem?_eq_getElem (by omega)]
      have := rangeOf_ok.mp (show rangeOf w[k] = .ok (l[k].1, l[k].2) from this)
      rw [this]

theorem buildCornersRange_spec {nDim : ℕ} {bc : DictArg (Option (List ℤ))}
    {ranges : DictArg (Option (List (Option (List ℝ))))}
    (hd : ∀ d, bc = .dict d → (KDict.keys d).Nodup) {b : ℕ → List ℤ}
    (h : buildCornersBc nDim bc = .ok b) {r : ℕ → ℕ → ℝ × ℝ}
    (hr : buildCornersRange nDim ranges b = .ok r) {c k : ℕ} (hc : c < nCorners nDim) (hk : k < nDim) :
    CornerRange bc ranges c k (r c k) := by
  unfold buildCornersRange at hr
  obtain ⟨rs, h1, h2⟩ := bind_ok hr
  cases h2
  unfold CornerRange
  beta_reduce
  by_cases hf : CornerFixed bc c k
  · left
    refine ⟨hf, ?_⟩
    rw [if_pos ((buildCornersBc_fixed hd h c k).mpr hf)]
  right
  refine ⟨hf, ?_⟩
  rw [if_neg fun hh => hf ((buildCornersBc_fixed hd h c k).mp hh)]
  cases ranges with
  | none =>
    cases h1
    right
    refine ⟨Or.inl rfl, ?_⟩
    rw [List.getD_eq_getElem (List.replicate (nCorners nDim) _) _ (by simpa using hc)]
    rw [List.getElem_replicate, List.getD_eq_getElem _ _ (by simpa using hk), List.getElem_replicate]
  | other => cases h1
  | dict d =>
    have hff := mapM_forall₂ h1
    have hl := hff.length_eq
    rw [List.length_range] at hl
    have := (List.forall₂_iff_get.mp hff).2 c (by simpa using hc) (by omega)
    simp only [List.get_eq_getElem, List.getElem_range] at this
    rw [List.getD_eq_getElem _ _ (by omega : c < rs.length)]
    rcases cornerRanges_spec this hk with ⟨w, hw, hwk⟩ | ⟨hn, h0⟩
    · exact Or.inl ⟨d, w, rfl, hw, hwk⟩
    · exact Or.inr ⟨Or.inr ⟨d, rfl, hn⟩, h0⟩

theorem edgeOrder_spec {d : PyDict (Option ℤ)} {e o : ℕ} (h : edgeOrder d e = .ok o) :
    EdgeOrder (.dict d) (e + 1) o := by
  unfold edgeOrder at h
  unfold EdgeOrder
  simp only
  cases hg : d.get? (toString (e + 1)) with
  | none =>
    rw [hg] at h
    cases h
    exact Or.inr ⟨KDict.get?_eq_none.mp hg, rfl⟩
  | some v =>
    rw [hg] at h
    obtain ⟨z, hz, h⟩ := bind_ok h
    cases h
    rw [orRaise_ok.mp hz]
    exact Or.inl ⟨z, rfl, by simp⟩

theorem buildOrders_spec {nDim : ℕ} {order : OrderArg} {o : ℕ → ℕ → ℕ}
    (h : buildOrders nDim order = .ok o) {e : ℕ} {i j : ℕ}
    (he : (edgesMapping nDim)[e]? = some (i, j)) (hi : (edgesMapping nDim).idxOf (i, j) = e) :
    EdgeOrder order (e + 1) (o i j) := by
  cases order with
  | none => cases h; rfl
  | int z => cases h; simp [EdgeOrder]
  | other => cases h
  | dict d =>
    obtain ⟨os, h1, h2⟩ := bind_ok h
    cases h2
    have hff := mapM_forall₂ h1
    have hl := hff.length_eq
    rw [List.length_range] at hl
    have hlt : e < (edgesMapping nDim).length := (List.getElem?_eq_some_iff.mp he).1
    have := (List.forall₂_iff_get.mp hff).2 e (by simpa using hlt) (by omega)
    simp only [List.get_eq_getElem, List.getElem_range] at this
    beta_reduce
    rw [hi, List.getD_eq_getElem _ _ (by omega : e < os.length)]
    exact edgeOrder_spec this

/-- The displacements of the corners of a two-dimensional patch. -/
theorem cornersDisp_two (range : ℕ → ℕ → ℝ × ℝ) (orders : ℕ → ℕ → ℕ) (u₀ : ℕ → ℕ → ℝ)
    (u : ℕ → ℕ → ℕ → ℝ × ℝ) {lab i a b : ℕ} (he : (lab, i, a, b) ∈ patchEdges2) :
    ∃ j, (edgesMapping 2)[lab - 1]? = some (i, j) ∧ (edgesMapping 2).idxOf (i, j) = lab - 1 ∧
      (orders i j = 0 → (cornersDisp 2 range orders u₀ u).1 a (1 - i) =
          commonDisp (range a (1 - i)) (range b (1 - i)) (u i j (1 - i)) ∧
        (cornersDisp 2 range orders u₀ u).1 b (1 - i) =
          commonDisp (range a (1 - i)) (range b (1 - i)) (u i j (1 - i))) ∧
      (orders i j ≠ 0 → (cornersDisp 2 range orders u₀ u).1 a (1 - i) =
          uniformDraw (range a (1 - i)) (u₀ a (1 - i)) ∧
        (cornersDisp 2 range orders u₀ u).1 b (1 - i) =
          uniformDraw (range b (1 - i)) (u₀ b (1 - i))) := by
  simp only [patchEdges2, List.mem_cons, Prod.mk.injEq, List.not_mem_nil, or_false] at he
  rcases he with ⟨rfl, rfl, rfl, rfl⟩ | ⟨rfl, rfl, rfl, rfl⟩ | ⟨rfl, rfl, rfl, rfl⟩ |
    ⟨rfl, rfl, rfl, rfl⟩
  · refine ⟨0, rfl, by decide, ?_, ?_⟩ <;>
    · intro h
      by_cases h1 : orders 0 1 = 0 <;> by_cases h2 : orders 1 0 = 0 <;> by_cases h3 : orders 1 1 = 0 <;>
        simp [cornersDisp, edgesPerDim, edgeDisp, List.range_succ, setDisp, h, h1, h2, h3]
  · refine ⟨1, rfl, by decide, ?_, ?_⟩ <;>
    · intro h
      by_cases h1 : orders 0 0 = 0 <;> by_cases h2 : orders 1 0 = 0 <;> by_cases h3 : orders 1 1 = 0 <;>
        simp [cornersDisp, edgesPerDim, edgeDisp, List.range_succ, setDisp, h, h1, h2, h3]
  · refine ⟨0, rfl, by decide, ?_, ?_⟩ <;>
    · intro h
      by_cases h1 : orders 0 0 = 0 <;> by_cases h2 : orders 0 1 = 0 <;> by_cases h3 : orders 1 1 = 0 <;>
        simp [cornersDisp, edgesPerDim, edgeDisp, List.range_succ, setDisp, h, h1, h2, h3]
  · refine ⟨1, rfl, by decide, ?_, ?_⟩ <;>
    · intro h
      by_cases h1 : orders 0 0 = 0 <;> by_cases h2 : orders 0 1 = 0 <;> by_cases h3 : orders 1 0 = 0 <;>
        simp [cornersDisp, edgesPerDim, edgeDisp, List.range_succ, setDisp, h, h1, h2, h3]

theorem uniformDraw_mem {r : ℝ × ℝ} {u : ℝ} (hr : r.1 ≤ r.2) (h0 : 0 ≤ u) (h1 : u ≤ 1) :
    uniformDraw r u ∈ Set.Icc r.1 r.2 := by
  unfold uniformDraw
  constructor
  · nlinarith
  · nlinarith

theorem commonDisp_mem {l r : ℝ × ℝ} {u : ℝ × ℝ} (hl : l.1 ≤ l.2) (hr : r.1 ≤ r.2)
    (h0 : 0 ≤ u.1 ∧ u.1 ≤ 1) (h1 : 0 ≤ u.2 ∧ u.2 ≤ 1) :
    (max l.1 r.1 < min l.2 r.2 →
      commonDisp l r u ∈ Set.Icc l.1 l.2 ∧ commonDisp l r u ∈ Set.Icc r.1 r.2) ∧
    commonDisp l r u ∈ Set.Icc ((l.1 + r.1) / 2) ((l.2 + r.2) / 2) := by
  unfold commonDisp
  split_ifs with h
  · have := uniformDraw_mem (r := (max l.1 r.1, min l.2 r.2)) h.le h0.1 h0.2
    simp only at this
    obtain ⟨ha, hb⟩ := this
    have h2 := le_max_left l.1 r.1
    have h3 := le_max_right l.1 r.1
    have h4 := min_le_left l.2 r.2
    have h5 := min_le_right l.2 r.2
    exact ⟨fun _ => ⟨⟨by linarith, by linarith⟩, ⟨by linarith, by linarith⟩⟩, by linarith, by linarith⟩
  · obtain ⟨ha, hb⟩ := uniformDraw_mem hl h0.1 h0.2
    obtain ⟨hc, hd⟩ := uniformDraw_mem hr h1.1 h1.2
    exact ⟨fun hh => absurd hh h, by linarith, by linarith⟩

/-- **C96a.** Two-dimensional patches: the corners of an edge of order zero get the same displacement
orthogonal to the edge, inside both declared ranges if these overlap and between the averages of their
ends in any case; the corners of an edge of higher order get, orthogonal to the edge, a displacement in
their own range. -/
theorem C96_corners {bc : DictArg (Option (List ℤ))}
    {ranges : DictArg (Option (List (Option (List ℝ))))} {order : OrderArg} {u₀ : ℕ → ℕ → ℝ}
    {u : ℕ → ℕ → ℕ → ℝ × ℝ} (hu₀ : ∀ c k, 0 ≤ u₀ c k ∧ u₀ c k ≤ 1)
    (hu : ∀ i j k, (0 ≤ (u i j k).1 ∧ (u i j k).1 ≤ 1) ∧ 0 ≤ (u i j k).2 ∧ (u i j k).2 ≤ 1)
    (hd : ∀ d, bc = .dict d → (KDict.keys d).Nodup) {disp : ℕ → ℕ → ℝ}
    (h : cornerDisplacements 2 bc ranges order u₀ u = .ok disp) {lab i a b : ℕ}
    (he : (lab, i, a, b) ∈ patchEdges2) :
    ∃ o ra rb, EdgeOrder order lab o ∧ CornerRange bc ranges a (1 - i) ra ∧
      CornerRange bc ranges b (1 - i) rb ∧
      (ra.1 ≤ ra.2 → rb.1 ≤ rb.2 →
        (o ≠ 0 → disp a (1 - i) ∈ Set.Icc ra.1 ra.2 ∧ disp b (1 - i) ∈ Set.Icc rb.1 rb.2) ∧
        (o = 0 → disp a (1 - i) = disp b (1 - i) ∧
          (max ra.1 rb.1 < min ra.2 rb.2 → disp a (1 - i) ∈ Set.Icc ra.1 ra.2 ∧
            disp a (1 - i) ∈ Set.Icc rb.1 rb.2) ∧
          disp a (1 - i) ∈ Set.Icc ((ra.1 + rb.1) / 2) ((ra.2 + rb.2) / 2))) := by
  unfold cornerDisplacements at h
  obtain ⟨bc', h1, h⟩ := bind_ok h
  obtain ⟨r, h2, h⟩ := bind_ok h
  obtain ⟨o, h3, h⟩ := bind_ok h
  cases h
  obtain ⟨j, hj, hidx, h0, hp⟩ := cornersDisp_two r o u₀ u he
  have hlab : 1 ≤ lab ∧ i < 2 ∧ a < 4 ∧ b < 4 := by
    simp only [patchEdges2, List.mem_cons, Prod.mk.injEq, List.not_mem_nil, or_false] at he
    omega
  have ho := buildOrders_spec h3 hj hidx
  rw [Nat.sub_add_cancel hlab.1] at ho
  refine ⟨o i j, r a (1 - i), r b (1 - i), ho,
    buildCornersRange_spec hd h1 h2 hlab.2.2.1 (by omega),
    buildCornersRange_spec hd h1 h2 hlab.2.2.2 (by omega), fun hra hrb => ⟨fun hne => ?_, fun he0 => ?_⟩⟩
  · rw [(hp hne).1, (hp hne).2]
    exact ⟨uniformDraw_mem hra (hu₀ _ _).1 (hu₀ _ _).2, uniformDraw_mem hrb (hu₀ _ _).1 (hu₀ _ _).2⟩
  · rw [(h0 he0).1, (h0 he0).2]
    have := commonDisp_mem hra hrb (hu i j (1 - i)).1 (hu i j (1 - i)).2
    exact ⟨rfl, this⟩

theorem CornerRange_unique {bc : DictArg (Option (List ℤ))}
    {ranges : DictArg (Option (List (Option (List ℝ))))} {c k : ℕ} {r r' : ℝ × ℝ}
    (h : CornerRange bc ranges c k r) (h' : CornerRange bc ranges c k r') : r = r' := by
  rcases h with ⟨hf, rfl⟩ | ⟨hf, h⟩
  · rcases h' with ⟨-, rfl⟩ | ⟨hf', -⟩
    · rfl
    · exact absurd hf hf'
  · rcases h' with ⟨hf', -⟩ | ⟨-, h'⟩
    · exact absurd hf' hf
    · rcases h with ⟨d, l, h1, h2, h3⟩ | ⟨h1, rfl⟩
      · rcases h' with ⟨d', l', h1', h2', h3'⟩ | ⟨h1', rfl⟩
        · rw [h1] at h1'
          cases h1'
          rw [h2] at h2'
          cases h2'
          rw [h3] at h3'
          simp only [Option.some.injEq, List.cons.injEq, and_true] at h3'
          exact Prod.ext h3'.1 h3'.2
        · rcases h1' with h1' | ⟨d', h1', hn⟩
          · rw [h1] at h1'; cases h1'
          · rw [h1] at h1'
            cases h1'
            rw [KDict.get?_eq_none.mpr hn] at h2
            cases h2
      · rcases h' with ⟨d', l', h1', h2', h3'⟩ | ⟨h1', rfl⟩
        · rcases h1 with h1 | ⟨d, h1, hn⟩
          · rw [h1] at h1'; cases h1'
          · rw [h1] at h1'
            cases h1'
            rw [KDict.get?_eq_none.mpr hn] at h2'
            cases h2'
        · rfl

theorem EdgeOrder_unique {order : OrderArg} {lab o o' : ℕ} (h : EdgeOrder order lab o)
    (h' : EdgeOrder order lab o') : o = o' := by
  cases order with
  | none => exact h.trans h'.symm
  | int z => simp only [EdgeOrder] at h h'; omega
  | other => exact h.elim
  | dict d =>
    rcases h with ⟨z, hz, h⟩ | ⟨hn, rfl⟩ <;> rcases h' with ⟨z', hz', h'⟩ | ⟨hn', rfl⟩
    · rw [hz] at hz'; cases hz'; omega
    · rw [KDict.get?_eq_none.mpr hn'] at hz; cases hz
    · rw [KDict.get?_eq_none.mpr hn] at hz'; cases hz'
    · rfl

/-- **C96b.** A fixed degree of freedom orthogonal to an edge is not displaced if that edge has a
positive order, or the same degree of freedom of the corner at its other end has the range zero too. -/
theorem C96_fixed {bc : DictArg (Option (List ℤ))}
    {ranges : DictArg (Option (List (Option (List ℝ))))} {order : OrderArg} {u₀ : ℕ → ℕ → ℝ}
    {u : ℕ → ℕ → ℕ → ℝ × ℝ} (hu₀ : ∀ c k, 0 ≤ u₀ c k ∧ u₀ c k ≤ 1)
    (hu : ∀ i j k, (0 ≤ (u i j k).1 ∧ (u i j k).1 ≤ 1) ∧ 0 ≤ (u i j k).2 ∧ (u i j k).2 ≤ 1)
    (hd : ∀ d, bc = .dict d → (KDict.keys d).Nodup) {disp : ℕ → ℕ → ℝ}
    (h : cornerDisplacements 2 bc ranges order u₀ u = .ok disp) {lab i a b c : ℕ}
    (he : (lab, i, a, b) ∈ patchEdges2) (hc : c = a ∨ c = b) (hfix : CornerFixed bc c (1 - i))
    (hcase : (∃ o, EdgeOrder order lab o ∧ o ≠ 0 ∧
        ∀ r, CornerRange bc ranges a (1 - i) r ∨ CornerRange bc ranges b (1 - i) r → r.1 ≤ r.2) ∨
      (CornerRange bc ranges a (1 - i) (0, 0) ∧ CornerRange bc ranges b (1 - i) (0, 0))) :
    disp c (1 - i) = 0 := by
  obtain ⟨o, ra, rb, ho, hra, hrb, h1⟩ := C96_corners hu₀ hu hd h he
  rcases hcase with ⟨o', ho', hne, hle⟩ | ⟨h2, h3⟩
  · rw [EdgeOrder_unique ho' ho] at hne
    obtain ⟨⟨h2, h3⟩, h4, h5⟩ := (h1 (hle _ (Or.inl hra)) (hle _ (Or.inr hrb))).1 hne
    rcases hc with rfl | rfl
    · have := CornerRange_unique hra (Or.inl ⟨hfix, rfl⟩)
      rw [this] at h2 h3
      exact le_antisymm h3 h2
    · have := CornerRange_unique hrb (Or.inl ⟨hfix, rfl⟩)
      rw [this] at h4 h5
      exact le_antisymm h5 h4
  · rw [CornerRange_unique hra h2, CornerRange_unique hrb h3] at h1
    have h4 := h1 le_rfl le_rfl
    by_cases h0 : o = 0
    · obtain ⟨h5, -, h6, h7⟩ := h4.2 h0
      norm_num at h6 h7
      rcases hc with rfl | rfl
      · exact le_antisymm h7 h6
      · rw [← h5]; exact le_antisymm h7 h6
    · obtain ⟨⟨h5, h6⟩, h7, h8⟩ := h4.1 h0
      rcases hc with rfl | rfl
      · exact le_antisymm h6 h5
      · exact le_antisymm h8 h7

theorem mapM_exists {α β : Type} {f : α → Py β} {l : List α} (h : ∀ a ∈ l, ∃ b, f a = .ok b) :
    ∃ r, l.mapM f = .ok r := by
  induction l with
  | nil => exact ⟨[], rfl⟩
  | cons a l ih =>
    obtain ⟨b, hb⟩ := h a (by simp)
    obtain ⟨r, hr⟩ := ih fun x hx => h x (by simp [hx])
    exact ⟨b :: r, by rw [List.mapM_cons, hb, hr]; rfl⟩

theorem Forall₂_exists_left {α β : Type} {R : α → β → Prop} {l : List α} {m : List β}
    (h : List.Forall₂ R l m) {a : α} (ha : a ∈ l) : ∃ b ∈ m, R a b := by
  induction h with
  | nil => simp at ha
  | @cons x y l m hxy _ ih =>
    rcases List.mem_cons.mp ha with rfl | ha
    · exact ⟨y, by simp, hxy⟩
    · obtain ⟨b, hb, hr⟩ := ih ha
      exact ⟨b, by simp [hb], hr⟩

/-- **C96e.** The specification is accepted exactly when it is well-formed, in two and in three
dimensions. -/
theorem C96_accepts {nDim : ℕ} {bc : DictArg (Option (List ℤ))}
    {ranges : DictArg (Option (List (Option (List ℝ))))} {order : OrderArg} {u₀ : ℕ → ℕ → ℝ}
    {u : ℕ → ℕ → ℕ → ℝ × ℝ} :
    (∃ disp, cornerDisplacements nDim bc ranges order u₀ u = .ok disp) ↔
      BcOk nDim bc ∧ RangesOk nDim ranges ∧ OrdersOk nDim order := by
  have hb : (∃ b, buildCornersBc nDim bc = .ok b) ↔ BcOk nDim bc := by
    cases bc with
    | none => exact ⟨fun _ => trivial, fun _ => ⟨_, rfl⟩⟩
    | other => exact ⟨fun _ => trivial, fun _ => ⟨_, rfl⟩⟩
    | dict d => exact bcFold_exists _
  have hr : ∀ b, (∃ r, buildCornersRange nDim ranges b = .ok r) ↔ RangesOk nDim ranges := by
    intro b
    cases ranges with
    | none => exact ⟨fun _ => trivial, fun _ => ⟨_, rfl⟩⟩
    | other =>
      refine ⟨fun ⟨r, h⟩ => ?_, fun h => h.elim⟩
      cases h
    | dict d =>
      constructor
      · rintro ⟨r, h⟩ c hc v hv
        obtain ⟨rs, h1, -⟩ := bind_ok h
        obtain ⟨l, -, hl⟩ := Forall₂_exists_left (mapM_forall₂ h1) (List.mem_range.mpr hc)
        unfold cornerRanges at hl
        rw [hv] at hl
        cases v with
        | none => cases hl
        | some w =>
          simp only at hl
          split_ifs at hl with hlen
          refine ⟨w, rfl, not_not.mp hlen, fun r hr => ?_⟩
          obtain ⟨⟨x, y⟩, -, hxy⟩ := Forall₂_exists_left (mapM_forall₂ hl) (hr)
          exact ⟨x, y, rangeOf_ok.mp hxy⟩
      · intro h
        have : ∀ c ∈ List.range (nCorners nDim), ∃ l, cornerRanges nDim d c = .ok l := by
          intro c hc
          unfold cornerRanges
          cases hg : d.get? (toString (c + 1)) with
          | none => exact ⟨_, rfl⟩
          | some v =>
            obtain ⟨w, rfl, hlen, hw⟩ := h c (List.mem_range.mp hc) v hg
            simp only [hlen, ne_eq, not_true_eq_false, if_false]
            refine mapM_exists fun r hr => ?_
            obtain ⟨x, y, rfl⟩ := hw r hr
            exact ⟨_, rangeOf_ok.mpr rfl⟩
        obtain ⟨rs, hrs⟩ := mapM_exists this
        exact ⟨_, by unfold buildCornersRange; simp only [hrs]; rfl⟩
  have ho : (∃ o, buildOrders nDim order = .ok o) ↔ OrdersOk nDim order := by
    cases order with
    | none => exact ⟨fun _ => trivial, fun _ => ⟨_, rfl⟩⟩
    | int z => exact ⟨fun _ => trivial, fun _ => ⟨_, rfl⟩⟩
    | other =>
      refine ⟨fun ⟨r, h⟩ => ?_, fun h => h.elim⟩
      cases h
    | dict d =>
      constructor
      · rintro ⟨r, h⟩ e he v hv rfl
        obtain ⟨rs, h1, -⟩ := bind_ok h
        obtain ⟨l, -, hl⟩ := Forall₂_exists_left (mapM_forall₂ h1) (List.mem_range.mpr he)
        unfold edgeOrder at hl
        rw [hv] at hl
        cases hl
      · intro h
        have : ∀ e ∈ List.range (edgesMapping nDim).length, ∃ l, edgeOrder d e = .ok l := by
          intro e he
          unfold edgeOrder
          cases hg : d.get? (toString (e + 1)) with
          | none => exact ⟨_, rfl⟩
          | some v =>
            cases v with
            | none => exact absurd rfl (h e (List.mem_range.mp he) _ hg)
            | some z => exact ⟨_, rfl⟩
        obtain ⟨rs, hrs⟩ := mapM_exists this
        exact ⟨_, by unfold buildOrders; simp only [hrs]; rfl⟩
  constructor
  · rintro ⟨disp, h⟩
    unfold cornerDisplacements at h
    obtain ⟨b, h1, h⟩ := bind_ok h
    obtain ⟨r, h2, h⟩ := bind_ok h
    obtain ⟨o, h3, h⟩ := bind_ok h
    exact ⟨hb.mp ⟨b, h1⟩, (hr b).mp ⟨r, h2⟩, ho.mp ⟨o, h3⟩⟩
  · rintro ⟨h1, h2, h3⟩
    obtain ⟨b, h1⟩ := hb.mpr h1
    obtain ⟨r, h2⟩ := (hr b).mpr h2
    obtain ⟨o, h3⟩ := ho.mpr h3
    unfold cornerDisplacements
    exact ⟨_, by rw [h1]; simp only [bind, Except.bind, h2, h3]; rfl⟩

theorem edgeDisp_zero (nDim : ℕ) (range : ℕ → ℕ → ℝ × ℝ) (u : ℕ → ℕ → ℕ → ℝ × ℝ) (i : ℕ)
    (es : List (ℕ × ℕ)) (d : ℕ → ℕ → ℝ) (j : ℕ) :
    edgeDisp nDim range u i es (d, fun _ _ => 0) j =
      (((List.range nDim).filter (· ≠ i)).foldl (fun d k =>
        setDisp (setDisp d (es.getD j (0, 0)).1 k (commonDisp (range (es.getD j (0, 0)).1 k)
          (range (es.getD j (0, 0)).2 k) (u i j k))) (es.getD j (0, 0)).2 k
          (commonDisp (range (es.getD j (0, 0)).1 k) (range (es.getD j (0, 0)).2 k) (u i j k))) d,
        fun _ _ => 0) := by
  unfold edgeDisp
  simp

theorem setDisp_apply (d : ℕ → ℕ → ℝ) (c k c' k' : ℕ) (v : ℝ) :
    setDisp d c k v c' k' = if c' = c ∧ k' = k then v else d c' k' := rfl

theorem cornersDisp_three_zero (range : ℕ → ℕ → ℝ × ℝ) (u₀ : ℕ → ℕ → ℝ)
    (u : ℕ → ℕ → ℕ → ℝ × ℝ) :
    (cornersDisp 3 range (fun _ _ => 0) u₀ u).1 0 2 = commonDisp (range 0 2) (range 3 2) (u 1 4 2) ∧
    (cornersDisp 3 range (fun _ _ => 0) u₀ u).1 1 2 = commonDisp (range 1 2) (range 2 2) (u 1 6 2) := by
  have hr3 : List.range 3 = [0, 1, 2] := rfl
  have hr8 : List.range 8 = [0, 1, 2, 3, 4, 5, 6, 7] := rfl
  constructor <;>
    simp [cornersDisp, edgesPerDim, hr3, hr8, edgeDisp_zero, setDisp_apply]

/-- **C96c, violated.** A fixed degree of freedom can be displaced: with the default orders (zero) the
corner at the other end of an edge pulls it along. -/
theorem C96_fixed_violated :
    ¬ ∀ (bc : DictArg (Option (List ℤ))) (ranges : DictArg (Option (List (Option (List ℝ)))))
      (u₀ : ℕ → ℕ → ℝ) (u : ℕ → ℕ → ℕ → ℝ × ℝ) (disp : ℕ → ℕ → ℝ),
      cornerDisplacements 2 bc ranges .none u₀ u = .ok disp → ∀ c k, CornerFixed bc c k →
        disp c k = 0 := by
  intro hall
  set bc : DictArg (Option (List ℤ)) := .dict [("1", some [1, 1])] with hbc
  set ranges : DictArg (Option (List (Option (List ℝ)))) :=
    .dict [("2", some [some [0, 1], some [1, 2]])] with hranges
  obtain ⟨disp, h⟩ := (C96_accepts (nDim := 2) (bc := bc) (ranges := ranges) (order := .none)
    (u₀ := fun _ _ => 1 / 2) (u := fun _ _ _ => (1 / 2, 1 / 2))).mpr ⟨by
      intro a ha
      rw [List.mem_singleton] at ha
      subst ha
      exact ⟨⟨0, by decide, by decide⟩, _, rfl, rfl⟩, by
      intro c hc v hv
      by_cases h1 : c = 1
      · subst h1
        cases hv
        exact ⟨_, rfl, rfl, by simp⟩
      · have : KDict.get? [("2", some [some [(0 : ℝ), 1], some [1, 2]])] (toString (c + 1)) = none := by
          rw [KDict.get?_eq_none]
          intro hm
          simp only [KDict.keys, List.map_cons, List.map_nil, List.mem_singleton] at hm
          exact h1 (toString_succ_inj (b := 1) (by rw [hm]; decide))
        rw [this] at hv
        exact absurd hv (by simp), trivial⟩
  have hfix : CornerFixed bc 0 1 := ⟨_, _, rfl, rfl, rfl⟩
  have h0 := hall bc ranges _ _ disp h 0 1 hfix
  obtain ⟨o, ra, rb, ho, hra, hrb, h1⟩ := C96_corners (by intros; norm_num) (by intros; norm_num)
    (by intro d hd; rw [hbc] at hd; cases hd; simp [KDict.keys]) h (show (1, 0, 0, 1) ∈ patchEdges2 by
      simp [patchEdges2])
  have hra' := CornerRange_unique hra (Or.inl ⟨hfix, rfl⟩)
  have hrb' : rb = (1, 2) := by
    refine CornerRange_unique hrb (Or.inr ⟨?_, Or.inl ⟨_, _, rfl, rfl, rfl⟩⟩)
    rintro ⟨d, v, hd, hv, -⟩
    rw [hbc] at hd
    cases hd
    cases hv
  rw [hra', hrb'] at h1
  have := ((h1 (by norm_num) (by norm_num)).2 ho).2.2.1
  norm_num at this
  rw [h0] at this
  norm_num at this

/-- **C96d, violated.** In three dimensions an edge of order zero need not move as a whole orthogonal
to its direction: the displacements of its corners along a common orthogonal dimension can differ. -/
theorem C96_3d_violated :
    ¬ ∀ (ranges : DictArg (Option (List (Option (List ℝ)))))
      (u₀ : ℕ → ℕ → ℝ) (u : ℕ → ℕ → ℕ → ℝ × ℝ) (disp : ℕ → ℕ → ℝ),
      cornerDisplacements 3 .none ranges .none u₀ u = .ok disp → disp 0 2 = disp 1 2 := by
  intro hall
  set ranges : DictArg (Option (List (Option (List ℝ)))) :=
    .dict [("1", some [some [1, 1], some [1, 1], some [1, 1]])] with hranges
  obtain ⟨disp, h⟩ := (C96_accepts (nDim := 3) (bc := .none) (ranges := ranges) (order := .none)
    (u₀ := fun _ _ => 1 / 2) (u := fun _ _ _ => (1 / 2, 1 / 2))).mpr ⟨trivial, by
      intro c hc v hv
      by_cases h1 : c = 0
      · subst h1
        cases hv
        exact ⟨_, rfl, rfl, by simp⟩
      · have : KDict.get? [("1", some [some [(1 : ℝ), 1], some [1, 1], some [1, 1]])]
            (toString (c + 1)) = none := by
          rw [KDict.get?_eq_none]
          intro hm
          simp only [KDict.keys, List.map_cons, List.map_nil, List.mem_singleton] at hm
          exact h1 (toString_succ_inj (b := 0) (by rw [hm]; decide))
        rw [this] at hv
        exact absurd hv (by simp), trivial⟩
  have h0 := hall ranges _ _ disp h
  unfold cornerDisplacements at h
  obtain ⟨b, h1, h⟩ := bind_ok h
  obtain ⟨r, h2, h⟩ := bind_ok h
  obtain ⟨o, h3, h⟩ := bind_ok h
  have h := Except.ok.inj h
  have h3 := Except.ok.inj h3
  rw [← h3] at h
  rw [← h] at h0
  have hr : ∀ c < 8, ∀ k < 3, CornerRange .none ranges c k (r c k) := fun c hc k hk =>
    buildCornersRange_spec (nDim := 3) (by intro d hd; cases hd) h1 h2 hc hk
  have hnf : ∀ c k, ¬ CornerFixed .none c k := by
    rintro c k ⟨_, _, h, -⟩; cases h
  have r0 : r 0 2 = (1, 1) := CornerRange_unique (hr 0 (by norm_num) 2 (by norm_num))
    (Or.inr ⟨hnf _ _, Or.inl ⟨_, _, rfl, rfl, rfl⟩⟩)
  have rn : ∀ c, c ≠ 0 → c < 8 → r c 2 = (0, 0) := by
    intro c hc hc8
    refine CornerRange_unique (hr c hc8 2 (by norm_num)) (Or.inr ⟨hnf _ _, Or.inr ⟨Or.inr ⟨_, rfl, ?_⟩, rfl⟩⟩)
    intro hm
    simp only [KDict.keys, List.map_cons, List.map_nil, List.mem_singleton] at hm
    exact hc (toString_succ_inj (b := 0) (by rw [hm]; decide))
  have h3 := cornersDisp_three_zero r (fun _ _ => 1 / 2) fun _ _ _ => (1 / 2, 1 / 2)
  rw [h3.1, h3.2, r0, rn 3 (by norm_num) (by norm_num), rn 1 (by norm_num) (by norm_num),
    rn 2 (by norm_num) (by norm_num)] at h0
  norm_num [commonDisp, uniformDraw] at h0

/-- the default specification, and one with a fixed corner, are accepted -/
example (u₀ : ℕ → ℕ → ℝ) (u : ℕ → ℕ → ℕ → ℝ × ℝ) :
    (∃ disp, cornerDisplacements 2 .none .none .none u₀ u = .ok disp) ∧
    ∃ disp, cornerDisplacements 2 (.dict [("1", some [1, 1])])
      (.dict [("3", some [some [0, 1], some [-1, 1]])]) (.int 3) u₀ u = .ok disp := by
  refine ⟨C96_accepts.mpr ⟨trivial, trivial, trivial⟩, C96_accepts.mpr ⟨?_, ?_, trivial⟩⟩
  · intro a ha
    rw [List.mem_singleton] at ha
    subst ha
    exact ⟨⟨0, by decide, rfl⟩, [1, 1], rfl, rfl⟩
  · intro c hc v hv
    simp only [KDict.get?] at hv
    split_ifs at hv with h
    cases hv
    exact ⟨_, rfl, rfl, by simp⟩

end Hooke
