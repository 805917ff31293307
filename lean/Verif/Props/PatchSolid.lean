import Verif.Props.PatchSolidNodes

/-!
# C112: deformed material patches in three dimensions
-/

noncomputable section

namespace Hooke

open Matrix Spec

/-- **C112c.** The rotation tensor of the Euler angles is the product of the elementary rotations. -/
theorem C112_euler (α β γ : ℝ) : eulerRotation α β γ = rotZ α * rotX β * rotZ γ := by
  ext i j
  fin_cases i <;> fin_cases j <;>
  simp [eulerRotation, rotZ, rotX, Matrix.mul_apply, Fin.sum_univ_three] <;> ring

/-! ### Edges and orders -/

theorem buildEdgeRanges3_spec {arg : DictArg (Option (List ℝ))} {r : ℕ → ℕ → List ℝ}
    (h : buildEdgeRanges3 arg = .ok r) {e i j : ℕ} (he : (edgesMapping 3)[e]? = some (i, j))
    (hi : (edgesMapping 3).idxOf (i, j) = e) {lo up : ℝ} (hr : r i j = [lo, up]) :
    EdgeDispRange arg (e + 1) lo up := by
  cases arg with
  | none =>
    cases h
    simp only [List.cons.injEq, and_true] at hr
    exact Or.inl ⟨rfl, hr.1.symm, hr.2.symm⟩
  | other => cases h
  | dict d =>
    obtain ⟨rs, h1, h2⟩ := bind_ok h
    cases h2
    beta_reduce at hr
    have hff := mapM_forall₂ h1
    have hl := hff.length_eq
    rw [List.length_range] at hl
    have hlt : e < (edgesMapping 3).length := (List.getElem?_eq_some_iff.mp he).1
    have h3 := (List.forall₂_iff_get.mp hff).2 e (by simpa using hlt) (by omega)
    rw [hi, List.getD_eq_getElem?_getD, List.getElem?_eq_getElem (by omega)] at hr
    simp only [Option.getD_some] at hr
    simp only [List.get_eq_getElem, List.getElem_range, hr] at h3
    exact edgeRange_spec h3

theorem buildEdgeRanges3_total {arg : DictArg (Option (List ℝ))} (h : EdgeRangesOk3 arg) :
    ∃ er, buildEdgeRanges3 arg = .ok er ∧ ∀ i j, (i, j) ∈ edgesMapping 3 →
      ∃ lo hi, er i j = [lo, hi] ∧ lo ≤ hi := by
  cases arg with
  | none => exact ⟨_, rfl, fun _ _ _ => ⟨0, 0, rfl, le_refl _⟩⟩
  | other => exact h.elim
  | dict d =>
    have hlen : (edgesMapping 3).length = 24 := by decide
    have hex : ∀ e ∈ List.range (edgesMapping 3).length, ∃ l, edgeRange d e = .ok l ∧
        ∃ lo hi, l = [lo, hi] ∧ lo ≤ hi := by
      intro e he
      rw [List.mem_range, hlen] at he
      unfold edgeRange
      cases hg : d.get? (toString (e + 1)) with
      | none => exact ⟨_, rfl, 0, 0, rfl, le_refl _⟩
      | some v =>
        obtain ⟨lo, hi, rfl, hle⟩ := h (e + 1) (by omega) (by omega) v hg
        exact ⟨_, rfl, lo, hi, rfl, hle⟩
    obtain ⟨rs, hrs⟩ := mapM_exists (fun e he => (hex e he).imp fun _ h => h.1)
    refine ⟨fun i j => rs.getD ((edgesMapping 3).idxOf (i, j)) [], by
      simp only [buildEdgeRanges3, hrs]; rfl, fun i j hij => ?_⟩
    have hff := mapM_forall₂ hrs
    have hl := hff.length_eq
    rw [List.length_range] at hl
    have hlt := List.idxOf_lt_length_of_mem hij
    have h3 := (List.forall₂_iff_get.mp hff).2 ((edgesMapping 3).idxOf (i, j)) (by simpa using hlt)
      (by omega)
    simp only [List.get_eq_getElem, List.getElem_range] at h3
    obtain ⟨l, h4, lo, hi, h5, h6⟩ := hex _ (List.mem_range.mpr hlt)
    rw [h4] at h3
    refine ⟨lo, hi, ?_, h6⟩
    beta_reduce
    rw [List.getD_eq_getElem?_getD, List.getElem?_eq_getElem (by omega), Option.getD_some,
      ← Except.ok.inj h3, h5]

open Classical in
/-- The orders after the corners have been displaced, for some of the edges of a dimension. -/
theorem edgeDisp_orders {range : ℕ → ℕ → ℝ × ℝ} {u : ℕ → ℕ → ℕ → ℝ × ℝ} {i : ℕ} {es : List (ℕ × ℕ)}
    {s : (ℕ → ℕ → ℝ) × (ℕ → ℕ → ℕ)} (l : List ℕ) (hl : ∀ j ∈ l, j < es.length) (i' j' : ℕ) :
    (l.foldl (edgeDisp 3 range u i es) s).2 i' j' =
      if i' = i ∧ j' < es.length ∧ ∃ j ∈ l, es.getD j (0, 0) = es.getD j' (0, 0) ∧ s.2 i j = 0 then 0
      else s.2 i' j' := by
  induction l using List.reverseRecOn generalizing i' j' with
  | nil => simp
  | append_singleton l a ih =>
    rw [List.foldl_append]
    have ih' := ih fun j hj => hl j (by simp [hj])
    have ha := hl a (by simp)
    set t := l.foldl (edgeDisp 3 range u i es) s with ht
    show (edgeDisp 3 range u i es t a).2 i' j' = _
    unfold edgeDisp
    simp only
    by_cases h0 : t.2 i a = 0
    · rw [if_pos h0]
      simp only
      rw [ih'] at h0
      by_cases hc : i' = i ∧ es.getD j' (0, 0) = es.getD a (0, 0) ∧ j' < es.length
      · rw [if_pos hc]
        obtain ⟨rfl, hc2, hc3⟩ := hc
        by_cases h1 : i' = i' ∧ a < es.length ∧ ∃ j ∈ l, es.getD j (0, 0) = es.getD a (0, 0) ∧ s.2 i' j = 0
        · obtain ⟨-, -, j, hj, hj1, hj2⟩ := h1
          rw [if_pos ⟨rfl, hc3, j, by simp [hj], by rw [hj1, hc2], hj2⟩]
        · rw [if_neg h1] at h0
          rw [if_pos ⟨rfl, hc3, a, by simp, hc2.symm, h0⟩]
      · rw [if_neg hc, ih']
        refine if_congr ?_ rfl rfl
        constructor
        · rintro ⟨h1, h2, j, hj, h3⟩
          exact ⟨h1, h2, j, by simp [hj], h3⟩
        · rintro ⟨h1, h2, j, hj, h3, h4⟩
          rcases List.mem_append.mp hj with hj | hj
          · exact ⟨h1, h2, j, hj, h3, h4⟩
          · cases List.mem_singleton.mp hj
            exact absurd ⟨h1, h3.symm, h2⟩ hc
    · rw [if_neg h0, ih']
      rw [ih'] at h0
      refine if_congr ?_ rfl rfl
      constructor
      · rintro ⟨h1, h2, j, hj, h3⟩
        exact ⟨h1, h2, j, by simp [hj], h3⟩
      · rintro ⟨h1, h2, j, hj, h3, h4⟩
        rcases List.mem_append.mp hj with hj | hj
        · exact ⟨h1, h2, j, hj, h3, h4⟩
        · cases List.mem_singleton.mp hj
          exfalso
          apply h0
          rw [h4, ite_self]

theorem cornersDisp_orders {range : ℕ → ℕ → ℝ × ℝ} {o : ℕ → ℕ → ℕ} {u₀ : ℕ → ℕ → ℝ}
    {u : ℕ → ℕ → ℕ → ℝ × ℝ} {i j : ℕ} (hi : i < 3) (hj : j < 8) :
    (cornersDisp 3 range o u₀ u).2 i j =
      open Classical in if ∃ j' < 8, edgeAt i j' = edgeAt i j ∧ o i j' = 0 then 0 else o i j := by
  classical
  have hlen : ∀ i < 3, ((edgesPerDim 3).getD i []).length = 8 := by decide
  unfold cornersDisp
  simp only [show List.range 3 = [0, 1, 2] from rfl, List.foldl_cons, List.foldl_nil]
  rw [edgeDisp_orders _ (by simp), edgeDisp_orders _ (by simp), edgeDisp_orders _ (by simp)]
  simp only [edgeDisp_orders (List.range _) (fun j hj => List.mem_range.mp hj)]
  have h0 := hlen 0 (by norm_num)
  have h1 := hlen 1 (by norm_num)
  have h2 := hlen 2 (by norm_num)
  rw [List.getD_eq_getElem?_getD] at h0 h1 h2
  interval_cases i <;> simp [h0, h1, h2, hj, edgeAt]

theorem row_index {lab i c d f : ℕ} (h : (lab, i, c, d, f) ∈ patchEdges3) :
    ∃ j, (edgesMapping 3)[lab - 1]? = some (i, j) ∧ (edgesMapping 3).getD (lab - 1) (0, 0) = (i, j) ∧
      (edgesMapping 3).idxOf (i, j) = lab - 1 ∧ 1 ≤ lab ∧ lab ≤ 24 ∧ i < 3 ∧ j < 8 ∧
      edgeAt i j = (c, d) ∧ edgeDiagAt i j = (c, f) ∧ (i, j) ∈ edgesMapping 3 ∧
      edgeList3[edgeList3.idxOf (i, j)]? = some (i, j) := by
  have key : ∀ r ∈ patchEdges3, ∃ j < 8, (edgesMapping 3)[r.1 - 1]? = some (r.2.1, j) ∧
      (edgesMapping 3).getD (r.1 - 1) (0, 0) = (r.2.1, j) ∧
      (edgesMapping 3).idxOf (r.2.1, j) = r.1 - 1 ∧ 1 ≤ r.1 ∧ r.1 ≤ 24 ∧ r.2.1 < 3 ∧
      edgeAt r.2.1 j = (r.2.2.1, r.2.2.2.1) ∧ edgeDiagAt r.2.1 j = (r.2.2.1, r.2.2.2.2) ∧
      (r.2.1, j) ∈ edgesMapping 3 ∧ edgeList3[edgeList3.idxOf (r.2.1, j)]? = some (r.2.1, j) := by
    decide +kernel
  obtain ⟨j, hj, h1, h2, h3, h4, h5, h6, h7, h8, h9, h10⟩ := key _ h
  exact ⟨j, h1, h2, h3, h4, h5, h6, hj, h7, h8, h9, h10⟩

theorem index_row {i j : ℕ} (h : (i, j) ∈ edgeList3) :
    ∃ lab f, (lab, i, (edgeAt i j).1, (edgeAt i j).2, f) ∈ patchEdges3 ∧
      edgeDiagAt i j = ((edgeAt i j).1, f) ∧ (i, j) ∈ edgesMapping 3 := by
  have key : ∀ e ∈ edgeList3, ∃ r ∈ patchEdges3, r.2.1 = e.1 ∧ edgeAt e.1 e.2 = (r.2.2.1, r.2.2.2.1) ∧
      edgeDiagAt e.1 e.2 = (r.2.2.1, r.2.2.2.2) ∧ e ∈ edgesMapping 3 := by decide +kernel
  obtain ⟨⟨lab, i', c, d, f⟩, hr, h1, h2, h3, h4⟩ := key _ h
  simp only at h1 h2 h3 h4
  subst h1
  rw [h2]
  exact ⟨lab, f, hr, h3, h4⟩

/-- The order used for an edge is the one declared, or zero if zero is declared for the other face. -/
theorem effective_order {range : ℕ → ℕ → ℝ × ℝ} {a : PatchArgs} {o : ℕ → ℕ → ℕ}
    (ho : buildOrders 3 a.order = .ok o) {u₀ : ℕ → ℕ → ℝ} {u : ℕ → ℕ → ℕ → ℝ × ℝ}
    {lab lab' i c d f f' j : ℕ} (h : (lab, i, c, d, f) ∈ patchEdges3)
    (h' : (lab', i, c, d, f') ∈ patchEdges3) (hne : lab' ≠ lab)
    (hj : (edgesMapping 3)[lab - 1]? = some (i, j)) :
    ∃ o₁ o₂, EdgeOrder a.order lab o₁ ∧ EdgeOrder a.order lab' o₂ ∧
      (cornersDisp 3 range o u₀ u).2 i j = if o₂ = 0 then 0 else o₁ := by
  obtain ⟨j₁, a1, -, a3, a4, a5, a6, a7, a8, -, -, -⟩ := row_index h
  obtain ⟨j₂, b1, -, b3, b4, b5, b6, b7, b8, -, -, -⟩ := row_index h'
  rw [hj] at a1
  obtain ⟨-, rfl⟩ : True ∧ j = j₁ := by simpa using a1
  have e1 := buildOrders_spec ho hj a3
  have e2 := buildOrders_spec ho b1 b3
  rw [Nat.sub_add_cancel a4] at e1
  rw [Nat.sub_add_cancel b4] at e2
  refine ⟨_, _, e1, e2, ?_⟩
  rw [cornersDisp_orders a6 a7, a8]
  have hpair : ∀ j' < 8, edgeAt i j' = (c, d) → j' = j ∨ j' = j₂ := by
    intro j' hj' he
    have key : ∀ r ∈ patchEdges3, ∀ r' ∈ patchEdges3, r.2.1 = r'.2.1 → r.2.2.1 = r'.2.2.1 →
        r.2.2.2.1 = r'.2.2.2.1 → r.1 ≠ r'.1 → ∀ j' < 8, edgeAt r.2.1 j' = (r.2.2.1, r.2.2.2.1) →
        (edgesMapping 3)[r.1 - 1]? = some (r.2.1, j') ∨ (edgesMapping 3)[r'.1 - 1]? = some (r.2.1, j') := by
      decide +kernel
    rcases key _ h _ h' rfl rfl rfl (Ne.symm hne) j' hj' he with g | g
    · left
      simp only at g
      rw [hj] at g
      simpa using g.symm
    · right
      simp only at g
      rw [b1] at g
      simpa using g.symm
  split_ifs with hc hd hd
  · rfl
  · obtain ⟨j', hj', he, h0⟩ := hc
    rcases hpair j' hj' he with rfl | rfl
    · exact h0.symm
    · exact absurd h0 hd
  · exact absurd ⟨j₂, b7, b8, hd⟩ hc
  · rfl

/-- The deformed edges. -/
theorem deformedEdges3_spec {L : Vec3} {N : Fin 3 → ℕ} (hN : ∀ r, 2 ≤ N r) {noise : ℝ}
    {orders : ℕ → ℕ → ℕ} {er : ℕ → ℕ → List ℝ}
    (her : ∀ i j lo hi, (i, j) ∈ edgesMapping 3 → er i j = [lo, hi] → lo ≤ hi) {corners : ℕ → Vec3}
    {u : PatchDraws} (hu : PatchDraws.Ok u) {edges : List (List Vec3)}
    (h : deformedEdges3 L [N 0, N 1, N 2] noise orders er corners u = .ok edges)
    {lab i c d f : ℕ} (hrow : (lab, i, c, d, f) ∈ patchEdges3) :
    ∃ j, (edgesMapping 3)[lab - 1]? = some (i, j) ∧
      (edges.getD (edgeList3.idxOf ((edgesMapping 3).getD (lab - 1) (0, 0))) []).length =
        N (Fin.ofNat 3 i) ∧
      ∃ lo hi, er i j = [lo, hi] ∧ IsDeformedEdge3 (corners c) (corners d) (corners f - corners c)
        (orders i j) lo hi (N (Fin.ofNat 3 i)) (edgeNoise (L 0, L 1) noise (u.noise i j))
        (edgeZ edges lab) := by
  obtain ⟨j, h1, h2, -, -, -, hi, -, h5, h6, h7, h8⟩ := row_index hrow
  refine ⟨j, h1, ?_⟩
  have hff := mapM_forall₂ h
  obtain ⟨hlt, hget⟩ := List.getElem?_eq_some_iff.mp h8
  have hlt' : edgeList3.idxOf (i, j) < edges.length := by rw [← hff.length_eq]; exact hlt
  have h3 := (List.forall₂_iff_get.mp hff).2 _ hlt hlt'
  simp only [List.get_eq_getElem] at h3
  rw [hget] at h3
  simp only [h5, h6] at h3
  have hn : [N 0, N 1, N 2].getD i 0 = N (Fin.ofNat 3 i) := by interval_cases i <;> rfl
  rw [hn] at h3
  obtain ⟨g1, lo, hi', g2, g3⟩ := patchEdge3_of_ok (hN _) (fun lo hi => her i j lo hi h7)
    (hu.2.2.1 i j) h3
  have he : edges.getD (edgeList3.idxOf ((edgesMapping 3).getD (lab - 1) (0, 0))) [] =
      edges[edgeList3.idxOf (i, j)] := by
    rw [h2, List.getD_eq_getElem?_getD, List.getElem?_eq_getElem hlt']
    rfl
  refine ⟨by rw [he]; exact g1, lo, hi', g2, ?_⟩
  have hz : edgeZ edges lab = fun k => (edges[edgeList3.idxOf (i, j)]).getD k 0 := by
    funext k
    unfold edgeZ
    rw [he]
  rw [hz]
  exact g3

theorem cornerRef3_eq (L : Vec3) (c : ℕ) : cornerRef3 L c = fun r => (cornerBit c r : ℝ) * L r := by
  by_cases hc : c < 8
  · interval_cases c <;> ext r <;> fin_cases r <;> simp [cornerRef3, cornerBit]
  · unfold cornerRef3 cornerBit
    rw [List.getD_eq_getElem?_getD, List.getElem?_eq_none (by simp; omega),
      List.getD_eq_getElem?_getD, List.getElem?_eq_none (by simp; omega)]
    ext r
    simp

theorem cornerRef3_add (L : Vec3) (disp : ℕ → ℕ → ℝ) (c : ℕ) :
    cornerRef3 L c + ![disp c 0, disp c 1, disp c 2] = cornerPoint3 L disp c := by
  rw [cornerRef3_eq]
  ext r
  fin_cases r <;> simp [cornerPoint3]

/-- All edges can be deformed if the corners are not degenerate. -/
theorem deformedEdges3_total {L : Vec3} (hL : ∀ r, 0 < L r) {N : Fin 3 → ℕ} (hN : ∀ r, 2 ≤ N r)
    {noise : ℝ} {orders : ℕ → ℕ → ℕ} {er : ℕ → ℕ → List ℝ}
    (her : ∀ i j, (i, j) ∈ edgesMapping 3 → ∃ lo hi, er i j = [lo, hi] ∧ lo ≤ hi)
    {disp : ℕ → ℕ → ℝ} (hnd : NonDegenerate3 L disp) {u : PatchDraws} (hu : PatchDraws.Ok u) :
    ∃ edges, deformedEdges3 L [N 0, N 1, N 2] noise orders er (cornerPoint3 L disp) u = .ok edges := by
  unfold deformedEdges3
  refine mapM_exists fun ⟨i, j⟩ hx => ?_
  obtain ⟨lab, f, hrow, hdiag, hmem⟩ := index_row hx
  obtain ⟨lo, hi, h1, h2⟩ := her i j hmem
  obtain ⟨k1, k2⟩ := hnd _ _ _ _ _ hrow
  obtain ⟨-, -, -, -, -, -, hi3, -, -, -, -, -⟩ := row_index hrow
  have hn : [N 0, N 1, N 2].getD i 0 = N (Fin.ofNat 3 i) := by interval_cases i <;> rfl
  have hAB : ∀ w : Vec3, w (Fin.ofNat 3 i) ≠ 0 →
      w ⬝ᵥ (cornerRef3 L (edgeAt i j).2 - cornerRef3 L (edgeAt i j).1) ≠ 0 := by
    intro w hw
    obtain ⟨lab', lab'', hs⟩ : ∃ l l', (i, (edgeAt i j).1, (edgeAt i j).2, l, l') ∈ solidEdges := by
      have key : ∀ r ∈ patchEdges3, ∃ s ∈ solidEdges, s.1 = r.2.1 ∧ s.2.1 = r.2.2.1 ∧
          s.2.2.1 = r.2.2.2.1 := by decide +kernel
      obtain ⟨⟨i', c', d', l, l'⟩, h1, h2, h3, h4⟩ := key _ hrow
      simp only at h2 h3 h4
      subst h2 h3 h4
      exact ⟨l, l', h1⟩
    obtain ⟨-, -, -, hb⟩ := solid_facts hs
    have heq : cornerRef3 L (edgeAt i j).2 - cornerRef3 L (edgeAt i j).1 =
        Pi.single (Fin.ofNat 3 i) (L (Fin.ofNat 3 i)) := by
      rw [cornerRef3_eq, cornerRef3_eq]
      funext r
      by_cases hr : (r : ℕ) = i
      · have : r = Fin.ofNat 3 i := Fin.ext (by rw [hr]; exact (Nat.mod_eq_of_lt hi3).symm)
        rw [Pi.sub_apply, ((hb r).1 hr).1, ((hb r).1 hr).2, ← this]
        simp
      · have : r ≠ Fin.ofNat 3 i := by
          rintro rfl
          exact hr (Nat.mod_eq_of_lt hi3)
        rw [Pi.sub_apply, (hb r).2 hr, Pi.single_eq_of_ne this]
        simp
    rw [heq, dotProduct_single]
    exact mul_ne_zero hw (hL _).ne'
  obtain ⟨nodes, h3, -⟩ := C112_edge (hN (Fin.ofNat 3 i)) (A := cornerRef3 L (edgeAt i j).1)
    (B := cornerRef3 L (edgeAt i j).2) (order := orders i j) k1
    (k2.imp (hAB _) (hAB _)) h2 (hu.2.2.1 i j) (noise := edgeNoise (L 0, L 1) noise (u.noise i j))
  refine ⟨nodes, ?_⟩
  simp only
  rw [hn, hdiag, h1]
  have href : (fun k : ℕ => cornerRef3 L (edgeAt i j).1 + ((k : ℝ) / ((N (Fin.ofNat 3 i) : ℝ) - 1)) •
      (cornerRef3 L (edgeAt i j).2 - cornerRef3 L (edgeAt i j).1)) =
      edgeRef3 (N (Fin.ofNat 3 i)) (cornerRef3 L (edgeAt i j).1) (cornerRef3 L (edgeAt i j).2) := by
    funext k r
    simp [edgeRef3]
    ring
  rw [href] at h3
  exact h3

/-! ### Rigid motion -/

theorem moveEdges3_ok {corners : ℕ → Vec3} {tr rd : Option (PyDict (ℝ × ℝ))} {u : PatchDraws}
    {edges moved : List (List Vec3)} (h : moveEdges3 corners tr rd u edges = .ok moved) :
    ∃ t r, tr = some t ∧ rd = some r ∧ moved = edges.map fun e => e.map fun x =>
      cornersMean corners + rigidRotation3 r u.rot *ᵥ (x - cornersMean corners) +
        rigidTranslation3 t u.trans := by
  unfold moveEdges3 at h
  obtain ⟨r, hr, h⟩ := bind_ok h
  obtain ⟨t, ht, h⟩ := bind_ok h
  cases h
  obtain ⟨r', hr1, rfl⟩ := Option.map_eq_some_iff.mp (orRaise_ok.mp hr)
  obtain ⟨t', ht1, rfl⟩ := Option.map_eq_some_iff.mp (orRaise_ok.mp ht)
  exact ⟨t', r', ht1, hr1, rfl⟩

theorem edgeZ_map {edges : List (List Vec3)} {F : Vec3 → Vec3} {lab k : ℕ}
    (hk : k < (edges.getD (edgeList3.idxOf ((edgesMapping 3).getD (lab - 1) (0, 0))) []).length) :
    edgeZ (edges.map fun e => e.map F) lab k = F (edgeZ edges lab k) := by
  unfold edgeZ
  set p := edgeList3.idxOf ((edgesMapping 3).getD (lab - 1) (0, 0))
  have h1 : (edges.map fun e => e.map F).getD p [] = (edges.getD p []).map F := by
    rw [List.getD_eq_getElem?_getD, List.getD_eq_getElem?_getD, List.getElem?_map]
    cases edges[p]? <;> rfl
  rw [h1]
  set q := edges.getD p []
  rw [List.getD_eq_getElem?_getD, List.getD_eq_getElem?_getD, List.getElem?_map,
    List.getElem?_eq_getElem hk]
  rfl

section
variable {fl : ℝ → ℝ} (hfl : IsRounding fl) {elem : String} {isEdge : Bool} {e : ℕ}
  (hk : (elem, isEdge, 3, e) ∈ feKinds) {L : Vec3} (hL : ∀ r, 0 < L r) {nElems : Fin 3 → ℕ}
  (hn : ∀ r, 1 ≤ nElems r ∧ nElems r * (e - 1) ≤ 2 ^ 50)
  (hres : ∀ r, 1 / 10 ^ 8 + 1 / 10 ^ 5 * L r < L r / (nElems r * (e - 1) : ℕ))
  {uniq : ℕ → List (ℕ × ℕ)} (hu : ListsEdges uniq)
include hfl hk hL hn hres hu

/-- Mesh and displacements for edges that meet at the corners. -/
theorem solidPatch_finish {N : Fin 3 → ℕ} (hNe : ∀ r, N r = nElems r * (e - 1) + 1)
    {edges : List (List Vec3)} {Z : ℕ → Vec3}
    (hz : ∀ lab i c d f, (lab, i, c, d, f) ∈ patchEdges3 →
      edgeZ edges lab 0 = Z c ∧ edgeZ edges lab (N (Fin.ofNat 3 i) - 1) = Z d) :
    ∃ p, (do
        let m ← generateMesh fl 3 [L 0, L 1, L 2] elem [nElems 0, nElems 1, nElems 2]
        let disps ← boundaryDisps3 L [N 0, N 1, N 2] uniq edges m.1.coords m.1.matrix
        makePatch3 m.1 m.2 disps) = .ok p ∧ IsSolidPatch fl L elem nElems N (edgeZ edges) p := by
  have hn' : ∀ n ∈ [nElems 0, nElems 1, nElems 2], 1 ≤ n ∧ n * (e - 1) ≤ 2 ^ 50 := by
    simp only [List.mem_cons, List.not_mem_nil, or_false]
    rintro n (rfl | rfl | rfl) <;> exact hn _
  obtain ⟨m, hm, -⟩ := C95_mesh hfl hk (dims := [L 0, L 1, L 2])
    (nElems := [nElems 0, nElems 1, nElems 2]) rfl hn'
  obtain ⟨hns, disps, h1, h2, h3⟩ := boundaryDisps3_spec hfl hk hL hn hres hm hNe hu hz
  refine ⟨_, ?_, h3⟩
  rw [hm]
  simp only [bind, Except.bind, h1, makePatch3]
  rw [show raiseIf (∃ l ∈ disps.keys, l ∉ boundaryLabels 3 (gridSize e [nElems 0, nElems 1, nElems 2])
    m.matrix) PyErr.runtimeError = .ok () from raiseIf_ok.mpr (by push Not; exact h2)]
  rfl

variable {a : PatchArgs} {b : ℕ → List ℤ} {r : ℕ → ℕ → ℝ × ℝ} {o : ℕ → ℕ → ℕ} {er : ℕ → ℕ → List ℝ}
  (hb : buildCornersBc 3 a.bc = .ok b) (hr : buildCornersRange 3 a.ranges b = .ok r)
  (ho : buildOrders 3 a.order = .ok o) (her : buildEdgeRanges3 a.edgeRanges = .ok er)
  (hle : ∀ lab lo hi, 1 ≤ lab → lab ≤ 24 → EdgeDispRange a.edgeRanges lab lo hi → lo ≤ hi)
include hb hr ho her hle

theorem patchIteration3_spec {N : Fin 3 → ℕ} (hNe : ∀ r, N r = nElems r * (e - 1) + 1)
    {u : PatchDraws} (hud : PatchDraws.Ok u) {p : DeformedPatch3}
    (h : patchIteration3 fl uniq L elem [nElems 0, nElems 1, nElems 2] [N 0, N 1, N 2] a r o er u =
      .ok p) :
    ∃ z, DeformedSolid L N a u z ∧ IsSolidPatch fl L elem nElems N z p := by
  have he : 2 ≤ e := by
    simp only [feKinds, List.mem_cons, List.not_mem_nil, or_false, Prod.mk.injEq] at hk
    omega
  have hN : ∀ r, 2 ≤ N r := fun r => by
    rw [hNe]
    have : 1 ≤ nElems r * (e - 1) := Nat.mul_pos (hn r).1 (by omega)
    omega
  unfold patchIteration3 at h
  simp only [cornerRef3_add] at h
  obtain ⟨edges, h1, h⟩ := bind_ok h
  obtain ⟨moved, h2, h⟩ := bind_ok h
  have hdisp : cornerDisplacements 3 a.bc a.ranges a.order u.corner u.edge =
      .ok (cornersDisp 3 r o u.corner u.edge).1 := by
    unfold cornerDisplacements
    rw [hb]
    simp only [bind, Except.bind, hr, ho]
    rfl
  have hmap : ∀ lab i c d f, (lab, i, c, d, f) ∈ patchEdges3 → ∀ j, (edgesMapping 3)[lab - 1]? =
      some (i, j) → ∀ lo hi, er i j = [lo, hi] → EdgeDispRange a.edgeRanges lab lo hi := by
    intro lab i c d f hrow j hj lo hi hlo
    obtain ⟨j', g1, -, g3, g4, -⟩ := row_index hrow
    rw [hj] at g1
    cases g1
    have := buildEdgeRanges3_spec her hj g3 hlo
    rwa [Nat.sub_add_cancel g4] at this
  have herle : ∀ i j lo hi, (i, j) ∈ edgesMapping 3 → er i j = [lo, hi] → lo ≤ hi := by
    intro i j lo hi hij hlo
    have hsub : ∀ e ∈ edgesMapping 3, e ∈ edgeList3 := by decide +kernel
    obtain ⟨lab, f, hrow, -⟩ := index_row (hsub _ hij)
    have key : ∀ e ∈ edgesMapping 3, ∃ rw ∈ patchEdges3, (edgesMapping 3)[rw.1 - 1]? = some e ∧
        rw.2.1 = e.1 ∧ 1 ≤ rw.1 ∧ rw.1 ≤ 24 := by decide +kernel
    obtain ⟨⟨lab, i', c, d, f⟩, k1, k2, k3, k4, k5⟩ := key _ hij
    simp only at k2 k3 k4 k5
    subst k3
    exact hle lab lo hi k4 k5 (hmap _ _ _ _ _ k1 j k2 lo hi hlo)
  have hspec := fun {lab i c d f} => deformedEdges3_spec (lab := lab) (i := i) (c := c) (d := d)
    (f := f) hN herle hud h1
  obtain ⟨t, rd, ht, hrd, rfl⟩ := moveEdges3_ok h2
  set corners := cornerPoint3 L (cornersDisp 3 r o u.corner u.edge).1 with hcorners
  set C := cornersMean corners with hC
  set F : Vec3 → Vec3 := fun x => C + rigidRotation3 rd u.rot *ᵥ (x - C) + rigidTranslation3 t u.trans
    with hF
  have hZ : ∀ lab i c d f, (lab, i, c, d, f) ∈ patchEdges3 →
      edgeZ (edges.map fun e => e.map F) lab 0 = F (corners c) ∧
      edgeZ (edges.map fun e => e.map F) lab (N (Fin.ofNat 3 i) - 1) = F (corners d) := by
    intro lab i c d f hrow
    obtain ⟨j, -, hlen, lo, hi, -, hde⟩ := hspec hrow
    have := hN (Fin.ofNat 3 i)
    obtain ⟨_, _, _, _, _, -, -, -, -, hq0, hqn, -⟩ := hde
    rw [edgeZ_map (by rw [hlen]; omega), edgeZ_map (by rw [hlen]; omega), hq0, hqn]
    exact ⟨rfl, rfl⟩
  obtain ⟨p', hp', hpat⟩ := solidPatch_finish hfl hk hL hn hres hu hNe hZ
  rw [hp'] at h
  cases h
  refine ⟨_, ?_, hpat⟩
  refine ⟨_, t, rd, rigidTranslation3 t u.trans, drawKey rd "alpha" (u.rot 0),
    drawKey rd "beta" (u.rot 1), drawKey rd "gamma" (u.rot 2), edgeZ edges, hdisp, ht, hrd,
    ⟨drawKey_mem (hud.2.2.2.1 0), drawKey_mem (hud.2.2.2.1 1), drawKey_mem (hud.2.2.2.1 2)⟩,
    ⟨drawKey_mem (hud.2.2.2.2 0), drawKey_mem (hud.2.2.2.2 1), drawKey_mem (hud.2.2.2.2 2)⟩, ?_⟩
  intro lab i c d f lab' f' hrow hrow' hne
  obtain ⟨j, hj, hlen, lo, hi, hlo, hde⟩ := hspec hrow
  obtain ⟨o₁, o₂, e1, e2, e3⟩ := effective_order (range := r) ho (u₀ := u.corner) (u := u.edge) hrow
    hrow' hne hj
  refine ⟨o₁, o₂, lo, hi, j, e1, e2, hmap _ _ _ _ _ hrow j hj lo hi hlo, hj, ?_, ?_⟩
  · rw [← e3]
    exact hde
  · intro k hk'
    rw [edgeZ_map (by rw [hlen]; exact hk')]
    have hCe : C = fun r => (∑ c ∈ Finset.range 8, corners c r) / 8 := by
      funext s
      simp only [hC, cornersMean, Pi.smul_apply, Finset.sum_apply, smul_eq_mul]
      ring
    simp only [hF, rigidRotation3, C112_euler]
    rw [← hCe]

end

/-- **C112.** The first iteration yields a patch, which is flagged admissible.  Its corners are displaced
as in C96, its edges are deformed in the planes of the faces with the orders declared and moved rigidly;
its mesh is the structured mesh of C95; every node of the boundary (and no other) is assigned a
displacement: nodes of edges to the mean of their positions on the two faces, nodes inside faces by
interpolation between opposite edges. -/
theorem C112_patch {fl : ℝ → ℝ} (hfl : IsRounding fl) {elem : String} {isEdge : Bool} {e : ℕ}
    (hk : (elem, isEdge, 3, e) ∈ feKinds) {L : Vec3} (hL : ∀ r, 0 < L r) {nElems : Fin 3 → ℕ}
    (hn : ∀ r, 1 ≤ nElems r ∧ nElems r * (e - 1) ≤ 2 ^ 50)
    (hres : ∀ r, 1 / 10 ^ 8 + 1 / 10 ^ 5 * L r < L r / (nElems r * (e - 1) : ℕ))
    {uniq : ℕ → List (ℕ × ℕ)} (hu : ListsEdges uniq) {a : PatchArgs}
    (hle : ∀ lab lo hi, 1 ≤ lab → lab ≤ 24 → EdgeDispRange a.edgeRanges lab lo hi → lo ≤ hi)
    {maxIter : ℕ} {u : PatchDraws} (hud : PatchDraws.Ok u) {adm : Bool} {res : Option DeformedPatch3}
    (h : generatePatch3 fl uniq L elem [nElems 0, nElems 1, nElems 2] a maxIter u = .ok (adm, res)) :
    let N : Fin 3 → ℕ := fun r => nElems r * (e - 1) + 1
    (adm = true ↔ maxIter ≠ 0) ∧ (res = none ↔ maxIter = 0) ∧
    ∀ p, res = some p → ∃ z, DeformedSolid L N a u z ∧ IsSolidPatch fl L elem nElems N z p := by
  intro N
  unfold generatePatch3 at h
  obtain ⟨b, hb, h⟩ := bind_ok h
  obtain ⟨r, hr, h⟩ := bind_ok h
  obtain ⟨o, ho, h⟩ := bind_ok h
  obtain ⟨er, her, h⟩ := bind_ok h
  obtain ⟨t, ht, h⟩ := bind_ok h
  obtain ⟨t', ht', -, h2, -⟩ := C65_tables elem isEdge 3 e hk
  rw [ht] at ht'
  cases ht'
  have he : 2 ≤ e := by
    simp only [feKinds, List.mem_cons, List.not_mem_nil, or_false, Prod.mk.injEq] at hk
    omega
  simp only [List.map_cons, List.map_nil, h2] at h
  rw [nEdgeNodes_eq (by omega) (hn 0).1, nEdgeNodes_eq (by omega) (hn 1).1,
    nEdgeNodes_eq (by omega) (hn 2).1] at h
  split_ifs at h with h0
  · cases h
    simp [h0]
  · obtain ⟨p, hp, h⟩ := bind_ok h
    cases h
    refine ⟨by simp [h0], by simp [h0], ?_⟩
    intro p' hp'
    cases hp'
    exact patchIteration3_spec hfl hk hL hn hres hu hb hr ho her hle (N := N) (fun _ => rfl) hud hp

theorem generatePatch3_start {fl : ℝ → ℝ} {elem : String} {isEdge : Bool} {e : ℕ}
    (hk : (elem, isEdge, 3, e) ∈ feKinds) {L : Vec3} {nElems : Fin 3 → ℕ} (hn : ∀ r, 1 ≤ nElems r)
    {uniq : ℕ → List (ℕ × ℕ)} {a : PatchArgs} {b : ℕ → List ℤ} {r : ℕ → ℕ → ℝ × ℝ} {o : ℕ → ℕ → ℕ}
    {er : ℕ → ℕ → List ℝ} (hb : buildCornersBc 3 a.bc = .ok b)
    (hr : buildCornersRange 3 a.ranges b = .ok r) (ho : buildOrders 3 a.order = .ok o)
    (her : buildEdgeRanges3 a.edgeRanges = .ok er) {maxIter : ℕ} (hmax : 1 ≤ maxIter) {u : PatchDraws}
    {N : Fin 3 → ℕ} (hNe : ∀ r, N r = nElems r * (e - 1) + 1) :
    generatePatch3 fl uniq L elem [nElems 0, nElems 1, nElems 2] a maxIter u =
      (patchIteration3 fl uniq L elem [nElems 0, nElems 1, nElems 2] [N 0, N 1, N 2] a r o er u).bind
        fun p => .ok (true, some p) := by
  obtain ⟨t, ht, -, h2, -⟩ := C65_tables elem isEdge 3 e hk
  have he : 2 ≤ e := by
    simp only [feKinds, List.mem_cons, List.not_mem_nil, or_false, Prod.mk.injEq] at hk
    omega
  unfold generatePatch3
  simp only [hb, hr, ho, her, ht, bind, Except.bind, List.map_cons, List.map_nil, h2]
  rw [if_neg (by omega), nEdgeNodes_eq (by omega) (hn 0), nEdgeNodes_eq (by omega) (hn 1),
    nEdgeNodes_eq (by omega) (hn 2), hNe, hNe, hNe]
  rfl

theorem patchIteration3_none {fl : ℝ → ℝ} {elem : String} {L : Vec3} {ns ne : List ℕ}
    {uniq : ℕ → List (ℕ × ℕ)} {a : PatchArgs} {r : ℕ → ℕ → ℝ × ℝ} {o : ℕ → ℕ → ℕ}
    {er : ℕ → ℕ → List ℝ} {u : PatchDraws} {edges : List (List Vec3)}
    (hedges : deformedEdges3 L ns a.noise (cornersDisp 3 r o u.corner u.edge).2 er
      (cornerPoint3 L (cornersDisp 3 r o u.corner u.edge).1) u = .ok edges)
    (hnone : a.translation = none ∨ a.rotation = none) :
    patchIteration3 fl uniq L elem ne ns a r o er u = .error .typeError := by
  unfold patchIteration3
  simp only [cornerRef3_add]
  rw [hedges]
  simp only [bind, Except.bind, moveEdges3]
  cases hrd : a.rotation with
  | none => rfl
  | some rd =>
    rcases hnone with h | h
    · rw [h]; rfl
    · rw [hrd] at h; cases h

theorem patchIteration3_some {fl : ℝ → ℝ} {elem : String} {L : Vec3} {ns ne : List ℕ}
    {uniq : ℕ → List (ℕ × ℕ)} {a : PatchArgs} {r : ℕ → ℕ → ℝ × ℝ} {o : ℕ → ℕ → ℕ}
    {er : ℕ → ℕ → List ℝ} {u : PatchDraws} {edges : List (List Vec3)} {p : DeformedPatch3}
    {corners : ℕ → Vec3} (hc : corners = cornerPoint3 L (cornersDisp 3 r o u.corner u.edge).1)
    (hedges : deformedEdges3 L ns a.noise (cornersDisp 3 r o u.corner u.edge).2 er corners u = .ok edges)
    {tr rd : PyDict (ℝ × ℝ)} (htr : a.translation = some tr) (hrd : a.rotation = some rd)
    (hp : (do
        let m ← generateMesh fl 3 [L 0, L 1, L 2] elem ne
        let disps ← boundaryDisps3 L ns uniq (edges.map fun (e : List Vec3) => e.map fun x =>
          cornersMean corners + rigidRotation3 rd u.rot *ᵥ (x - cornersMean corners) +
            rigidTranslation3 tr u.trans) m.1.coords m.1.matrix
        makePatch3 m.1 m.2 disps) = .ok p) :
    patchIteration3 fl uniq L elem ne ns a r o er u = .ok p := by
  have hm : moveEdges3 corners a.translation a.rotation u edges = .ok (edges.map fun (e : List Vec3) => e.map fun x =>
      cornersMean corners + rigidRotation3 rd u.rot *ᵥ (x - cornersMean corners) +
        rigidTranslation3 tr u.trans) := by
    rw [htr, hrd]
    rfl
  unfold patchIteration3
  simp only [cornerRef3_add, ← hc]
  rw [hedges]
  show (moveEdges3 corners a.translation a.rotation u edges >>= _) = _
  rw [hm]
  exact hp

/-- **C112d.** With ranges for translation and rotation and a well-formed specification there is a
patch, provided that the corners are not displaced to a degenerate brick. -/
theorem C112_accepts {fl : ℝ → ℝ} (hfl : IsRounding fl) {elem : String} {isEdge : Bool} {e : ℕ}
    (hk : (elem, isEdge, 3, e) ∈ feKinds) {L : Vec3} (hL : ∀ r, 0 < L r) {nElems : Fin 3 → ℕ}
    (hn : ∀ r, 1 ≤ nElems r ∧ nElems r * (e - 1) ≤ 2 ^ 50)
    (hres : ∀ r, 1 / 10 ^ 8 + 1 / 10 ^ 5 * L r < L r / (nElems r * (e - 1) : ℕ))
    {uniq : ℕ → List (ℕ × ℕ)} (hu : ListsEdges uniq) {a : PatchArgs} (hbc : BcOk 3 a.bc)
    (hrg : RangesOk 3 a.ranges) (hod : OrdersOk 3 a.order) (hed : EdgeRangesOk3 a.edgeRanges)
    {maxIter : ℕ} (hmax : 1 ≤ maxIter) {u : PatchDraws} (hud : PatchDraws.Ok u)
    (hnd : ∀ disp, cornerDisplacements 3 a.bc a.ranges a.order u.corner u.edge = .ok disp →
      NonDegenerate3 L disp) :
    (a.translation ≠ none → a.rotation ≠ none → ∃ p,
      generatePatch3 fl uniq L elem [nElems 0, nElems 1, nElems 2] a maxIter u = .ok (true, some p)) ∧
    (a.translation = none ∨ a.rotation = none →
      generatePatch3 fl uniq L elem [nElems 0, nElems 1, nElems 2] a maxIter u =
        .error .typeError) := by
  have he : 2 ≤ e := by
    simp only [feKinds, List.mem_cons, List.not_mem_nil, or_false, Prod.mk.injEq] at hk
    omega
  obtain ⟨N, hNe⟩ : ∃ N : Fin 3 → ℕ, ∀ r, N r = nElems r * (e - 1) + 1 := ⟨_, fun _ => rfl⟩
  have hN : ∀ r, 2 ≤ N r := fun r => by
    have : 1 ≤ nElems r * (e - 1) := Nat.mul_pos (hn r).1 (by omega)
    rw [hNe]
    omega
  obtain ⟨disp₀, hdisp⟩ := (C96_accepts (u₀ := u.corner) (u := u.edge)).mpr ⟨hbc, hrg, hod⟩
  have hndi := hnd _ hdisp
  unfold cornerDisplacements at hdisp
  obtain ⟨b, hb, hdisp⟩ := bind_ok hdisp
  obtain ⟨r, hr, hdisp⟩ := bind_ok hdisp
  obtain ⟨o, ho, hdisp⟩ := bind_ok hdisp
  have hd0 : (cornersDisp 3 r o u.corner u.edge).1 = disp₀ := by
    injection hdisp
  obtain ⟨er, her, herm⟩ := buildEdgeRanges3_total hed
  obtain ⟨edges, hedges⟩ := deformedEdges3_total hL hN (noise := a.noise)
    (orders := (cornersDisp 3 r o u.corner u.edge).2) herm hndi hud
  rw [generatePatch3_start hk (fun r => (hn r).1) hb hr ho her hmax hNe]
  constructor
  · intro htr hrd
    obtain ⟨tr, htr⟩ := Option.ne_none_iff_exists'.mp htr
    obtain ⟨rd, hrd⟩ := Option.ne_none_iff_exists'.mp hrd
    obtain ⟨corners, hcor⟩ : ∃ c, c = cornerPoint3 L disp₀ := ⟨_, rfl⟩
    rw [← hcor] at hedges
    obtain ⟨F, hF⟩ : ∃ F : Vec3 → Vec3, F = fun x => cornersMean corners +
      rigidRotation3 rd u.rot *ᵥ (x - cornersMean corners) + rigidTranslation3 tr u.trans := ⟨_, rfl⟩
    obtain ⟨p, hp, -⟩ := solidPatch_finish hfl hk hL hn hres hu hNe
      (edges := edges.map fun e => e.map F) (Z := fun c => F (corners c)) (by
        intro lab i c d f hrow
        obtain ⟨j, -, hlen, lo, hi, -, hde⟩ := deformedEdges3_spec hN (by
          intro i j lo hi hij hlo
          obtain ⟨lo', hi', k1, k2⟩ := herm i j hij
          rw [k1] at hlo
          cases hlo
          exact k2) hud hedges hrow
        have := hN (Fin.ofNat 3 i)
        obtain ⟨_, _, _, _, _, -, -, -, -, hq0, hqn, -⟩ := hde
        rw [edgeZ_map (by rw [hlen]; omega), edgeZ_map (by rw [hlen]; omega), hq0, hqn]
        exact ⟨rfl, rfl⟩)
    refine ⟨p, ?_⟩
    rw [hF] at hp
    have h1 := patchIteration3_some (by rw [hcor, hd0]) hedges htr hrd hp
    exact congrArg (fun x => Except.bind x fun p => Except.ok (true, some p)) h1
  · intro hnone
    have h1 := patchIteration3_none (fl := fl) (uniq := uniq) (elem := elem)
      (ne := [nElems 0, nElems 1, nElems 2]) (hd0 ▸ hedges) hnone
    exact congrArg (fun x => Except.bind x fun p => Except.ok (true, some p)) h1

end Hooke
