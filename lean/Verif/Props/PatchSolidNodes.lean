import Verif.Props.PatchSolidEdges

/-!
# Nodes on the boundary of a three-dimensional patch

Towards C112: every node of the boundary is on an edge or inside a face, and is assigned one
displacement.
-/

noncomputable section

namespace Hooke

open Matrix Spec

/-- The twelve edges: dimension, first and last corner, labels in the order of the loops. -/
def solidEdges : List (ℕ × ℕ × ℕ × ℕ × ℕ) :=
  [(0, 0, 1, 1, 17), (0, 3, 2, 2, 21), (0, 4, 5, 5, 18), (0, 7, 6, 6, 22),
   (1, 0, 3, 3, 9), (1, 1, 2, 4, 13), (1, 4, 7, 7, 10), (1, 5, 6, 8, 14),
   (2, 0, 4, 11, 19), (2, 3, 7, 12, 23), (2, 1, 5, 15, 20), (2, 2, 6, 16, 24)]

theorem mem_solidEdges {i c d lab lab' : ℕ} (h : (i, c, d, lab, lab') ∈ solidEdges) :
    (i = 0 ∧ c = 0 ∧ d = 1 ∧ lab = 1 ∧ lab' = 17) ∨ (i = 0 ∧ c = 3 ∧ d = 2 ∧ lab = 2 ∧ lab' = 21) ∨
    (i = 0 ∧ c = 4 ∧ d = 5 ∧ lab = 5 ∧ lab' = 18) ∨ (i = 0 ∧ c = 7 ∧ d = 6 ∧ lab = 6 ∧ lab' = 22) ∨
    (i = 1 ∧ c = 0 ∧ d = 3 ∧ lab = 3 ∧ lab' = 9) ∨ (i = 1 ∧ c = 1 ∧ d = 2 ∧ lab = 4 ∧ lab' = 13) ∨
    (i = 1 ∧ c = 4 ∧ d = 7 ∧ lab = 7 ∧ lab' = 10) ∨ (i = 1 ∧ c = 5 ∧ d = 6 ∧ lab = 8 ∧ lab' = 14) ∨
    (i = 2 ∧ c = 0 ∧ d = 4 ∧ lab = 11 ∧ lab' = 19) ∨ (i = 2 ∧ c = 3 ∧ d = 7 ∧ lab = 12 ∧ lab' = 23) ∨
    (i = 2 ∧ c = 1 ∧ d = 5 ∧ lab = 15 ∧ lab' = 20) ∨
    (i = 2 ∧ c = 2 ∧ d = 6 ∧ lab = 16 ∧ lab' = 24) := by
  simpa only [solidEdges, List.mem_cons, Prod.mk.injEq, List.not_mem_nil, or_false] using h

/-- The two labels of an edge. -/
theorem solid_of_labels {lab lab' i c d f f' : ℕ} (h : (lab, i, c, d, f) ∈ patchEdges3)
    (h' : (lab', i, c, d, f') ∈ patchEdges3) (hne : lab ≠ lab') :
    (i, c, d, lab, lab') ∈ solidEdges ∨ (i, c, d, lab', lab) ∈ solidEdges := by
  have key : ∀ r ∈ patchEdges3, ∀ r' ∈ patchEdges3, r.2.1 = r'.2.1 → r.2.2.1 = r'.2.2.1 →
      r.2.2.2.1 = r'.2.2.2.1 → r.1 ≠ r'.1 →
      (r.2.1, r.2.2.1, r.2.2.2.1, r.1, r'.1) ∈ solidEdges ∨
      (r.2.1, r.2.2.1, r.2.2.2.1, r'.1, r.1) ∈ solidEdges := by decide +kernel
  exact key _ h _ h' rfl rfl rfl hne

theorem labels_of_solid {i c d lab lab' : ℕ} (h : (i, c, d, lab, lab') ∈ solidEdges) :
    (∃ f, (lab, i, c, d, f) ∈ patchEdges3) ∧ (∃ f, (lab', i, c, d, f) ∈ patchEdges3) ∧ lab ≠ lab' := by
  rcases mem_solidEdges h with ⟨rfl, rfl, rfl, rfl, rfl⟩ | ⟨rfl, rfl, rfl, rfl, rfl⟩ |
    ⟨rfl, rfl, rfl, rfl, rfl⟩ | ⟨rfl, rfl, rfl, rfl, rfl⟩ | ⟨rfl, rfl, rfl, rfl, rfl⟩ |
    ⟨rfl, rfl, rfl, rfl, rfl⟩ | ⟨rfl, rfl, rfl, rfl, rfl⟩ | ⟨rfl, rfl, rfl, rfl, rfl⟩ |
    ⟨rfl, rfl, rfl, rfl, rfl⟩ | ⟨rfl, rfl, rfl, rfl, rfl⟩ | ⟨rfl, rfl, rfl, rfl, rfl⟩ |
    ⟨rfl, rfl, rfl, rfl, rfl⟩ <;>
  simp [patchEdges3]

theorem solid_facts {i c d lab lab' : ℕ} (h : (i, c, d, lab, lab') ∈ solidEdges) :
    i < 3 ∧ c < 8 ∧ d < 8 ∧ ∀ r : Fin 3, ((r : ℕ) = i → cornerBit c r = 0 ∧ cornerBit d r = 1) ∧
      ((r : ℕ) ≠ i → cornerBit c r = cornerBit d r) := by
  have key : ∀ r ∈ solidEdges, r.1 < 3 ∧ r.2.1 < 8 ∧ r.2.2.1 < 8 ∧
      ∀ s : Fin 3, ((s : ℕ) = r.1 → cornerBit r.2.1 s = 0 ∧ cornerBit r.2.2.1 s = 1) ∧
      ((s : ℕ) ≠ r.1 → cornerBit r.2.1 s = cornerBit r.2.2.1 s) := by decide +kernel
  exact key _ h

theorem solid_unique {i c d lab lab' d' l l' : ℕ} (h : (i, c, d, lab, lab') ∈ solidEdges)
    (h' : (i, c, d', l, l') ∈ solidEdges) : d = d' ∧ lab = l ∧ lab' = l' := by
  have key : ∀ r ∈ solidEdges, ∀ r' ∈ solidEdges, r.1 = r'.1 → r.2.1 = r'.2.1 → r.2.2 = r'.2.2 := by
    decide +kernel
  have := key _ h _ h' rfl rfl
  simpa [Prod.ext_iff] using this

theorem cornerBit_le {c : ℕ} (r : Fin 3) : cornerBit c r ≤ 1 := by
  by_cases hc : c < 8
  · have key : ∀ c < 8, ∀ r : Fin 3, cornerBit c r ≤ 1 := by decide +kernel
    exact key c hc r
  · unfold cornerBit
    rw [List.getD_eq_getElem?_getD, List.getElem?_eq_none (by simp; omega)]
    simp

theorem cornerBit_inj {c c' : ℕ} (hc : c < 8) (hc' : c' < 8)
    (h : ∀ r, cornerBit c r = cornerBit c' r) : c = c' := by
  have key : ∀ c < 8, ∀ c' < 8, (∀ r : Fin 3, cornerBit c r = cornerBit c' r) → c = c' := by
    decide +kernel
  exact key c hc c' hc' h

/-- Nodes of two edges at the same position have the same value, if those at the corners have. -/
theorem edgePos3_consistent {N : Fin 3 → ℕ} (hN : ∀ r, 2 ≤ N r) {α : Type} {Z : ℕ → α}
    {v : ℕ → ℕ → α}
    {i c d lab lab' k i' c' d' l l' k' : ℕ} (h : (i, c, d, lab, lab') ∈ solidEdges)
    (h' : (i', c', d', l, l') ∈ solidEdges)
    (hv : v lab 0 = Z c ∧ v lab (N (Fin.ofNat 3 i) - 1) = Z d)
    (hv' : v l 0 = Z c' ∧ v l (N (Fin.ofNat 3 i') - 1) = Z d')
    (heq : edgePos3 N c i k = edgePos3 N c' i' k') : v lab k = v l k' := by
  have hf := List.ofFn_injective heq
  have hr : ∀ r : Fin 3, (if (r : ℕ) = i then k else cornerBit c r * (N r - 1)) =
      if (r : ℕ) = i' then k' else cornerBit c' r * (N r - 1) := fun r => congrFun hf r
  obtain ⟨hi, hc, hd, hb⟩ := solid_facts h
  obtain ⟨hi', hc', hd', hb'⟩ := solid_facts h'
  have hcancel : ∀ (r : Fin 3) (a b : ℕ), a * (N r - 1) = b * (N r - 1) → a = b := by
    intro r a b hab
    exact Nat.eq_of_mul_eq_mul_right (by have := hN r; omega) hab
  by_cases hii : i = i'
  · subst hii
    have hcc : c = c' := by
      refine cornerBit_inj hc hc' fun r => ?_
      by_cases hri : (r : ℕ) = i
      · rw [((hb r).1 hri).1, ((hb' r).1 hri).1]
      · have := hr r
        rw [if_neg hri, if_neg hri] at this
        exact hcancel r _ _ this
    subst hcc
    obtain ⟨rfl, rfl, rfl⟩ := solid_unique h h'
    have := hr ⟨i, hi⟩
    rw [if_pos rfl, if_pos rfl] at this
    rw [this]
  · -- both nodes are corners
    have e1 := hr ⟨i, hi⟩
    rw [if_pos rfl, if_neg hii] at e1
    have e2 := hr ⟨i', hi'⟩
    rw [if_neg (Ne.symm hii), if_pos rfl] at e2
    have o1 : (Fin.ofNat 3 i) = ⟨i, hi⟩ := Fin.ext (Nat.mod_eq_of_lt hi)
    have o2 : (Fin.ofNat 3 i') = ⟨i', hi'⟩ := Fin.ext (Nat.mod_eq_of_lt hi')
    rw [o1] at hv
    rw [o2] at hv'
    -- the corner `w` on the first edge and its components
    have hw : ∃ w, w < 8 ∧ v lab k = Z w ∧ (∀ r : Fin 3, (r : ℕ) ≠ i → cornerBit w r = cornerBit c r) ∧
        cornerBit w ⟨i, hi⟩ = cornerBit c' ⟨i, hi⟩ := by
      rcases Nat.le_one_iff_eq_zero_or_eq_one.mp (cornerBit_le (c := c') ⟨i, hi⟩) with h0 | h1
      · rw [h0, Nat.zero_mul] at e1
        exact ⟨c, hc, by rw [e1, hv.1], fun r _ => rfl, by rw [h0, ((hb _).1 rfl).1]⟩
      · rw [h1, Nat.one_mul] at e1
        exact ⟨d, hd, by rw [e1, hv.2], fun r hri => ((hb r).2 hri).symm, by rw [h1, ((hb _).1 rfl).2]⟩
    have hw' : ∃ w, w < 8 ∧ v l k' = Z w ∧ (∀ r : Fin 3, (r : ℕ) ≠ i' → cornerBit w r = cornerBit c' r) ∧
        cornerBit w ⟨i', hi'⟩ = cornerBit c ⟨i', hi'⟩ := by
      rcases Nat.le_one_iff_eq_zero_or_eq_one.mp (cornerBit_le (c := c) ⟨i', hi'⟩) with h0 | h1
      · rw [h0, Nat.zero_mul] at e2
        exact ⟨c', hc', by rw [← e2, hv'.1], fun r _ => rfl, by rw [h0, ((hb' _).1 rfl).1]⟩
      · rw [h1, Nat.one_mul] at e2
        exact ⟨d', hd', by rw [← e2, hv'.2], fun r hri => ((hb' r).2 hri).symm,
          by rw [h1, ((hb' _).1 rfl).2]⟩
    obtain ⟨w, hw8, hwv, hwr, hwi⟩ := hw
    obtain ⟨w', hw8', hwv', hwr', hwi'⟩ := hw'
    have : w = w' := by
      refine cornerBit_inj hw8 hw8' fun r => ?_
      by_cases hri : (r : ℕ) = i
      · have : r = ⟨i, hi⟩ := Fin.ext hri
        subst this
        rw [hwi, hwr' _ hii]
      · by_cases hri' : (r : ℕ) = i'
        · have : r = ⟨i', hi'⟩ := Fin.ext hri'
          subst this
          rw [hwi', hwr _ hri]
        · rw [hwr r hri, hwr' r hri']
          have := hr r
          rw [if_neg hri, if_neg hri'] at this
          exact hcancel r _ _ this
    rw [hwv, hwv', this]

theorem ofNat3_zero : Fin.ofNat 3 0 = (0 : Fin 3) := rfl
theorem ofNat3_one : Fin.ofNat 3 1 = (1 : Fin 3) := rfl
theorem ofNat3_two : Fin.ofNat 3 2 = (2 : Fin 3) := rfl

/-- Reference nodes of the edges in the grid. -/
theorem edgeRef3_grid {L : Vec3} {N : Fin 3 → ℕ} (hN : ∀ r, 2 ≤ N r) {i c d lab lab' : ℕ}
    (h : (i, c, d, lab, lab') ∈ solidEdges) (k : ℕ) :
    edgeRef3 (N (Fin.ofNat 3 i)) (cornerRef3 L c) (cornerRef3 L d) k =
      gridPoint3 L N (edgePos3 N c i k) := by
  have h1 : ∀ r, ((N r - 1 : ℕ) : ℝ) = (N r : ℝ) - 1 := by
    intro r
    rw [Nat.cast_sub (by have := hN r; omega)]; simp
  have g1 : ∀ r, (N r : ℝ) - 1 ≠ 0 := by
    intro r
    rw [← h1]
    exact_mod_cast (by have := hN r; omega : N r - 1 ≠ 0)
  have g0 := g1 0
  have ga := g1 1
  have gb := g1 2
  have h0 := h1 0
  have ha := h1 1
  have hb := h1 2
  rcases mem_solidEdges h with ⟨rfl, rfl, rfl, rfl, rfl⟩ | ⟨rfl, rfl, rfl, rfl, rfl⟩ |
    ⟨rfl, rfl, rfl, rfl, rfl⟩ | ⟨rfl, rfl, rfl, rfl, rfl⟩ | ⟨rfl, rfl, rfl, rfl, rfl⟩ |
    ⟨rfl, rfl, rfl, rfl, rfl⟩ | ⟨rfl, rfl, rfl, rfl, rfl⟩ | ⟨rfl, rfl, rfl, rfl, rfl⟩ |
    ⟨rfl, rfl, rfl, rfl, rfl⟩ | ⟨rfl, rfl, rfl, rfl, rfl⟩ | ⟨rfl, rfl, rfl, rfl, rfl⟩ |
    ⟨rfl, rfl, rfl, rfl, rfl⟩ <;>
  · simp only [ofNat3_zero, ofNat3_one, ofNat3_two]
    ext r
    fin_cases r <;>
    simp [edgeRef3, cornerRef3, gridPoint3, edgePos3, cornerBit, List.ofFn_succ, h0, ha, hb] <;>
    field_simp

/-- Extreme component of a position. -/
def Ext (n x : ℕ) : Prop := x = 0 ∨ x + 1 = n

theorem edgePos3_eq (N : Fin 3 → ℕ) (c i k : ℕ) : edgePos3 N c i k =
    [if 0 = i then k else cornerBit c 0 * (N 0 - 1), if 1 = i then k else cornerBit c 1 * (N 1 - 1),
      if 2 = i then k else cornerBit c 2 * (N 2 - 1)] := by
  simp [edgePos3, List.ofFn_succ]

theorem edgePos3_grid {N : Fin 3 → ℕ} (hN : ∀ r, 2 ≤ N r) {i c d lab lab' k : ℕ}
    (h : (i, c, d, lab, lab') ∈ solidEdges) (hk : k < N (Fin.ofNat 3 i)) :
    ∃ x y z, edgePos3 N c i k = [x, y, z] ∧ x < N 0 ∧ y < N 1 ∧ z < N 2 ∧
      ((Ext (N 0) x ∧ Ext (N 1) y) ∨ (Ext (N 0) x ∧ Ext (N 2) z) ∨ (Ext (N 1) y ∧ Ext (N 2) z)) := by
  have h0 := hN 0
  have h1 := hN 1
  have h2 := hN 2
  refine ⟨_, _, _, edgePos3_eq N c i k, ?_⟩
  rcases mem_solidEdges h with ⟨rfl, rfl, rfl, rfl, rfl⟩ | ⟨rfl, rfl, rfl, rfl, rfl⟩ |
    ⟨rfl, rfl, rfl, rfl, rfl⟩ | ⟨rfl, rfl, rfl, rfl, rfl⟩ | ⟨rfl, rfl, rfl, rfl, rfl⟩ |
    ⟨rfl, rfl, rfl, rfl, rfl⟩ | ⟨rfl, rfl, rfl, rfl, rfl⟩ | ⟨rfl, rfl, rfl, rfl, rfl⟩ |
    ⟨rfl, rfl, rfl, rfl, rfl⟩ | ⟨rfl, rfl, rfl, rfl, rfl⟩ | ⟨rfl, rfl, rfl, rfl, rfl⟩ |
    ⟨rfl, rfl, rfl, rfl, rfl⟩ <;>
  · simp only [ofNat3_zero, ofNat3_one, ofNat3_two] at hk
    simp [cornerBit, Ext]
    omega

theorem edge_of_ext {N : Fin 3 → ℕ} {x y z : ℕ} (hx : x < N 0) (hy : y < N 1) (hz : z < N 2)
    (h : (Ext (N 0) x ∧ Ext (N 1) y) ∨ (Ext (N 0) x ∧ Ext (N 2) z) ∨ (Ext (N 1) y ∧ Ext (N 2) z)) :
    ∃ i c d lab lab' k, (i, c, d, lab, lab') ∈ solidEdges ∧ k < N (Fin.ofNat 3 i) ∧
      edgePos3 N c i k = [x, y, z] := by
  have fin : ∀ i c d lab lab' k, (i, c, d, lab, lab') ∈ solidEdges → k < N (Fin.ofNat 3 i) →
      edgePos3 N c i k = [x, y, z] → ∃ i c d lab lab' k, (i, c, d, lab, lab') ∈ solidEdges ∧
      k < N (Fin.ofNat 3 i) ∧ edgePos3 N c i k = [x, y, z] :=
    fun i c d lab lab' k h1 h2 h3 => ⟨i, c, d, lab, lab', k, h1, h2, h3⟩
  rcases h with ⟨h1 | h1, h2 | h2⟩ | ⟨h1 | h1, h2 | h2⟩ | ⟨h1 | h1, h2 | h2⟩
  · exact fin 2 0 4 11 19 z (by decide) hz (by rw [edgePos3_eq]; simp [cornerBit]; omega)
  · exact fin 2 3 7 12 23 z (by decide) hz (by rw [edgePos3_eq]; simp [cornerBit]; omega)
  · exact fin 2 1 5 15 20 z (by decide) hz (by rw [edgePos3_eq]; simp [cornerBit]; omega)
  · exact fin 2 2 6 16 24 z (by decide) hz (by rw [edgePos3_eq]; simp [cornerBit]; omega)
  · exact fin 1 0 3 3 9 y (by decide) hy (by rw [edgePos3_eq]; simp [cornerBit]; omega)
  · exact fin 1 4 7 7 10 y (by decide) hy (by rw [edgePos3_eq]; simp [cornerBit]; omega)
  · exact fin 1 1 2 4 13 y (by decide) hy (by rw [edgePos3_eq]; simp [cornerBit]; omega)
  · exact fin 1 5 6 8 14 y (by decide) hy (by rw [edgePos3_eq]; simp [cornerBit]; omega)
  · exact fin 0 0 1 1 17 x (by decide) hx (by rw [edgePos3_eq]; simp [cornerBit]; omega)
  · exact fin 0 4 5 5 18 x (by decide) hx (by rw [edgePos3_eq]; simp [cornerBit]; omega)
  · exact fin 0 3 2 2 21 x (by decide) hx (by rw [edgePos3_eq]; simp [cornerBit]; omega)
  · exact fin 0 7 6 6 22 x (by decide) hx (by rw [edgePos3_eq]; simp [cornerBit]; omega)

/-- The deformed node `k` of the edge with a label. -/
def edgeZ (edges : List (List Vec3)) (lab k : ℕ) : Vec3 :=
  (edges.getD (edgeList3.idxOf ((edgesMapping 3).getD (lab - 1) (0, 0))) []).getD k 0

theorem matching_of_solid {i c d lab lab' : ℕ} (h : (i, c, d, lab, lab') ∈ solidEdges) :
    ((List.range 8).filter fun j => decide (edgeAt i j = (c, d))) =
      [((edgesMapping 3).getD (lab - 1) (0, 0)).2, ((edgesMapping 3).getD (lab' - 1) (0, 0)).2] ∧
    ((edgesMapping 3).getD (lab - 1) (0, 0)).1 = i ∧ ((edgesMapping 3).getD (lab' - 1) (0, 0)).1 = i ∧
    edgeAt i ((edgesMapping 3).getD (lab - 1) (0, 0)).2 = (c, d) := by
  rcases mem_solidEdges h with ⟨rfl, rfl, rfl, rfl, rfl⟩ | ⟨rfl, rfl, rfl, rfl, rfl⟩ |
    ⟨rfl, rfl, rfl, rfl, rfl⟩ | ⟨rfl, rfl, rfl, rfl, rfl⟩ | ⟨rfl, rfl, rfl, rfl, rfl⟩ |
    ⟨rfl, rfl, rfl, rfl, rfl⟩ | ⟨rfl, rfl, rfl, rfl, rfl⟩ | ⟨rfl, rfl, rfl, rfl, rfl⟩ |
    ⟨rfl, rfl, rfl, rfl, rfl⟩ | ⟨rfl, rfl, rfl, rfl, rfl⟩ | ⟨rfl, rfl, rfl, rfl, rfl⟩ |
    ⟨rfl, rfl, rfl, rfl, rfl⟩ <;> decide +kernel

theorem mem_uniq {uniq : ℕ → List (ℕ × ℕ)} (hu : ListsEdges uniq) {i c d : ℕ} (hi : i < 3) :
    (c, d) ∈ uniq i ↔ ∃ lab lab', (i, c, d, lab, lab') ∈ solidEdges := by
  rw [(hu i hi).2 c d]
  constructor
  · rintro ⟨lab, f, h⟩
    have key : ∀ r ∈ patchEdges3, ∃ s ∈ solidEdges, s.1 = r.2.1 ∧ s.2.1 = r.2.2.1 ∧
        s.2.2.1 = r.2.2.2.1 := by decide +kernel
    obtain ⟨⟨i', c', d', l, l'⟩, h1, h2, h3, h4⟩ := key _ h
    simp only at h2 h3 h4
    subst h2 h3 h4
    exact ⟨l, l', h1⟩
  · rintro ⟨lab, lab', h⟩
    obtain ⟨⟨f, hf⟩, -⟩ := labels_of_solid h
    exact ⟨lab, f, hf⟩

theorem meanVec_pair (a b : Vec3) : meanVec [a, b] = (1 / 2 : ℝ) • (a + b) := by
  simp [meanVec]

theorem mem_edgeNodes3 {L : Vec3} {N : Fin 3 → ℕ} (hN : ∀ r, 2 ≤ N r) {uniq : ℕ → List (ℕ × ℕ)}
    (hu : ListsEdges uniq) {edges : List (List Vec3)} {a : Vec3 × Vec3} :
    a ∈ edgeNodes3 L [N 0, N 1, N 2] uniq edges ↔
      ∃ i c d lab lab' k, (i, c, d, lab, lab') ∈ solidEdges ∧ k < N (Fin.ofNat 3 i) ∧
        a = (gridPoint3 L N (edgePos3 N c i k),
          (1 / 2 : ℝ) • (edgeZ edges lab k + edgeZ edges lab' k)) := by
  have hget : ∀ i < 3, [N 0, N 1, N 2].getD i 0 = N (Fin.ofNat 3 i) := by
    intro i hi
    interval_cases i <;> rfl
  have key : ∀ {i c d lab lab' : ℕ}, (i, c, d, lab, lab') ∈ solidEdges →
      ∀ idxs, idxs = ((List.range 8).filter fun j => decide (edgeAt i j = (c, d))) →
      ∀ k, (edgeRef3 ([N 0, N 1, N 2].getD i 0) (cornerRef3 L (edgeAt i (idxs.headD 0)).1)
          (cornerRef3 L (edgeAt i (idxs.headD 0)).2) k,
        meanVec (idxs.map fun j => (edges.getD (edgeList3.idxOf (i, j)) []).getD k 0)) =
      (gridPoint3 L N (edgePos3 N c i k), (1 / 2 : ℝ) • (edgeZ edges lab k + edgeZ edges lab' k)) := by
    intro i c d lab lab' h idxs hidxs k
    obtain ⟨h1, h2, h3, h4⟩ := matching_of_solid h
    rw [hidxs, h1]
    simp only [List.headD_cons, List.map_cons, List.map_nil]
    rw [h4, hget i (solid_facts h).1, edgeRef3_grid hN h, meanVec_pair]
    refine Prod.ext rfl ?_
    have e1 : (i, ((edgesMapping 3).getD (lab - 1) (0, 0)).2) = (edgesMapping 3).getD (lab - 1) (0, 0) :=
      Prod.ext h2.symm rfl
    have e2 : (i, ((edgesMapping 3).getD (lab' - 1) (0, 0)).2) =
        (edgesMapping 3).getD (lab' - 1) (0, 0) := Prod.ext h3.symm rfl
    simp only [edgeZ, e1, e2]
  unfold edgeNodes3 matchingIdxs
  simp only [List.mem_flatMap, List.mem_range, List.mem_map]
  constructor
  · rintro ⟨i, hi, idxs, ⟨⟨c, d⟩, ht, rfl⟩, k, hk, rfl⟩
    obtain ⟨lab, lab', h⟩ := (mem_uniq hu hi).mp ht
    rw [hget i hi] at hk
    exact ⟨i, c, d, lab, lab', k, h, hk, key h _ rfl k⟩
  · rintro ⟨i, c, d, lab, lab', k, h, hk, rfl⟩
    have hi := (solid_facts h).1
    exact ⟨i, hi, _, ⟨(c, d), (mem_uniq hu hi).mpr ⟨lab, lab', h⟩, rfl⟩, k, by rw [hget i hi]; exact hk,
      key h _ rfl k⟩

/-! ### Edges -/

theorem edgeDisps_fold {coords : List (ℕ × List ℝ)} {lab : Vec3 × Vec3 → ℕ}
    (l : List (Vec3 × Vec3)) (hlab : ∀ a ∈ l, labelFromCoords3 coords a.1 = .ok (lab a))
    (hcons : ∀ a ∈ l, ∀ b ∈ l, lab a = lab b → a.2 - a.1 = b.2 - b.1) :
    ∃ d, l.foldlM (setEdgeDisp3 coords) [] = .ok d ∧ d.keys.Nodup ∧
      (∀ a ∈ l, d.get? (lab a) = some (a.2 - a.1)) ∧ ∀ k ∈ d.keys, ∃ a ∈ l, lab a = k := by
  induction l using List.reverseRecOn with
  | nil => exact ⟨[], rfl, by simp [KDict.keys], by simp, by simp [KDict.keys]⟩
  | append_singleton l a ih =>
    obtain ⟨d, h1, h2, h3, h4⟩ := ih (fun b hb => hlab b (by simp [hb]))
      (fun b hb c hc => hcons b (by simp [hb]) c (by simp [hc]))
    rw [List.foldlM_append, h1]
    have ha := hlab a (by simp)
    by_cases hk : lab a ∈ d.keys
    · refine ⟨d, ?_, h2, ?_, ?_⟩
      · simp [bind, Except.bind, setEdgeDisp3, ha, KDict.has_iff.mpr hk, pure, Except.pure]
      · intro b hb
        rcases List.mem_append.mp hb with hb | hb
        · exact h3 b hb
        · cases List.mem_singleton.mp hb
          obtain ⟨c, hc, hcl⟩ := h4 _ hk
          rw [← hcl, h3 c hc, hcons c (by simp [hc]) a (by simp) hcl]
      · intro k hk
        obtain ⟨c, hc, hcl⟩ := h4 _ hk
        exact ⟨c, by simp [hc], hcl⟩
    · refine ⟨d.put (lab a) (a.2 - a.1), ?_, KDict.nodup_put h2 _ _, ?_, ?_⟩
      · have : d.has (lab a) = false := by
          rw [← Bool.not_eq_true, KDict.has_iff]
          exact hk
        simp [bind, Except.bind, setEdgeDisp3, ha, this, pure, Except.pure]
      · intro b hb
        rcases List.mem_append.mp hb with hb | hb
        · by_cases he : lab b = lab a
          · rw [he, KDict.get?_put_self, hcons a (by simp) b (by simp [hb]) he.symm]
          · rw [KDict.get?_put_ne _ _ he]
            exact h3 b hb
        · cases List.mem_singleton.mp hb
          exact KDict.get?_put_self _ _ _
      · intro k hkk
        obtain ⟨v, hv⟩ := KDict.mem_keys_iff.mp hkk
        by_cases he : k = lab a
        · exact ⟨a, by simp, he.symm⟩
        · rw [KDict.get?_put_ne _ _ he] at hv
          obtain ⟨c, hc, hcl⟩ := h4 k (KDict.mem_keys_iff.mpr ⟨v, hv⟩)
          exact ⟨c, by simp [hc], hcl⟩

/-! ### Faces -/

/-- A step of the loops over the faces. -/
abbrev FaceStep := ((ℕ × ℕ) × (ℕ → ℕ → List ℕ)) × (ℕ × ℕ)

/-- The displacement computed in a step from those of the edges. -/
def faceValue (matrix : List ℕ → ℕ) (d : KDict ℕ Vec3) (s : FaceStep) : Vec3 :=
  let g := fun l => (d.get? (matrix l)).getD 0
  (1 / 2 : ℝ) • (((1 - (s.2.1 : ℝ) / s.1.1.1) • g (s.1.2 0 s.2.2) +
      ((s.2.1 : ℝ) / s.1.1.1) • g (s.1.2 (s.1.1.1 - 1) s.2.2)) +
    ((1 - (s.2.2 : ℝ) / s.1.1.2) • g (s.1.2 s.2.1 0) +
      ((s.2.2 : ℝ) / s.1.1.2) • g (s.1.2 s.2.1 (s.1.1.2 - 1))))

/-- The labels read in a step. -/
def faceReads (s : FaceStep) : List (List ℕ) :=
  [s.1.2 0 s.2.2, s.1.2 (s.1.1.1 - 1) s.2.2, s.1.2 s.2.1 0, s.1.2 s.2.1 (s.1.1.2 - 1)]

theorem faceDisps_fold {matrix : List ℕ → ℕ} {d₀ : KDict ℕ Vec3} (hd₀ : d₀.keys.Nodup)
    (l : List FaceStep)
    (hread : ∀ s ∈ l, matrix (s.1.2 s.2.1 s.2.2) ≠ 0 → ∀ p ∈ faceReads s, matrix p ∈ d₀.keys)
    (hcons : ∀ s ∈ l, ∀ s' ∈ l, matrix (s.1.2 s.2.1 s.2.2) ≠ 0 →
      matrix (s.1.2 s.2.1 s.2.2) = matrix (s'.1.2 s'.2.1 s'.2.2) →
      matrix (s.1.2 s.2.1 s.2.2) ∉ d₀.keys → faceValue matrix d₀ s = faceValue matrix d₀ s') :
    ∃ d, l.foldlM (fun d s => setFaceDisp matrix s.1 d s.2) d₀ = .ok d ∧ d.keys.Nodup ∧
      (∀ k ∈ d₀.keys, d.get? k = d₀.get? k) ∧
      (∀ s ∈ l, matrix (s.1.2 s.2.1 s.2.2) ≠ 0 → matrix (s.1.2 s.2.1 s.2.2) ∉ d₀.keys →
        d.get? (matrix (s.1.2 s.2.1 s.2.2)) = some (faceValue matrix d₀ s)) ∧
      ∀ k ∈ d.keys, k ∈ d₀.keys ∨ (k ≠ 0 ∧ ∃ s ∈ l, matrix (s.1.2 s.2.1 s.2.2) = k) := by
  induction l using List.reverseRecOn with
  | nil => exact ⟨d₀, rfl, hd₀, fun _ _ => rfl, by simp, fun k hk => Or.inl hk⟩
  | append_singleton l a ih =>
    obtain ⟨d, h1, h2, h3, h4, h5⟩ := ih (fun b hb => hread b (by simp [hb]))
      (fun b hb c hc => hcons b (by simp [hb]) c (by simp [hc]))
    rw [List.foldlM_append, h1]
    set lab := matrix (a.1.2 a.2.1 a.2.2) with hlab
    have hsub : ∀ k ∈ d₀.keys, k ∈ d.keys := by
      intro k hk
      obtain ⟨v, hv⟩ := KDict.mem_keys_iff.mp hk
      exact KDict.mem_keys_iff.mpr ⟨v, by rw [h3 k hk, hv]⟩
    by_cases h0 : lab = 0
    · refine ⟨d, ?_, h2, h3, ?_, ?_⟩
      · simp [setFaceDisp, ← hlab, h0]
        rfl
      · intro s hs hs0 hsn
        rcases List.mem_append.mp hs with hs | hs
        · exact h4 s hs hs0 hsn
        · cases List.mem_singleton.mp hs
          exact absurd h0 hs0
      · intro k hk
        rcases h5 k hk with h | ⟨h, s, hs, hsk⟩
        · exact Or.inl h
        · exact Or.inr ⟨h, s, by simp [hs], hsk⟩
    · have hr := hread a (by simp) h0
      have hval : ∀ p ∈ faceReads a, d.get? (matrix p) = some ((d₀.get? (matrix p)).getD 0) := by
        intro p hp
        obtain ⟨v, hv⟩ := KDict.mem_keys_iff.mp (hr p hp)
        rw [h3 _ (hr p hp), hv]
        rfl
      have hstep : setFaceDisp matrix a.1 d a.2 =
          .ok (if d.has lab then d else d.put lab (faceValue matrix d₀ a)) := by
        unfold setFaceDisp
        simp only
        rw [if_neg h0, hval _ (by simp [faceReads]), hval _ (by simp [faceReads]),
          hval _ (by simp [faceReads]), hval _ (by simp [faceReads])]
        simp only [orRaise, bind, Except.bind, pure, Except.pure, ← hlab, faceValue, meanVec_pair]
      have hstep' : (do
          let d' ← (.ok d : Py (KDict ℕ Vec3))
          [a].foldlM (fun d (s : FaceStep) => setFaceDisp matrix s.1 d s.2) d') =
          .ok (if d.has lab then d else d.put lab (faceValue matrix d₀ a)) := by
        show [a].foldlM (fun d (s : FaceStep) => setFaceDisp matrix s.1 d s.2) d = _
        rw [List.foldlM_cons, hstep]
        rfl
      refine ⟨_, hstep', ?_⟩
      by_cases hk : lab ∈ d.keys
      · rw [if_pos (KDict.has_iff.mpr hk)]
        refine ⟨h2, h3, ?_, ?_⟩
        · intro s hs hs0 hsn
          rcases List.mem_append.mp hs with hs | hs
          · exact h4 s hs hs0 hsn
          · cases List.mem_singleton.mp hs
            rcases h5 _ hk with h | ⟨h, s, hs, hsk⟩
            · exact absurd h hsn
            · rw [← hlab, ← hsk, h4 s hs (hsk ▸ h0) (hsk ▸ hsn),
                hcons s (by simp [hs]) a (by simp) (hsk ▸ h0) hsk (hsk ▸ hsn)]
        · intro k hk'
          rcases h5 k hk' with h | ⟨h, s, hs, hsk⟩
          · exact Or.inl h
          · exact Or.inr ⟨h, s, by simp [hs], hsk⟩
      · rw [if_neg (by rw [KDict.has_iff]; exact hk)]
        refine ⟨KDict.nodup_put h2 _ _, ?_, ?_, ?_⟩
        · intro k hk0
          have : k ≠ lab := fun h => hk (h ▸ hsub k hk0)
          rw [KDict.get?_put_ne _ _ this]
          exact h3 k hk0
        · intro s hs hs0 hsn
          rcases List.mem_append.mp hs with hs | hs
          · by_cases he : matrix (s.1.2 s.2.1 s.2.2) = lab
            · rw [he, KDict.get?_put_self, hcons s (by simp [hs]) a (by simp) hs0 he hsn]
            · rw [KDict.get?_put_ne _ _ he]
              exact h4 s hs hs0 hsn
          · cases List.mem_singleton.mp hs
            exact KDict.get?_put_self _ _ _
        · intro k hkk
          obtain ⟨v, hv⟩ := KDict.mem_keys_iff.mp hkk
          by_cases he : k = lab
          · exact Or.inr ⟨he ▸ h0, a, by simp, he.symm⟩
          · rw [KDict.get?_put_ne _ _ he] at hv
            rcases h5 k (KDict.mem_keys_iff.mpr ⟨v, hv⟩) with h | ⟨h, s, hs, hsk⟩
            · exact Or.inl h
            · exact Or.inr ⟨h, s, by simp [hs], hsk⟩

/-- The steps of the loops over the faces. -/
def faceSteps (ns : List ℕ) : List FaceStep :=
  (solidFaces ns).flatMap fun f => (faceIndices f.1.1 f.1.2).map fun p => (f, p)

theorem faces_foldlM {matrix : List ℕ → ℕ} (fs : List ((ℕ × ℕ) × (ℕ → ℕ → List ℕ))) (d : KDict ℕ Vec3) :
    fs.foldlM (fun d f => (faceIndices f.1.1 f.1.2).foldlM (setFaceDisp matrix f) d) d =
      (fs.flatMap fun f => (faceIndices f.1.1 f.1.2).map fun p => (f, p)).foldlM
        (fun d s => setFaceDisp matrix s.1 d s.2) d := by
  induction fs generalizing d with
  | nil => rfl
  | cons f fs ih =>
    rw [List.foldlM_cons, List.flatMap_cons, List.foldlM_append, List.foldlM_map]
    congr 1
    funext d
    exact ih d

theorem mem_faceIndices {n₁ n₂ i j : ℕ} :
    (i, j) ∈ faceIndices n₁ n₂ ↔ 0 < i ∧ i < n₁ ∧ 0 < j ∧ j < n₂ := by
  unfold faceIndices
  simp only [List.mem_flatMap, List.mem_map, List.mem_range'_1, Prod.mk.injEq]
  constructor
  · rintro ⟨j', hj, i', hi, rfl, rfl⟩
    omega
  · intro h
    exact ⟨j, by omega, i, by omega, rfl, rfl⟩

theorem mem_solidFaces {N : Fin 3 → ℕ} {f : (ℕ × ℕ) × (ℕ → ℕ → List ℕ)} :
    f ∈ solidFaces [N 0, N 1, N 2] ↔ ∃ g s, (s = 0 ∨ s = N g - 1) ∧
      f = ((N (faceDims g).1, N (faceDims g).2), facePos g s) := by
  have e : ∀ s, facePos 0 s = (fun i j => [s, i, j]) ∧ facePos 1 s = (fun i j => [i, s, j]) ∧
      facePos 2 s = (fun i j => [i, j, s]) := by
    intro s
    refine ⟨?_, ?_, ?_⟩ <;> · funext i j; simp [facePos]
  have d : faceDims 0 = (1, 2) ∧ faceDims 1 = (0, 2) ∧ faceDims 2 = (0, 1) := by decide
  unfold solidFaces
  simp only [List.mem_cons, List.not_mem_nil, or_false, List.getD_cons_zero, List.getD_cons_succ]
  constructor
  · rintro (rfl | rfl | rfl | rfl | rfl | rfl)
    · exact ⟨2, 0, Or.inl rfl, by rw [(e 0).2.2, d.2.2]⟩
    · exact ⟨2, _, Or.inr rfl, by rw [(e _).2.2, d.2.2]⟩
    · exact ⟨0, 0, Or.inl rfl, by rw [(e 0).1, d.1]⟩
    · exact ⟨0, _, Or.inr rfl, by rw [(e _).1, d.1]⟩
    · exact ⟨1, 0, Or.inl rfl, by rw [(e 0).2.1, d.2.1]⟩
    · exact ⟨1, _, Or.inr rfl, by rw [(e _).2.1, d.2.1]⟩
  · rintro ⟨g, s, hs, rfl⟩
    fin_cases g
    · rcases hs with rfl | rfl
      · right; right; left; exact by rw [show (⟨0, by decide⟩ : Fin 3) = 0 from rfl, (e 0).1, d.1]
      · right; right; right; left; exact by rw [show (⟨0, by decide⟩ : Fin 3) = 0 from rfl, (e _).1, d.1]
    · rcases hs with rfl | rfl
      · right; right; right; right; left
        exact by rw [show (⟨1, by decide⟩ : Fin 3) = 1 from rfl, (e 0).2.1, d.2.1]
      · right; right; right; right; right
        exact by rw [show (⟨1, by decide⟩ : Fin 3) = 1 from rfl, (e _).2.1, d.2.1]
    · rcases hs with rfl | rfl
      · left; exact by rw [show (⟨2, by decide⟩ : Fin 3) = 2 from rfl, (e 0).2.2, d.2.2]
      · right; left; exact by rw [show (⟨2, by decide⟩ : Fin 3) = 2 from rfl, (e _).2.2, d.2.2]

theorem mem_faceSteps {N : Fin 3 → ℕ} {s : FaceStep} :
    s ∈ faceSteps [N 0, N 1, N 2] ↔ ∃ g e i j, (e = 0 ∨ e = N g - 1) ∧ 0 < i ∧ i < N (faceDims g).1 ∧
      0 < j ∧ j < N (faceDims g).2 ∧
      s = (((N (faceDims g).1, N (faceDims g).2), facePos g e), (i, j)) := by
  unfold faceSteps
  simp only [List.mem_flatMap, List.mem_map]
  constructor
  · rintro ⟨f, hf, ⟨i, j⟩, hp, rfl⟩
    obtain ⟨g, e, he, rfl⟩ := mem_solidFaces.mp hf
    obtain ⟨h1, h2, h3, h4⟩ := mem_faceIndices.mp hp
    exact ⟨g, e, i, j, he, h1, h2, h3, h4, rfl⟩
  · rintro ⟨g, e, i, j, he, h1, h2, h3, h4, rfl⟩
    exact ⟨_, mem_solidFaces.mpr ⟨g, e, he, rfl⟩, (i, j), mem_faceIndices.mpr ⟨h1, h2, h3, h4⟩, rfl⟩

theorem labelFromCoords3_of {coords : List (ℕ × List ℝ)} {x : Vec3} {ℓ : ℕ}
    (hex : ∃ a ∈ coords, ∀ r : Fin 3, npIsClose (x r) (a.2.getD r 0))
    (hall : ∀ a ∈ coords, (∀ r : Fin 3, npIsClose (x r) (a.2.getD r 0)) → a.1 = ℓ) :
    labelFromCoords3 coords x = .ok ℓ := by
  classical
  unfold labelFromCoords3
  obtain ⟨a, ha, hc⟩ := hex
  have hmem : a ∈ coords.filter fun a => decide (∀ r : Fin 3, npIsClose (x r) (a.2.getD r 0)) := by
    rw [List.mem_filter]
    exact ⟨ha, decide_eq_true hc⟩
  have hne := List.ne_nil_of_mem hmem
  have hl := List.getLast_mem hne
  rw [List.mem_filter] at hl
  have := hall _ hl.1 (of_decide_eq_true hl.2)
  rw [orRaise_ok, ← this]
  simp only [List.getLast?_eq_some_getLast hne, Option.map_some]

theorem gridCoords_three {e n₁ n₂ n₃ : ℕ} (L : Vec3) (x y z : ℕ) :
    gridCoords e [L 0, L 1, L 2] [n₁, n₂, n₃] [x, y, z] =
      [(x : ℝ) * (L 0 / ((n₁ * (e - 1) : ℕ) : ℝ)), (y : ℝ) * (L 1 / ((n₂ * (e - 1) : ℕ) : ℝ)),
        (z : ℝ) * (L 2 / ((n₃ * (e - 1) : ℕ) : ℝ))] := by
  simp [gridCoords]

theorem onGrid_three {a b c : ℕ} {idx : List ℕ} : OnGrid [a, b, c] idx ↔
    ∃ x y z, idx = [x, y, z] ∧ x < a ∧ y < b ∧ z < c := by
  constructor
  · intro h
    cases h with
    | cons hx hr =>
      cases hr with
      | cons hy hr =>
        cases hr with
        | cons hz hr => cases hr; exact ⟨_, _, _, rfl, hx, hy, hz⟩
  · rintro ⟨x, y, z, rfl, hx, hy, hz⟩
    exact .cons hx (.cons hy (.cons hz .nil))

theorem onBoundary_three {a b c x y z : ℕ} :
    OnBoundary [a, b, c] [x, y, z] ↔ Ext a x ∨ Ext b y ∨ Ext c z := by
  simp [OnBoundary, Ext]

/-- A node of a face that is not on an edge. -/
theorem facePos_interior {N : Fin 3 → ℕ} {g : Fin 3} {s i j : ℕ} (hs : s = 0 ∨ s = N g - 1)
    (hN : ∀ r, 2 ≤ N r) (h1 : i < N (faceDims g).1) (h2 : j < N (faceDims g).2) :
    ∃ x y z, facePos g s i j = [x, y, z] ∧ x < N 0 ∧ y < N 1 ∧ z < N 2 ∧
      (Ext (N 0) x ∨ Ext (N 1) y ∨ Ext (N 2) z) ∧
      (((Ext (N 0) x ∧ Ext (N 1) y) ∨ (Ext (N 0) x ∧ Ext (N 2) z) ∨ (Ext (N 1) y ∧ Ext (N 2) z)) ↔
        Ext (N (faceDims g).1) i ∨ Ext (N (faceDims g).2) j) := by
  have n0 := hN 0
  have n1 := hN 1
  have n2 := hN 2
  have d : faceDims 0 = (1, 2) ∧ faceDims 1 = (0, 2) ∧ faceDims 2 = (0, 1) := by decide
  have hg : g = 0 ∨ g = 1 ∨ g = 2 := by
    have : ∀ g : Fin 3, g = 0 ∨ g = 1 ∨ g = 2 := by decide
    exact this g
  unfold Ext
  rcases hg with rfl | rfl | rfl
  · rw [d.1] at h1 h2 ⊢
    simp only at h1 h2 ⊢
    exact ⟨s, i, j, by simp [facePos], by omega, h1, h2, by omega, by omega⟩
  · rw [d.2.1] at h1 h2 ⊢
    simp only at h1 h2 ⊢
    exact ⟨i, s, j, by simp [facePos], by omega, by omega, h2, by omega, by omega⟩
  · rw [d.2.2] at h1 h2 ⊢
    simp only at h1 h2 ⊢
    exact ⟨i, j, s, by simp [facePos], by omega, by omega, by omega, by omega, by omega⟩

/-- Positions inside faces are on one face only. -/
theorem facePos_inj {N : Fin 3 → ℕ} {g g' : Fin 3} {s s' i j i' j' : ℕ} (hN : ∀ r, 2 ≤ N r)
    (hs : s = 0 ∨ s = N g - 1) (hs' : s' = 0 ∨ s' = N g' - 1) (h1 : i < N (faceDims g).1)
    (h2 : j < N (faceDims g).2)
    (hint : ¬ (Ext (N (faceDims g).1) i ∨ Ext (N (faceDims g).2) j))
    (heq : facePos g s i j = facePos g' s' i' j') : g = g' ∧ s = s' ∧ i = i' ∧ j = j' := by
  have n0 := hN 0
  have n1 := hN 1
  have n2 := hN 2
  have d : faceDims 0 = (1, 2) ∧ faceDims 1 = (0, 2) ∧ faceDims 2 = (0, 1) := by decide
  have hg : ∀ g : Fin 3, g = 0 ∨ g = 1 ∨ g = 2 := by decide
  unfold Ext at hint
  rcases hg g with rfl | rfl | rfl <;> rcases hg g' with rfl | rfl | rfl <;>
  · simp only [d.1, d.2.1, d.2.2] at h1 h2 hint hs hs'
    simp [facePos] at heq
    first
      | exact ⟨rfl, heq⟩
      | exact ⟨rfl, heq.2.1, heq.1, heq.2.2⟩
      | exact ⟨rfl, heq.2.2, heq.1, heq.2.1⟩
      | (exfalso; omega)

/-- Every position of the boundary is on a face. -/
theorem exists_facePos {N : Fin 3 → ℕ} {x y z : ℕ} (hx : x < N 0) (hy : y < N 1) (hz : z < N 2)
    (hb : Ext (N 0) x ∨ Ext (N 1) y ∨ Ext (N 2) z) :
    ∃ g s i j, (s = 0 ∨ s = N g - 1) ∧ i < N (faceDims g).1 ∧ j < N (faceDims g).2 ∧
      facePos g s i j = [x, y, z] := by
  have d : faceDims 0 = (1, 2) ∧ faceDims 1 = (0, 2) ∧ faceDims 2 = (0, 1) := by decide
  unfold Ext at hb
  rcases hb with h | h | h
  · exact ⟨0, x, y, z, by omega, by rw [d.1]; exact hy, by rw [d.1]; exact hz, by simp [facePos]⟩
  · exact ⟨1, y, x, z, by omega, by rw [d.2.1]; exact hx, by rw [d.2.1]; exact hz, by simp [facePos]⟩
  · exact ⟨2, z, x, y, by omega, by rw [d.2.2]; exact hx, by rw [d.2.2]; exact hy, by simp [facePos]⟩

/-- The displacements of the nodes of the boundary. -/
theorem boundaryDisps3_spec {fl : ℝ → ℝ} (hfl : IsRounding fl) {elem : String} {isEdge : Bool} {e : ℕ}
    (hk : (elem, isEdge, 3, e) ∈ feKinds) {L : Vec3} (hL : ∀ r, 0 < L r) {nElems : Fin 3 → ℕ}
    (hn : ∀ r, 1 ≤ nElems r ∧ nElems r * (e - 1) ≤ 2 ^ 50)
    (hres : ∀ r, 1 / 10 ^ 8 + 1 / 10 ^ 5 * L r < L r / (nElems r * (e - 1) : ℕ))
    {m : StructMesh} {ns : List ℕ}
    (hm : generateMesh fl 3 [L 0, L 1, L 2] elem [nElems 0, nElems 1, nElems 2] = .ok (m, ns))
    {N : Fin 3 → ℕ} (hNe : ∀ r, N r = nElems r * (e - 1) + 1) {uniq : ℕ → List (ℕ × ℕ)}
    (hu : ListsEdges uniq) {edges : List (List Vec3)} {Z : ℕ → Vec3}
    (hz : ∀ lab i c d f, (lab, i, c, d, f) ∈ patchEdges3 →
      edgeZ edges lab 0 = Z c ∧ edgeZ edges lab (N (Fin.ofNat 3 i) - 1) = Z d) :
    ns = [N 0, N 1, N 2] ∧
    ∃ disps, boundaryDisps3 L [N 0, N 1, N 2] uniq edges m.coords m.matrix = .ok disps ∧
      (∀ l ∈ disps.keys, l ∈ boundaryLabels 3 ns m.matrix) ∧
      IsSolidPatch fl L elem nElems N (edgeZ edges) ⟨m, ns, disps⟩ := by
  have he : 2 ≤ e := by
    simp only [feKinds, List.mem_cons, List.not_mem_nil, or_false, Prod.mk.injEq] at hk
    omega
  have hM : ∀ r, 1 ≤ nElems r * (e - 1) := fun r => Nat.mul_pos (hn r).1 (by omega)
  have hN : ∀ r, 2 ≤ N r := fun r => by rw [hNe]; have := hM r; omega
  have hn' : ∀ n ∈ [nElems 0, nElems 1, nElems 2], 1 ≤ n ∧ n * (e - 1) ≤ 2 ^ 50 := by
    simp only [List.mem_cons, List.not_mem_nil, or_false]
    rintro n (rfl | rfl | rfl) <;> exact hn _
  obtain ⟨m', h', g1, -, g3, g4, -⟩ := C95_mesh hfl hk (dims := [L 0, L 1, L 2])
    (nElems := [nElems 0, nElems 1, nElems 2]) rfl hn'
  have hinj := fun {i i'} => C95_injective hfl hk rfl hn' hm (idx := i) (idx' := i')
  have hbd := C95_boundary hfl hk rfl hn' hm
  have hm0 := hm
  rw [hm] at h'
  cases h'
  have hgs : gridSize e [nElems 0, nElems 1, nElems 2] = [N 0, N 1, N 2] := by simp [gridSize, hNe]
  rw [hgs] at hbd g1 hm0 ⊢
  have hc : ∀ r, (N r : ℝ) - 1 = ((nElems r * (e - 1) : ℕ) : ℝ) := by
    intro r
    rw [hNe]; push_cast; ring
  refine ⟨rfl, ?_⟩
  -- the positions of the edges are nodes
  have hnode : ∀ {i c d lab lab' k}, (i, c, d, lab, lab') ∈ solidEdges → k < N (Fin.ofNat 3 i) →
      m.matrix (edgePos3 N c i k) ≠ 0 := by
    intro i c d lab lab' k h hk'
    obtain ⟨x, y, z, hxyz, hx, hy, hz', hext⟩ := edgePos3_grid hN h hk'
    refine (g1 _).mpr ⟨onGrid_three.mpr ⟨x, y, z, hxyz, hx, hy, hz'⟩, fun _ => ?_⟩
    have hdvd : ∀ (r : Fin 3) (v : ℕ), Ext (N r) v → (e - 1) ∣ v := by
      rintro r v (rfl | h)
      · exact dvd_zero _
      · rw [hNe r] at h
        exact ⟨nElems r, by rw [Nat.mul_comm]; omega⟩
    rw [hxyz]
    rcases hext with ⟨a, b⟩ | ⟨a, b⟩ | ⟨a, b⟩ <;>
    · have ha := hdvd _ _ a
      have hb := hdvd _ _ b
      simp only [List.filter_cons, List.filter_nil, ha, hb, not_true_eq_false, decide_false,
        Bool.false_eq_true, if_false]
      split <;> simp
  have hlabel : ∀ {i c d lab lab' k}, (i, c, d, lab, lab') ∈ solidEdges → k < N (Fin.ofNat 3 i) →
      labelFromCoords3 m.coords (gridPoint3 L N (edgePos3 N c i k)) =
        .ok (m.matrix (edgePos3 N c i k)) := by
    intro i c d lab lab' k h hk'
    obtain ⟨x, y, z, hxyz, hx, hy, hz', hext⟩ := edgePos3_grid hN h hk'
    have h0 := hnode h hk'
    rw [hxyz] at h0 ⊢
    have hgp : ∀ r : Fin 3, gridPoint3 L N [x, y, z] r =
        (([x, y, z].getD r 0 : ℕ) : ℝ) * (L r / ((nElems r * (e - 1) : ℕ) : ℝ)) := by
      intro r
      unfold gridPoint3
      rw [hc]
    have hgc : ∀ (x y z : ℕ) (r : Fin 3), (gridCoords e [L 0, L 1, L 2]
        [nElems 0, nElems 1, nElems 2] [x, y, z]).getD r 0 =
        (([x, y, z].getD r 0 : ℕ) : ℝ) * (L r / ((nElems r * (e - 1) : ℕ) : ℝ)) := by
      intro x y z r
      rw [gridCoords_three]
      fin_cases r <;> rfl
    refine labelFromCoords3_of ⟨_, g3 _ h0, fun r => ?_⟩ ?_
    · simp only
      rw [hgp, hgc]
      exact npIsClose_self _
    · intro a ha hca
      obtain ⟨idx, hi1, hi2, hi3⟩ := g4 a ha
      obtain ⟨x', y', z', rfl, hx', hy', hz''⟩ := onGrid_three.mp ((g1 idx).mp hi2).1
      have hb : ∀ r : Fin 3, [x', y', z'].getD r 0 ≤ nElems r * (e - 1) := by
        have b0 := hNe 0
        have b1 := hNe 1
        have b2 := hNe 2
        intro r
        fin_cases r
        · show x' ≤ _; simp only [Fin.zero_eta]; omega
        · show y' ≤ _; simp only [Fin.mk_one]; omega
        · show z' ≤ _; simp only [Fin.reduceFinMk]; omega
      have heq : ∀ r : Fin 3, [x, y, z].getD r 0 = [x', y', z'].getD r 0 := by
        intro r
        have := hca r
        rw [hi3, hgc, hgp] at this
        exact close_eq (hM r) (hL r) (hres r) (hb r) this
      have e0 := heq 0
      have e1 := heq 1
      have e2 := heq 2
      simp at e0 e1 e2
      rw [← hi1, e0, e1, e2]
  -- displacements of the edges
  set val : ℕ → ℕ → ℕ → Vec3 := fun lab lab' k =>
    (1 / 2 : ℝ) • (edgeZ edges lab k + edgeZ edges lab' k) with hval
  have hmean : ∀ a : Vec3, (1 / 2 : ℝ) • (a + a) = a := by
    intro a
    rw [← two_smul ℝ a, smul_smul]
    norm_num
  have hcorner : ∀ {i c d lab lab'}, (i, c, d, lab, lab') ∈ solidEdges →
      val lab lab' 0 = Z c ∧ val lab lab' (N (Fin.ofNat 3 i) - 1) = Z d := by
    intro i c d lab lab' h
    obtain ⟨⟨f, hf⟩, ⟨f', hf'⟩, -⟩ := labels_of_solid h
    obtain ⟨a1, a2⟩ := hz _ _ _ _ _ hf
    obtain ⟨b1, b2⟩ := hz _ _ _ _ _ hf'
    simp only [hval, a1, a2, b1, b2, hmean, and_self]
  have hlab2 : ∀ {i c d lab lab'}, (i, c, d, lab, lab') ∈ solidEdges →
      (solidEdges.find? fun r => decide (r.2.2.2.1 = lab)) = some (i, c, d, lab, lab') := by
    intro i c d lab lab' h
    have key : ∀ r ∈ solidEdges, (solidEdges.find? fun s => decide (s.2.2.2.1 = r.2.2.2.1)) = some r := by
      decide +kernel
    exact key _ h
  have hconsist : ∀ {i c d lab lab' k i' c' d' l l' k'}, (i, c, d, lab, lab') ∈ solidEdges →
      (i', c', d', l, l') ∈ solidEdges → edgePos3 N c i k = edgePos3 N c' i' k' →
      val lab lab' k = val l l' k' := by
    intro i c d lab lab' k i' c' d' l l' k' h h' hp
    have := edgePos3_consistent hN (Z := Z) (v := fun lab k =>
      val lab ((solidEdges.find? fun r => decide (r.2.2.2.1 = lab)).map (·.2.2.2.2) |>.getD 0) k) h h'
      (k := k) (k' := k') (by simp only [hlab2 h]; exact hcorner h)
      (by simp only [hlab2 h']; exact hcorner h') hp
    simpa only [hlab2 h, hlab2 h', Option.map_some, Option.getD_some] using this
  obtain ⟨d₀, hd1, hd2, hd3, hd4⟩ := edgeDisps_fold (coords := m.coords)
    (lab := fun a => (labelFromCoords3 m.coords a.1).toOption.getD 0)
    (edgeNodes3 L [N 0, N 1, N 2] uniq edges) (by
      intro a ha
      obtain ⟨i, c, d, lab, lab', k, h, hk', rfl⟩ := (mem_edgeNodes3 hN hu).mp ha
      simp only [hlabel h hk']
      rfl) (by
      intro a ha b hb hab
      obtain ⟨i, c, d, lab, lab', k, h, hk', rfl⟩ := (mem_edgeNodes3 hN hu).mp ha
      obtain ⟨i', c', d', l, l', k', h', hk'', rfl⟩ := (mem_edgeNodes3 hN hu).mp hb
      simp only [hlabel h hk', hlabel h' hk'', Except.toOption, Option.getD_some] at hab
      have hp := hinj (hnode h hk') hab
      have hcc := hconsist h h' hp
      simp only [hval] at hcc
      simp only
      rw [hcc, hp])
  have hedge : ∀ {i c d lab lab' k}, (i, c, d, lab, lab') ∈ solidEdges → k < N (Fin.ofNat 3 i) →
      d₀.get? (m.matrix (edgePos3 N c i k)) =
        some (val lab lab' k - gridPoint3 L N (edgePos3 N c i k)) := by
    intro i c d lab lab' k h hk'
    have := hd3 _ ((mem_edgeNodes3 hN hu).mpr ⟨i, c, d, lab, lab', k, h, hk', rfl⟩)
    simp only [hlabel h hk', Except.toOption, Option.getD_some] at this
    exact this
  have hkeys : ∀ {x y z}, x < N 0 → y < N 1 → z < N 2 → m.matrix [x, y, z] ≠ 0 →
      (m.matrix [x, y, z] ∈ d₀.keys ↔ (Ext (N 0) x ∧ Ext (N 1) y) ∨ (Ext (N 0) x ∧ Ext (N 2) z) ∨
        (Ext (N 1) y ∧ Ext (N 2) z)) := by
    intro x y z hx hy hz' h0
    constructor
    · intro hmem
      obtain ⟨a, ha, hal⟩ := hd4 _ hmem
      obtain ⟨i, c, d, lab, lab', k, h, hk', rfl⟩ := (mem_edgeNodes3 hN hu).mp ha
      simp only [hlabel h hk', Except.toOption, Option.getD_some] at hal
      have hp := hinj (hnode h hk') hal
      obtain ⟨x', y', z', hxyz, -, -, -, hext⟩ := edgePos3_grid hN h hk'
      rw [hxyz] at hp
      simp only [List.cons.injEq, and_true] at hp
      obtain ⟨rfl, rfl, rfl⟩ := hp
      exact hext
    · intro hext
      obtain ⟨i, c, d, lab, lab', k, h, hk', hp⟩ := edge_of_ext hx hy hz' hext
      rw [← hp]
      exact KDict.mem_keys_iff.mpr ⟨_, hedge h hk'⟩
  have hextkeys : ∀ {x y z}, x < N 0 → y < N 1 → z < N 2 → ((Ext (N 0) x ∧ Ext (N 1) y) ∨
      (Ext (N 0) x ∧ Ext (N 2) z) ∨ (Ext (N 1) y ∧ Ext (N 2) z)) → m.matrix [x, y, z] ∈ d₀.keys := by
    intro x y z hx hy hz' hext
    obtain ⟨i, c, d, lab, lab', k, h, hk', hp⟩ := edge_of_ext hx hy hz' hext
    rw [← hp]
    exact KDict.mem_keys_iff.mpr ⟨_, hedge h hk'⟩
  have hfkeys : ∀ {g : Fin 3} {s i j : ℕ}, (s = 0 ∨ s = N g - 1) → i < N (faceDims g).1 →
      j < N (faceDims g).2 → (Ext (N (faceDims g).1) i ∨ Ext (N (faceDims g).2) j) →
      m.matrix (facePos g s i j) ∈ d₀.keys := by
    intro g s i j hs hi hj hext
    obtain ⟨x, y, z, hp, hx, hy, hz', -, hiff⟩ := facePos_interior hs hN hi hj
    rw [hp]
    exact hextkeys hx hy hz' (hiff.mpr hext)
  have hfkeys' : ∀ {g : Fin 3} {s i j : ℕ}, (s = 0 ∨ s = N g - 1) → i < N (faceDims g).1 →
      j < N (faceDims g).2 → m.matrix (facePos g s i j) ≠ 0 → m.matrix (facePos g s i j) ∈ d₀.keys →
      (Ext (N (faceDims g).1) i ∨ Ext (N (faceDims g).2) j) := by
    intro g s i j hs hi hj h0 hmem
    obtain ⟨x, y, z, hp, hx, hy, hz', -, hiff⟩ := facePos_interior hs hN hi hj
    rw [hp] at h0 hmem
    exact hiff.mp ((hkeys hx hy hz' h0).mp hmem)
  -- displacements of the faces
  have hreads : ∀ {g : Fin 3} {s i j : ℕ}, (s = 0 ∨ s = N g - 1) → i < N (faceDims g).1 →
      j < N (faceDims g).2 →
      ∀ p ∈ faceReads (((N (faceDims g).1, N (faceDims g).2), facePos g s), (i, j)),
        m.matrix p ∈ d₀.keys := by
    intro g s i j hs hi hj p hp
    have a1 := hN (faceDims g).1
    have a2 := hN (faceDims g).2
    simp only [faceReads, List.mem_cons, List.not_mem_nil, or_false] at hp
    rcases hp with rfl | rfl | rfl | rfl
    · exact hfkeys hs (by omega) hj (Or.inl (Or.inl rfl))
    · exact hfkeys hs (by omega) hj (Or.inl (Or.inr (by omega)))
    · exact hfkeys hs hi (by omega) (Or.inr (Or.inl rfl))
    · exact hfkeys hs hi (by omega) (Or.inr (Or.inr (by omega)))
  obtain ⟨disps, f1, f2, f3, f4, f5⟩ := faceDisps_fold (matrix := m.matrix) hd2
    (faceSteps [N 0, N 1, N 2]) (by
      intro st hst h0 p hp
      obtain ⟨g, s, i, j, hs, -, hi, -, hj, rfl⟩ := mem_faceSteps.mp hst
      exact hreads hs hi hj p hp) (by
      intro st hst st' hst' h0 heq hnk
      obtain ⟨g, s, i, j, hs, -, hi, -, hj, rfl⟩ := mem_faceSteps.mp hst
      obtain ⟨g', s', i', j', hs', -, hi', -, hj', rfl⟩ := mem_faceSteps.mp hst'
      simp only at h0 heq hnk
      have hint : ¬ (Ext (N (faceDims g).1) i ∨ Ext (N (faceDims g).2) j) :=
        fun h => hnk (hfkeys hs hi hj h)
      obtain ⟨rfl, rfl, rfl, rfl⟩ := facePos_inj hN hs hs' hi hj hint (hinj h0 heq)
      rfl)
  have hnodes : ∀ l, l ∈ disps.keys ↔ l ≠ 0 ∧ ∃ idx, m.matrix idx = l ∧ OnBoundary [N 0, N 1, N 2] idx := by
    intro l
    constructor
    · intro hl
      rcases f5 l hl with h | ⟨h0, st, hst, hl⟩
      · obtain ⟨a, ha, hal⟩ := hd4 l h
        obtain ⟨i, c, d, lab, lab', k, h, hk', rfl⟩ := (mem_edgeNodes3 hN hu).mp ha
        simp only [hlabel h hk', Except.toOption, Option.getD_some] at hal
        obtain ⟨x, y, z, hxyz, hx, hy, hz', hext⟩ := edgePos3_grid hN h hk'
        refine ⟨hal ▸ hnode h hk', _, hal, ?_⟩
        rw [hxyz, onBoundary_three]
        tauto
      · obtain ⟨g, s, i, j, hs, -, hi, -, hj, rfl⟩ := mem_faceSteps.mp hst
        obtain ⟨x, y, z, hp, hx, hy, hz', hext, -⟩ := facePos_interior hs hN hi hj
        refine ⟨h0, _, hl, ?_⟩
        simp only
        rw [hp, onBoundary_three]
        exact hext
    · rintro ⟨h0, idx, rfl, hb⟩
      obtain ⟨x, y, z, rfl, hx, hy, hz'⟩ := onGrid_three.mp ((g1 idx).mp h0).1
      obtain ⟨g, s, i, j, hs, hi, hj, hp⟩ := exists_facePos hx hy hz' (onBoundary_three.mp hb)
      rw [← hp] at h0 ⊢
      by_cases hin : m.matrix (facePos g s i j) ∈ d₀.keys
      · obtain ⟨v, hv⟩ := KDict.mem_keys_iff.mp hin
        exact KDict.mem_keys_iff.mpr ⟨v, by rw [f3 _ hin, hv]⟩
      · have hint : ¬ (Ext (N (faceDims g).1) i ∨ Ext (N (faceDims g).2) j) :=
          fun h => hin (hfkeys hs hi hj h)
        unfold Ext at hint
        have := f4 (((N (faceDims g).1, N (faceDims g).2), facePos g s), (i, j))
          (mem_faceSteps.mpr ⟨g, s, i, j, hs, by omega, hi, by omega, hj, rfl⟩) h0 hin
        exact KDict.mem_keys_iff.mpr ⟨_, this⟩
  refine ⟨disps, ?_, fun l hl => (hbd l).mpr ((hnodes l).mp hl), hm0, rfl, f2, hnodes, ?_, ?_⟩
  · unfold boundaryDisps3
    rw [hd1]
    simp only [bind, Except.bind]
    rw [faces_foldlM]
    exact f1
  · intro lab lab' i c d f f' h h' hne k hk'
    have hsol := solid_of_labels h h' hne
    simp only
    rcases hsol with hs | hs
    · rw [f3 _ (KDict.mem_keys_iff.mpr ⟨_, hedge hs hk'⟩), hedge hs hk']
    · rw [f3 _ (KDict.mem_keys_iff.mpr ⟨_, hedge hs hk'⟩), hedge hs hk']
      simp only [hval]
      rw [add_comm]
  · intro g s hs i j hi0 hi hj0 hj h0
    have hi' : i < N (faceDims g).1 := by omega
    have hj' : j < N (faceDims g).2 := by omega
    have hr := hreads (i := i) (j := j) hs hi' hj'
    have hint : m.matrix (facePos g s i j) ∉ d₀.keys := by
      intro hmem
      rcases hfkeys' hs hi' hj' h0 hmem with h | h <;> unfold Ext at h <;> omega
    have hget : ∀ p ∈ faceReads (((N (faceDims g).1, N (faceDims g).2), facePos g s), (i, j)),
        disps.get? (m.matrix p) = some ((d₀.get? (m.matrix p)).getD 0) := by
      intro p hp
      obtain ⟨v, hv⟩ := KDict.mem_keys_iff.mp (hr p hp)
      rw [f3 _ (hr p hp), hv]
      rfl
    refine ⟨_, _, _, _, hget _ (by simp [faceReads]), hget _ (by simp [faceReads]),
      hget _ (by simp [faceReads]), hget _ (by simp [faceReads]), ?_⟩
    have := f4 (((N (faceDims g).1, N (faceDims g).2), facePos g s), (i, j))
      (mem_faceSteps.mpr ⟨g, s, i, j, hs, hi0, hi', hj0, hj', rfl⟩) h0 hint
    simp only at this ⊢
    rw [this]
    simp only [faceValue, add_assoc]

end Hooke
