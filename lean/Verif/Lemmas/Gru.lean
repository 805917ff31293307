import Verif.Model.Gru
import Verif.Spec.Gru
import Verif.Lemmas.Py
import Verif.Lemmas.StrainPath

/-! Helper lemmas on the gated recurrent unit. -/

namespace Hooke

open Finset

noncomputable section

/-- The layer a cell stands for: the rows of its weights are those of the reset, update and
new gates, in this order. -/
def GruCell.layer (c : GruCell) : Spec.GruLayer :=
  let gate (k : ℕ) : Spec.Gate :=
    ⟨fun i j => c.wIh (k * c.hiddenSize + i) j, fun i => c.bIh (k * c.hiddenSize + i),
     fun i j => c.wHh (k * c.hiddenSize + i) j, fun i => c.bHh (k * c.hiddenSize + i)⟩
  ⟨c.inputSize, c.hiddenSize, gate 0, gate 1, gate 2⟩

/-- A matrix with given shape and entries. -/
def MatIs (m : Mat) (r c : ℕ) (v : ℕ → ℕ → ℝ) : Prop :=
  m.rows = r ∧ m.cols = c ∧ ∀ p < r, ∀ j < c, m.val p j = v p j

theorem bcIndex_lt {n i : ℕ} (h : i < n) : bcIndex n i = i := by
  unfold bcIndex; split_ifs <;> omega

theorem mapMat₂_is {f : ℝ → ℝ → ℝ} {a b : Mat} {r c : ℕ} {u v : ℕ → ℕ → ℝ}
    (ha : MatIs a r c u) (hb : MatIs b r c v) :
    ∃ m, mapMat₂ f a b = .ok m ∧ MatIs m r c fun p j => f (u p j) (v p j) := by
  obtain ⟨h1, h2, h3⟩ := ha
  obtain ⟨k1, k2, k3⟩ := hb
  refine ⟨_, by simp [mapMat₂, bcSize, h1, h2, k1, k2, bind, Except.bind]; rfl, rfl, rfl, ?_⟩
  intro p hp j hj
  simp only [bcIndex_lt hp, bcIndex_lt hj, h3 p hp j hj, k3 p hp j hj]

theorem mapMat_is {f : ℝ → ℝ} {a : Mat} {r c : ℕ} {u : ℕ → ℕ → ℝ} (ha : MatIs a r c u) :
    MatIs (mapMat f a) r c fun p j => f (u p j) := by
  obtain ⟨h1, h2, h3⟩ := ha
  exact ⟨h1, h2, fun p hp j hj => by simp [mapMat, h3 p hp j hj]⟩

theorem mmT_is {x : Mat} {r c k : ℕ} {u : ℕ → ℕ → ℝ} (hx : MatIs x r c u) (w : ℕ → ℕ → ℝ)
    (b : ℕ → ℝ) :
    ∃ m, mmT x k c w = .ok m ∧
      MatIs (addBias m b) r k fun p i => Spec.affineOf c w b (u p) i := by
  obtain ⟨h1, h2, h3⟩ := hx
  refine ⟨⟨x.rows, k, fun p i => ∑ j ∈ range c, x.val p j * w i j⟩,
    by simp [mmT, h2, raiseIf, bind, Except.bind], h1, rfl, ?_⟩
  intro p hp j _
  simp only [addBias, Spec.affineOf]
  congr 1
  apply Finset.sum_congr rfl
  intro i hi
  rw [h3 p hp i (Finset.mem_range.1 hi), mul_comm]

theorem chunk3_is {m : Mat} {r n k : ℕ} {u : ℕ → ℕ → ℝ} (hk : k < 3) (h : MatIs m r (3 * n) u) :
    MatIs (chunk3 m k) r n fun p j => u p (k * n + j) := by
  obtain ⟨h1, h2, h3⟩ := h
  have hn : m.cols / 3 = n := by omega
  refine ⟨h1, hn, fun p hp j hj => ?_⟩
  simp only [chunk3, hn]
  apply h3 p hp
  have : k = 0 ∨ k = 1 ∨ k = 2 := by omega
  rcases this with rfl | rfl | rfl <;> omega

theorem cell_forward (c : GruCell) {x h : Mat} {B : ℕ} {X Hd : ℕ → ℕ → ℝ}
    (hx : MatIs x B c.inputSize X) (hh : MatIs h B c.hiddenSize Hd) :
    ∃ m, c.forward x h = .ok m ∧
      MatIs m B c.hiddenSize fun p => c.layer.step (Hd p) (X p) := by
  obtain ⟨gi, e1, g1⟩ := mmT_is (k := 3 * c.hiddenSize) hx c.wIh c.bIh
  obtain ⟨gh, e2, g2⟩ := mmT_is (k := 3 * c.hiddenSize) hh c.wHh c.bHh
  obtain ⟨u, e3, g3⟩ := mapMat₂_is (f := (· + ·)) (chunk3_is (k := 1) (by omega) g1)
    (chunk3_is (k := 1) (by omega) g2)
  obtain ⟨r, e4, g4⟩ := mapMat₂_is (f := (· + ·)) (chunk3_is (k := 0) (by omega) g1)
    (chunk3_is (k := 0) (by omega) g2)
  obtain ⟨n1, e5, g5⟩ := mapMat₂_is (f := (· * ·)) (mapMat_is (f := Real.sigmoid) g4)
    (chunk3_is (k := 2) (by omega) g2)
  obtain ⟨n2, e6, g6⟩ := mapMat₂_is (f := (· + ·)) (chunk3_is (k := 2) (by omega) g1) g5
  obtain ⟨o1, e7, g7⟩ := mapMat₂_is (f := (· - ·)) hh (mapMat_is (f := Real.tanh) g6)
  obtain ⟨o2, e8, g8⟩ := mapMat₂_is (f := (· * ·)) (mapMat_is (f := Real.sigmoid) g3) g7
  obtain ⟨o3, e9, g9⟩ := mapMat₂_is (f := (· + ·)) g8 (mapMat_is (f := Real.tanh) g6)
  refine ⟨o3, ?_, g9.1, g9.2.1, ?_⟩
  · simp only [GruCell.forward, e1, e2, e3, e4, e5, e6, e7, e8, e9, bind, Except.bind]
  · intro p hp j hj
    rw [g9.2.2 p hp j hj]
    simp only [GruCell.layer, Spec.GruLayer.step, Spec.affineOf]
    ring

/-- Hidden states by time and layer. -/
def hid (g : ℕ → Spec.GruLayer) (h0 : ℕ → ℕ → ℝ) (x : ℕ → ℕ → ℝ) : ℕ → ℕ → ℕ → ℝ
  | 0, l => h0 l
  | t + 1, l =>
    Nat.rec ((g 0).step (hid g h0 x t 0) (x t))
      (fun l prev => (g (l + 1)).step (hid g h0 x t (l + 1)) prev) l

/-- Input of a layer. -/
def layIn (g : ℕ → Spec.GruLayer) (h0 : ℕ → ℕ → ℝ) (x : ℕ → ℕ → ℝ) (l t : ℕ) : ℕ → ℝ :=
  match l with
  | 0 => x t
  | l + 1 => hid g h0 x (t + 1) l

theorem hid_succ (g : ℕ → Spec.GruLayer) (h0 : ℕ → ℕ → ℝ) (x : ℕ → ℕ → ℝ) (t l : ℕ) :
    hid g h0 x (t + 1) l = (g l).step (hid g h0 x t l) (layIn g h0 x l t) := by
  cases l <;> rfl

theorem run_eq (g : Spec.GruLayer) (T : ℕ) : ∀ (X Hh : ℕ → ℕ → ℝ),
    (∀ t < T, Hh (t + 1) = g.step (Hh t) (X t)) →
    g.run (Hh 0) ((List.range T).map X) = (List.range T).map fun t => Hh (t + 1) := by
  induction T with
  | zero => intros; rfl
  | succ T ih =>
    intro X Hh h
    rw [List.range_succ_eq_map, List.map_cons, Spec.GruLayer.run, List.map_cons,
      ← h 0 (by omega), List.map_map, List.map_map]
    congr 1
    have := ih (fun t => X (t + 1)) (fun t => Hh (t + 1)) fun t ht => h (t + 1) (by omega)
    simpa [Function.comp_def] using this

theorem stackedRun_eq (g : ℕ → Spec.GruLayer) (h0 x : ℕ → ℕ → ℝ) (T : ℕ) (n k : ℕ) :
    Spec.stackedRun ((List.range' k n).map fun l => (g l, h0 l))
        ((List.range T).map (layIn g h0 x k)) =
      (List.range' k n).map fun l => (List.range T).map fun t => hid g h0 x (t + 1) l := by
  induction n generalizing k with
  | zero => rfl
  | succ n ih =>
    have e : (g k).run (h0 k) ((List.range T).map (layIn g h0 x k)) =
        (List.range T).map fun t => hid g h0 x (t + 1) k :=
      run_eq (g k) T (layIn g h0 x k) (fun t => hid g h0 x t k) fun t _ => hid_succ ..
    simp only [List.range'_succ, List.map_cons, Spec.stackedRun, e]
    congr 1
    exact ih (k + 1)

/-- Cells of a network with `L` layers. -/
def WellSized (cells : List GruCell) (nIn H L : ℕ) : Prop :=
  ∀ l < L, ∃ c, cells[l]? = some c ∧ c.hiddenSize = H ∧
    c.inputSize = if l = 0 then nIn else H

theorem gruInit_wellSized (nIn H L : ℕ) (w : ℕ → CellWeights) :
    WellSized (gruInit nIn H L w).cells nIn H L := by
  intro l hl
  cases l with
  | zero => exact ⟨_, rfl, rfl, rfl⟩
  | succ l =>
    refine ⟨_, by simp [gruInit, List.getElem?_range (show l < L - 1 by omega)]; rfl, rfl, by simp⟩

/-- The layers of a network. -/
def layerAt (cells : List GruCell) (l : ℕ) : Spec.GruLayer :=
  (cells.getD l ⟨0, 0, 0, 0, 0, 0⟩).layer

theorem layer_loop {cells : List GruCell} {nIn H L B : ℕ} (hc : WellSized cells nIn H L)
    {x : Mat} {h0 X : ℕ → ℕ → ℕ → ℝ} {t : ℕ} (hx : MatIs x B nIn fun b => X b t)
    {hs : List Mat} (hlen : hs.length = L)
    (hh : ∀ l < L, ∃ m, hs[l]? = some m ∧
      MatIs m B H fun b => hid (layerAt cells) (h0 b) (X b) t l) (o : Option Mat) :
    ∀ k ≤ L, ∃ hs' o', (List.range k).foldlM (layerStep cells x) (hs, o) = .ok (hs', o') ∧
      hs'.length = L ∧
      (∀ l < k, ∃ m, hs'[l]? = some m ∧
        MatIs m B H fun b => hid (layerAt cells) (h0 b) (X b) (t + 1) l) ∧
      (∀ l, k ≤ l → hs'[l]? = hs[l]?) ∧ (0 < k → o' = hs'[k - 1]?) := by
  intro k
  induction k with
  | zero => exact fun _ => ⟨hs, o, rfl, hlen, by simp, fun _ _ => rfl, by simp⟩
  | succ k ih =>
    intro hk
    obtain ⟨hs', o', e, hl, hnew, hold, -⟩ := ih (by omega)
    obtain ⟨c, hc1, hc2, hc3⟩ := hc k (by omega)
    obtain ⟨m, hm, hmis⟩ := hh k (by omega)
    have hin : ∃ inp, layerInput x hs' k = .ok inp ∧ MatIs inp B c.inputSize
          fun b => layIn (layerAt cells) (h0 b) (X b) k t := by
      cases k with
      | zero => exact ⟨x, rfl, by simpa [hc3, layIn] using hx⟩
      | succ j =>
        obtain ⟨m', hm', hmis'⟩ := hnew j (by omega)
        exact ⟨m', by simp [layerInput, hm', orRaise], by simpa [hc3, layIn] using hmis'⟩
    obtain ⟨inp, ei, hi⟩ := hin
    obtain ⟨out, eo, ho⟩ := cell_forward c hi (hc2 ▸ hmis)
    rw [List.range_succ, List.foldlM_append, e]
    have hlay : layerAt cells k = c.layer := by simp [layerAt, List.getD, hc1]
    refine ⟨hs'.set k out, some out, ?_, by simpa using hl, ?_, ?_, ?_⟩
    · simp only [List.foldlM_cons, List.foldlM_nil, layerStep, ei, hc1, hold k le_rfl, hm, eo,
        orRaise, bind, Except.bind, pure, Except.pure]
    · intro l hl'
      rcases Nat.lt_succ_iff_lt_or_eq.1 hl' with h | rfl
      · obtain ⟨m', hm', hmis'⟩ := hnew l h
        exact ⟨m', by rw [List.getElem?_set_ne (by omega), hm'], hmis'⟩
      · refine ⟨out, by rw [List.getElem?_set_self (by omega)], ?_⟩
        have : (fun b => hid (layerAt cells) (h0 b) (X b) (t + 1) l) = fun b =>
            c.layer.step (hid (layerAt cells) (h0 b) (X b) t l)
              (layIn (layerAt cells) (h0 b) (X b) l t) := by
          funext b; rw [hid_succ, hlay]
        rw [this, ← hc2]; exact ho
    · intro l hl'
      rw [List.getElem?_set_ne (by omega), hold l (by omega)]
    · intro _
      simp only [Nat.add_sub_cancel]
      rw [List.getElem?_set_self (by omega)]

theorem time_loop {g : Gru} {nIn H L B T : ℕ} (hL : 0 < L) (hg : g.numLayers = L)
    (hc : WellSized g.cells nIn H L) {x : Tensor} (hx : x.shape = [T, B, nIn])
    {h0 : ℕ → ℕ → ℕ → ℝ} {hs : List Mat} (hlen : hs.length = L)
    (hh : ∀ l < L, ∃ m, hs[l]? = some m ∧ MatIs m B H fun b => h0 b l) :
    ∀ k ≤ T, ∃ hs' o' ys, (List.range k).foldlM (timeStep g x) (hs, none, []) = .ok (hs', o', ys) ∧
      hs'.length = L ∧
      (∀ l < L, ∃ m, hs'[l]? = some m ∧
        MatIs m B H fun b => hid (layerAt g.cells) (h0 b) (fun t j => x.val [t, b, j]) k l) ∧
      ys.length = k ∧ ∀ t < k, ∃ m, ys[t]? = some m ∧
        MatIs m B H fun b =>
          hid (layerAt g.cells) (h0 b) (fun t j => x.val [t, b, j]) (t + 1) (L - 1) := by
  intro k
  induction k with
  | zero => exact fun _ => ⟨hs, none, [], rfl, hlen, hh, rfl, by simp⟩
  | succ k ih =>
    intro hk
    obtain ⟨hs', o', ys, e, hl, hh', hy, hys⟩ := ih (by omega)
    obtain ⟨hs2, o2, e2, hl2, hnew, -, ho⟩ := layer_loop hc (t := k)
      (X := fun b t j => x.val [t, b, j]) (x := ⟨B, nIn, fun p q => x.val [k, p, q]⟩)
      ⟨rfl, rfl, fun _ _ _ _ => rfl⟩ hl hh' o' L le_rfl
    obtain ⟨m, hm, hmis⟩ := hnew (L - 1) (by omega)
    have ho2 : o2 = some m := by rw [ho hL, hm]
    refine ⟨hs2, some m, ys ++ [m], ?_, hl2, hnew, by simp [hy], ?_⟩
    · rw [List.range_succ, List.foldlM_append, e]
      simp only [List.foldlM_cons, List.foldlM_nil, timeStep, matAt, hx, if_pos (show k < T by omega),
        hg, e2, ho2, orRaise, bind, Except.bind, pure, Except.pure]
    · intro t ht
      rcases Nat.lt_succ_iff_lt_or_eq.1 ht with h | rfl
      · obtain ⟨m', hm', hmis'⟩ := hys t h
        exact ⟨m', by rw [List.getElem?_append_left (by omega), hm'], hmis'⟩
      · exact ⟨m, by rw [← hy]; simp, hmis⟩

theorem stackMats_is {l : List Mat} {n r c : ℕ} {v : ℕ → ℕ → ℕ → ℝ} (hn : 0 < n)
    (hl : l.length = n) (h : ∀ i < n, ∃ m, l[i]? = some m ∧ MatIs m r c (v i)) :
    ∃ t, stackMats l = .ok t ∧ t.shape = [n, r, c] ∧
      ∀ i < n, ∀ p < r, ∀ j < c, t.val [i, p, j] = v i p j := by
  cases l with
  | nil => simp at hl; omega
  | cons m rest =>
    obtain ⟨m0, e0, h0⟩ := h 0 hn
    simp only [List.getElem?_cons_zero, Option.some.injEq] at e0
    subst e0
    have hall : ∀ u ∈ rest, u.rows = m.rows ∧ u.cols = m.cols := by
      intro u hu
      obtain ⟨i, hi, rfl⟩ := List.getElem_of_mem hu
      obtain ⟨m', e', h'⟩ := h (i + 1) (by simp at hl; omega)
      simp only [List.getElem?_cons_succ, List.getElem?_eq_getElem hi, Option.some.injEq] at e'
      subst e'
      exact ⟨h'.1.trans h0.1.symm, h'.2.1.trans h0.2.1.symm⟩
    refine ⟨_, by rw [stackMats, if_pos hall], ?_, ?_⟩
    · simp only [List.length_cons] at hl
      simp [hl, h0.1, h0.2.1]
    · intro i hi p hp j hj
      obtain ⟨m', e', h'⟩ := h i hi
      simp [e', h'.2.2 p hp j hj]

end

end Hooke
