import Verif.Lemmas.Gru
import Mathlib.Data.List.GetD

/-!
# C76: the custom recurrent network computes a stacked gated recurrent unit
-/

namespace Hooke

open Finset

noncomputable section

/-- The layers of a network with given weights, with the initial hidden state of one
sample. -/
def stackOf (nIn H L : ℕ) (w : ℕ → CellWeights) (h0 : ℕ → ℕ → ℝ) :
    List (Spec.GruLayer × (ℕ → ℝ)) :=
  (List.range L).map fun l =>
    (Spec.torchLayer (if l = 0 then nIn else H) H (w l).wIh (w l).wHh (w l).bIh (w l).bHh, h0 l)

/-- The sequence of sample `b` of a tensor of shape `(T, B, n)`. -/
def seqOfBatch (x : Tensor) (T b : ℕ) : List (ℕ → ℝ) :=
  (List.range T).map fun t j => x.val [t, b, j]

/-- The sequence of a tensor of shape `(T, n)`. -/
def seqOf (x : Tensor) (T : ℕ) : List (ℕ → ℝ) := (List.range T).map fun t j => x.val [t, j]

theorem layerAt_gruInit {nIn H L : ℕ} (w : ℕ → CellWeights) {l : ℕ} (hl : l < L) :
    layerAt (gruInit nIn H L w).cells l =
      Spec.torchLayer (if l = 0 then nIn else H) H (w l).wIh (w l).wHh (w l).bIh (w l).bHh := by
  cases l with
  | zero => rfl
  | succ l =>
    simp only [layerAt, gruInit, List.getD_cons_succ]
    rw [List.getD_eq_getElem _ _ (by simp; omega)]
    simp only [List.getElem_map, List.getElem_range]
    rfl

theorem hid_congr {g g' : ℕ → Spec.GruLayer} {h0 h0' x x' : ℕ → ℕ → ℝ} {L : ℕ}
    (hg : ∀ l < L, g l = g' l) (hh : ∀ l < L, h0 l = h0' l) :
    ∀ t, (∀ s < t, x s = x' s) → ∀ l < L, hid g h0 x t l = hid g' h0' x' t l := by
  intro t
  induction t with
  | zero => intro _ l hl; exact hh l hl
  | succ t ih =>
    intro hx l
    induction l with
    | zero =>
      intro hl
      rw [hid_succ, hid_succ, hg 0 hl, ih (fun s hs => hx s (by omega)) 0 hl]
      simp [layIn, hx t (by omega)]
    | succ l ihl =>
      intro hl
      rw [hid_succ, hid_succ, hg _ hl, ih (fun s hs => hx s (by omega)) _ hl]
      simp only [layIn]
      rw [ihl (by omega)]

theorem hiddenAfter_eq {nIn H L T : ℕ} (w : ℕ → CellWeights) (h0 x : ℕ → ℕ → ℝ) {l t : ℕ}
    (hl : l < L) (ht : t < T) (j : ℕ) :
    Spec.hiddenAfter (stackOf nIn H L w h0) ((List.range T).map x) l t j =
      hid (layerAt (gruInit nIn H L w).cells) h0 x (t + 1) l j := by
  have e := stackedRun_eq (fun l => Spec.torchLayer (if l = 0 then nIn else H) H (w l).wIh
    (w l).wHh (w l).bIh (w l).bHh) h0 x T L 0
  rw [← List.range_eq_range'] at e
  have e' : stackOf nIn H L w h0 = (List.range L).map fun l =>
    (Spec.torchLayer (if l = 0 then nIn else H) H (w l).wIh (w l).wHh (w l).bIh (w l).bHh, h0 l) :=
    rfl
  have e2 : (List.range T).map x = (List.range T).map
      (layIn (fun l => Spec.torchLayer (if l = 0 then nIn else H) H (w l).wIh
        (w l).wHh (w l).bIh (w l).bHh) h0 x 0) := rfl
  rw [Spec.hiddenAfter, e', e2, e]
  rw [List.getD_eq_getElem (n := l) _ _ (by simpa using hl), List.getElem_map]
  rw [List.getD_eq_getElem (n := t) _ _ (by simpa using ht), List.getElem_map]
  simp only [List.getElem_range]
  rw [hid_congr (L := L) (fun l hl => (layerAt_gruInit w hl).symm) (fun _ _ => rfl) (t + 1)
    (fun _ _ => rfl) l hl]

theorem forward_core {nIn H L B T : ℕ} (w : ℕ → CellWeights) (hL : 0 < L) (hT : 0 < T)
    {x h0 : Tensor} (hx : x.shape = [T, B, nIn]) (hh : h0.shape = [L, B, H]) :
    ∃ hs r, (List.range L).mapM (matAt h0) = .ok hs ∧
      (List.range T).foldlM (timeStep (gruInit nIn H L w) x) (hs, none, []) = .ok r ∧
      (∃ out, stackMats r.2.2 = .ok out ∧ out.shape = [T, B, H] ∧
        ∀ t < T, ∀ b < B, ∀ j < H, out.val [t, b, j] =
          hid (layerAt (gruInit nIn H L w).cells) (fun l j => h0.val [l, b, j])
            (fun t j => x.val [t, b, j]) (t + 1) (L - 1) j) ∧
      (∃ hn, stackMats r.1 = .ok hn ∧ hn.shape = [L, B, H] ∧
        ∀ l < L, ∀ b < B, ∀ j < H, hn.val [l, b, j] =
          hid (layerAt (gruInit nIn H L w).cells) (fun l j => h0.val [l, b, j])
            (fun t j => x.val [t, b, j]) T l j) := by
  have hm : (List.range L).mapM (matAt h0) =
      .ok ((List.range L).map fun l => ⟨B, H, fun p q => h0.val [l, p, q]⟩) := by
    apply mapM_of_forall
    intro l hl
    simp [matAt, hh, List.mem_range.1 hl]
  obtain ⟨hs', o', ys, e, hl', hhs, hy, hys⟩ := time_loop (g := gruInit nIn H L w) hL rfl
    (gruInit_wellSized nIn H L w) hx (h0 := fun b l j => h0.val [l, b, j])
    (hs := (List.range L).map fun l => ⟨B, H, fun p q => h0.val [l, p, q]⟩) (by simp)
    (fun l hl => ⟨_, by simp [List.getElem?_range hl]; rfl, rfl, rfl, fun _ _ _ _ => rfl⟩) T le_rfl
  refine ⟨_, _, hm, e, ?_, ?_⟩
  · exact stackMats_is hT hy hys
  · exact stackMats_is hL hl' hhs

/-- **C76.** For every number of layers, sizes, weights and batch of sequences, the custom
recurrent network returns, for each sample and time, the hidden state of the last layer of
the stacked gated recurrent unit, and the last hidden state of each layer.  The network
goes through the layers time step by time step; the specification goes through the
sequence layer by layer. -/
theorem C76_batched {nIn H L B T : ℕ} (w : ℕ → CellWeights) (hL : 0 < L) (hT : 0 < T)
    {x h0 : Tensor} (hx : x.shape = [T, B, nIn]) (hh : h0.shape = [L, B, H]) :
    ∃ out hn, (gruInit nIn H L w).forward x (some h0) = .ok (out, hn) ∧
      out.shape = [T, B, H] ∧ hn.shape = [L, B, H] ∧
      (∀ t < T, ∀ b < B, ∀ j < H, out.val [t, b, j] =
        Spec.hiddenAfter (stackOf nIn H L w fun l j => h0.val [l, b, j]) (seqOfBatch x T b)
          (L - 1) t j) ∧
      (∀ l < L, ∀ b < B, ∀ j < H, hn.val [l, b, j] =
        Spec.hiddenAfter (stackOf nIn H L w fun l j => h0.val [l, b, j]) (seqOfBatch x T b)
          l (T - 1) j) := by
  obtain ⟨hs, r, e1, e2, ⟨out, e3, s3, v3⟩, ⟨hn, e4, s4, v4⟩⟩ := forward_core w hL hT hx hh
  refine ⟨out, hn, ?_, s3, s4, ?_, ?_⟩
  · have : (gruInit nIn H L w).numLayers = L := rfl
    simp [Gru.forward, hx, orRaise, this, e1, e2, e3, e4, bind, Except.bind]
  · intro t ht b hb j hj
    rw [v3 t ht b hb j hj, seqOfBatch, hiddenAfter_eq w _ _ (by omega) ht]
  · intro l hl b hb j hj
    rw [v4 l hl b hb j hj, seqOfBatch, hiddenAfter_eq w _ _ hl (by omega),
      Nat.sub_add_cancel hT]

/-- **C76.** The same for one sequence without batch dimension. -/
theorem C76_unbatched {nIn H L T : ℕ} (w : ℕ → CellWeights) (hL : 0 < L) (hT : 0 < T)
    {x h0 : Tensor} (hx : x.shape = [T, nIn]) (hh : h0.shape = [L, H]) :
    ∃ out hn, (gruInit nIn H L w).forward x (some h0) = .ok (out, hn) ∧
      out.shape = [T, H] ∧ hn.shape = [L, H] ∧
      (∀ t < T, ∀ j < H, out.val [t, j] =
        Spec.hiddenAfter (stackOf nIn H L w fun l j => h0.val [l, j]) (seqOf x T) (L - 1) t j) ∧
      (∀ l < L, ∀ j < H, hn.val [l, j] =
        Spec.hiddenAfter (stackOf nIn H L w fun l j => h0.val [l, j]) (seqOf x T) l (T - 1) j) := by
  obtain ⟨hs, r, e1, e2, ⟨out, e3, s3, v3⟩, ⟨hn, e4, s4, v4⟩⟩ :=
    forward_core (nIn := nIn) (H := H) (B := 1) w hL hT (x := unsqueeze1 x) (h0 := unsqueeze1 h0)
      (by simp [unsqueeze1, hx]) (by simp [unsqueeze1, hh])
  refine ⟨squeeze1 out, squeeze1 hn, ?_, by simp [squeeze1, s3], by simp [squeeze1, s4], ?_, ?_⟩
  · have : (gruInit nIn H L w).numLayers = L := rfl
    have hs1 : (unsqueeze1 x).shape = [T, 1, nIn] := by simp [unsqueeze1, hx]
    simp [Gru.forward, hx, hs1, orRaise, this, e1, e2, e3, e4, bind, Except.bind]
  · intro t ht j hj
    have := v3 t ht 0 (by omega) j hj
    simp only [squeeze1, s3]
    simp only [List.getElem?_cons_succ, List.getElem?_cons_zero, if_true, List.insertIdx_succ_cons,
      List.insertIdx_zero]
    rw [this, seqOf, hiddenAfter_eq w _ _ (by omega) ht]
    rfl
  · intro l hl j hj
    have := v4 l hl 0 (by omega) j hj
    simp only [squeeze1, s4]
    simp only [List.getElem?_cons_succ, List.getElem?_cons_zero, if_true, List.insertIdx_succ_cons,
      List.insertIdx_zero]
    rw [this, seqOf, hiddenAfter_eq w _ _ hl (by omega), Nat.sub_add_cancel hT]
    rfl

/-- **C76.** Without initial hidden state the network starts from zeros. -/
theorem C76_default {nIn H L B T : ℕ} (w : ℕ → CellWeights) (x : Tensor) :
    (x.shape = [T, B, nIn] → (gruInit nIn H L w).forward x none =
      (gruInit nIn H L w).forward x (some (Tensor.zeros [L, B, H]))) ∧
    (x.shape = [T, nIn] → (gruInit nIn H L w).forward x none =
      (gruInit nIn H L w).forward x (some (Tensor.zeros [L, H]))) := by
  constructor
  · intro hx
    simp [Gru.forward, hx, orRaise, bind, Except.bind, gruInit]
  · intro hx
    simp [Gru.forward, hx, orRaise, bind, Except.bind, gruInit, unsqueeze1, Tensor.zeros]

/-- Sample `b` of a tensor of shape `(n, B, c)`. -/
def sampleAt (x : Tensor) (n c b : ℕ) : Tensor := ⟨[n, c], fun idx => x.val (idx.insertIdx 1 b)⟩

/-- **C76.** The samples of a batch do not influence each other: each one is treated as if
it were alone. -/
theorem C76_batch_independent {nIn H L B T : ℕ} (w : ℕ → CellWeights) (hL : 0 < L) (hT : 0 < T)
    {x h0 : Tensor} (hx : x.shape = [T, B, nIn]) (hh : h0.shape = [L, B, H]) {b : ℕ} (hb : b < B) :
    ∃ out hn out1 hn1, (gruInit nIn H L w).forward x (some h0) = .ok (out, hn) ∧
      (gruInit nIn H L w).forward (sampleAt x T nIn b) (some (sampleAt h0 L H b)) =
        .ok (out1, hn1) ∧
      (∀ t < T, ∀ j < H, out.val [t, b, j] = out1.val [t, j]) ∧
      (∀ l < L, ∀ j < H, hn.val [l, b, j] = hn1.val [l, j]) := by
  obtain ⟨out, hn, e, -, -, v1, v2⟩ := C76_batched w hL hT hx hh
  obtain ⟨out1, hn1, e1, -, -, u1, u2⟩ := C76_unbatched w hL hT (x := sampleAt x T nIn b)
    (h0 := sampleAt h0 L H b) rfl rfl
  refine ⟨out, hn, out1, hn1, e, e1, ?_, ?_⟩
  · intro t ht j hj
    rw [v1 t ht b hb j hj, u1 t ht j hj]
    rfl
  · intro l hl j hj
    rw [v2 l hl b hb j hj, u2 l hl j hj]
    rfl

/-- **C76.** The output at a time depends only on the inputs up to that time. -/
theorem C76_causal {nIn H L T T' : ℕ} (w : ℕ → CellWeights) (hL : 0 < L)
    {x x' h0 : Tensor} (hx : x.shape = [T, nIn]) (hx' : x'.shape = [T', nIn])
    (hh : h0.shape = [L, H]) {t : ℕ} (ht : t < T) (ht' : t < T')
    (hagree : ∀ s ≤ t, ∀ j, x.val [s, j] = x'.val [s, j]) :
    ∃ out hn out' hn', (gruInit nIn H L w).forward x (some h0) = .ok (out, hn) ∧
      (gruInit nIn H L w).forward x' (some h0) = .ok (out', hn') ∧
      ∀ s ≤ t, ∀ j < H, out.val [s, j] = out'.val [s, j] := by
  obtain ⟨out, hn, e, -, -, v, -⟩ := C76_unbatched w hL (by omega) hx hh
  obtain ⟨out', hn', e', -, -, v', -⟩ := C76_unbatched w hL (by omega) hx' hh
  refine ⟨out, hn, out', hn', e, e', ?_⟩
  intro s hs j hj
  rw [v s (by omega) j hj, v' s (by omega) j hj, seqOf, seqOf, hiddenAfter_eq w _ _ (by omega)
    (by omega), hiddenAfter_eq w _ _ (by omega) (by omega)]
  rw [hid_congr (L := L) (fun _ _ => rfl) (fun _ _ => rfl) (s + 1)
    (x' := fun t j => x'.val [t, j]) ?_ (L - 1) (by omega)]
  intro r hr
  funext j
  exact hagree r (by omega) j

theorem hid_add (g : ℕ → Spec.GruLayer) (h0 x : ℕ → ℕ → ℝ) (k : ℕ) :
    ∀ t l, hid g h0 x (k + t) l = hid g (hid g h0 x k) (fun s => x (k + s)) t l := by
  intro t
  induction t with
  | zero => intro l; rfl
  | succ t ih =>
    intro l
    induction l with
    | zero =>
      rw [← Nat.add_assoc, hid_succ, hid_succ, ih]
      rfl
    | succ l ihl =>
      rw [← Nat.add_assoc, hid_succ, hid_succ, ih]
      simp only [layIn]
      rw [← ihl]
      rfl

/-- The steps `k, k + 1, ...` of a tensor of shape `(T, n)`. -/
def dropSteps (x : Tensor) (k T n : ℕ) : Tensor :=
  ⟨[T - k, n], fun idx => x.val (idx.modifyHead (k + ·))⟩

/-- The first `k` steps of a tensor. -/
def takeSteps (x : Tensor) (k n : ℕ) : Tensor := ⟨[k, n], x.val⟩

theorem hid_congr_on {g : ℕ → Spec.GruLayer} {h0 h0' x : ℕ → ℕ → ℝ} {L H : ℕ}
    (hg : ∀ l < L, (g l).nHid = H) (hin : ∀ l, 0 < l → l < L → (g l).nIn = H)
    (hh : ∀ l < L, ∀ j < H, h0 l j = h0' l j) :
    ∀ t, ∀ l < L, ∀ j < H, hid g h0 x t l j = hid g h0' x t l j := by
  have key : ∀ (q : Spec.GruLayer) (h h' y y' : ℕ → ℝ), q.nHid = H →
      (∀ j < H, h j = h' j) → (∀ j < q.nIn, y j = y' j) → ∀ j < H, q.step h y j = q.step h' y' j := by
    intro q h h' y y' hq e1 e2 j hj
    have a1 : ∀ (W : ℕ → ℕ → ℝ) (b : ℕ → ℝ) i,
        Spec.affineOf q.nHid W b h i = Spec.affineOf q.nHid W b h' i := by
      intro W b i
      simp only [Spec.affineOf]
      congr 1
      apply Finset.sum_congr rfl
      intro k hk
      rw [e1 k (by rw [← hq]; exact Finset.mem_range.1 hk)]
    have a2 : ∀ (W : ℕ → ℕ → ℝ) (b : ℕ → ℝ) i,
        Spec.affineOf q.nIn W b y i = Spec.affineOf q.nIn W b y' i := by
      intro W b i
      simp only [Spec.affineOf]
      congr 1
      apply Finset.sum_congr rfl
      intro k hk
      rw [e2 k (Finset.mem_range.1 hk)]
    simp only [Spec.GruLayer.step, a1, a2, e1 j hj]
  intro t
  induction t with
  | zero => exact hh
  | succ t ih =>
    intro l
    induction l with
    | zero =>
      intro hl j hj
      rw [hid_succ, hid_succ]
      exact key _ _ _ _ _ (hg 0 hl) (ih 0 hl) (fun _ _ => rfl) j hj
    | succ l ihl =>
      intro hl j hj
      rw [hid_succ, hid_succ]
      exact key _ _ _ _ _ (hg _ hl) (ih _ hl)
        (fun j hj => ihl (by omega) j (by rwa [hin _ (by omega) hl] at hj)) j hj

/-- **C76.** A sequence may be cut: going on from the returned hidden state gives the same
output as the whole sequence at once. -/
theorem C76_resume {nIn H L T k : ℕ} (w : ℕ → CellWeights) (hL : 0 < L) (hk : 0 < k) (hkT : k < T)
    {x h0 : Tensor} (hx : x.shape = [T, nIn]) (hh : h0.shape = [L, H]) :
    ∃ out hn out1 hn1 out2 hn2,
      (gruInit nIn H L w).forward x (some h0) = .ok (out, hn) ∧
      (gruInit nIn H L w).forward (takeSteps x k nIn) (some h0) = .ok (out1, hn1) ∧
      (gruInit nIn H L w).forward (dropSteps x k T nIn) (some hn1) = .ok (out2, hn2) ∧
      (∀ t < k, ∀ j < H, out.val [t, j] = out1.val [t, j]) ∧
      (∀ t, k + t < T → ∀ j < H, out.val [k + t, j] = out2.val [t, j]) ∧
      (∀ l < L, ∀ j < H, hn.val [l, j] = hn2.val [l, j]) := by
  obtain ⟨out, hn, e, -, -, v, u⟩ := C76_unbatched w hL (by omega) hx hh
  obtain ⟨out1, hn1, e1, -, s1, v1, u1⟩ := C76_unbatched w hL hk (x := takeSteps x k nIn) rfl hh
  obtain ⟨out2, hn2, e2, -, -, v2, u2⟩ := C76_unbatched (T := T - k) w hL (by omega)
    (x := dropSteps x k T nIn) rfl s1
  have hsz : ∀ l < L, (layerAt (gruInit nIn H L w).cells l).nHid = H := by
    intro l hl; rw [layerAt_gruInit w hl]; rfl
  have hsz' : ∀ l, 0 < l → l < L → (layerAt (gruInit nIn H L w).cells l).nIn = H := by
    intro l h0 hl
    rw [layerAt_gruInit w hl, if_neg (by omega)]
    rfl
  have hmid : ∀ l < L, ∀ j < H, hn1.val [l, j] =
      hid (layerAt (gruInit nIn H L w).cells) (fun l j => h0.val [l, j])
        (fun t j => x.val [t, j]) k l j := by
    intro l hl j hj
    rw [u1 l hl j hj, seqOf, hiddenAfter_eq w _ _ hl (by omega), Nat.sub_add_cancel hk]
    rfl
  have hcont : ∀ t, ∀ l < L, ∀ j < H,
      hid (layerAt (gruInit nIn H L w).cells) (fun l j => h0.val [l, j])
        (fun t j => x.val [t, j]) (k + t) l j =
      hid (layerAt (gruInit nIn H L w).cells) (fun l j => hn1.val [l, j])
        (fun t j => (dropSteps x k T nIn).val [t, j]) t l j := by
    intro t l hl j hj
    rw [hid_add]
    exact hid_congr_on hsz hsz' (fun l hl j hj => (hmid l hl j hj).symm) t l hl j hj
  refine ⟨out, hn, out1, hn1, out2, hn2, e, e1, e2, ?_, ?_, ?_⟩
  · intro t ht j hj
    rw [v t (by omega) j hj, v1 t ht j hj, seqOf, seqOf,
      hiddenAfter_eq w _ _ (by omega) (by omega), hiddenAfter_eq w _ _ (by omega) ht]
    rfl
  · intro t ht j hj
    rw [v (k + t) ht j hj, v2 t (by omega) j hj, seqOf, seqOf,
      hiddenAfter_eq w _ _ (by omega) ht, hiddenAfter_eq w _ _ (by omega) (by omega)]
    exact hcont (t + 1) (L - 1) (by omega) j hj
  · intro l hl j hj
    rw [u l hl j hj, u2 l hl j hj, seqOf, seqOf,
      hiddenAfter_eq w _ _ hl (by omega), hiddenAfter_eq w _ _ hl (by omega)]
    have := hcont (T - k) l hl j hj
    rwa [show k + (T - k) = T - 1 + 1 by omega,
      show hid _ _ (fun t j => (dropSteps x k T nIn).val [t, j]) (T - k) l j = hid _ _ _ (T - k - 1 + 1) l j
        by rw [show T - k - 1 + 1 = T - k by omega]] at this

/-- **C76.** Hidden states stay in the interval `[-1, 1]`, whatever the inputs, the weights
and the length of the sequence. -/
theorem C76_bounded {nIn H L T : ℕ} (w : ℕ → CellWeights) (hL : 0 < L) (hT : 0 < T)
    {x h0 : Tensor} (hx : x.shape = [T, nIn]) (hh : h0.shape = [L, H])
    (hb : ∀ l < L, ∀ j < H, |h0.val [l, j]| ≤ 1) :
    ∃ out hn, (gruInit nIn H L w).forward x (some h0) = .ok (out, hn) ∧
      (∀ t < T, ∀ j < H, |out.val [t, j]| ≤ 1) ∧ (∀ l < L, ∀ j < H, |hn.val [l, j]| ≤ 1) := by
  obtain ⟨out, hn, e, -, -, v, u⟩ := C76_unbatched w hL hT hx hh
  have step_le : ∀ (q : Spec.GruLayer) (h y : ℕ → ℝ) (j : ℕ), |h j| ≤ 1 → |q.step h y j| ≤ 1 := by
    intro q h y j hj
    simp only [Spec.GruLayer.step]
    set z := Real.sigmoid (Spec.affineOf q.nIn q.update.W q.update.b y j +
      Spec.affineOf q.nHid q.update.U q.update.c h j)
    have h0 := Real.sigmoid_nonneg (Spec.affineOf q.nIn q.update.W q.update.b y j +
      Spec.affineOf q.nHid q.update.U q.update.c h j)
    have h1 := Real.sigmoid_le_one (Spec.affineOf q.nIn q.update.W q.update.b y j +
      Spec.affineOf q.nHid q.update.U q.update.c h j)
    set n := Real.tanh _
    have hn : |n| ≤ 1 := (Real.abs_tanh_lt_one _).le
    rw [abs_le] at hj hn ⊢
    change 0 ≤ z at h0
    change z ≤ 1 at h1
    constructor <;> nlinarith [hj.1, hj.2, hn.1, hn.2]
  have all : ∀ (g : ℕ → Spec.GruLayer) (y : ℕ → ℕ → ℝ) t, ∀ l < L, ∀ j < H,
      |hid g (fun l j => h0.val [l, j]) y t l j| ≤ 1 := by
    intro g y t
    induction t with
    | zero => exact hb
    | succ t ih =>
      intro l hl j hj
      rw [hid_succ]
      exact step_le _ _ _ _ (ih l hl j hj)
  refine ⟨out, hn, e, ?_, ?_⟩
  · intro t ht j hj
    rw [v t ht j hj, seqOf, hiddenAfter_eq w _ _ (by omega) ht]
    exact all _ _ _ _ (by omega) _ hj
  · intro l hl j hj
    rw [u l hl j hj, seqOf, hiddenAfter_eq w _ _ hl (by omega)]
    exact all _ _ _ _ hl _ hj

/-- **C76.** The model applies an affine function to the output of the recurrent network at
each time; the network starts from the given hidden state, or from zeros if none is given,
and the hidden state after the last time is returned. -/
theorem C76_model (m : GruModel) {T : ℕ} (hL : 0 < m.nRecurrentLayers) (hT : 0 < T)
    {x : Tensor} (hx : x.shape = [T, m.nFeaturesIn]) (hidden : Option Tensor)
    (hh : ∀ h ∈ hidden, h.shape = [m.nRecurrentLayers, m.hiddenLayerSize]) :
    ∃ out hn, m.forward x hidden = .ok (out, hn) ∧ out.shape = [T, m.nFeaturesOut] ∧
      hn.shape = [m.nRecurrentLayers, m.hiddenLayerSize] ∧
      (∀ t < T, ∀ i < m.nFeaturesOut, out.val [t, i] =
        (∑ j ∈ range m.hiddenLayerSize, m.linW i j *
          Spec.hiddenAfter (stackOf m.nFeaturesIn m.hiddenLayerSize m.nRecurrentLayers
            m.gruWeights fun l j => (hidden.map fun h => h.val [l, j]).getD 0) (seqOf x T)
            (m.nRecurrentLayers - 1) t j) + m.linB i) ∧
      ∀ l < m.nRecurrentLayers, ∀ j < m.hiddenLayerSize, hn.val [l, j] =
        Spec.hiddenAfter (stackOf m.nFeaturesIn m.hiddenLayerSize m.nRecurrentLayers
          m.gruWeights fun l j => (hidden.map fun h => h.val [l, j]).getD 0) (seqOf x T) l (T - 1) j := by
  obtain ⟨h0, i1, i2, i3⟩ : ∃ h0, m.initialHidden x hidden = .ok h0 ∧
      h0.shape = [m.nRecurrentLayers, m.hiddenLayerSize] ∧
      (fun l j => (hidden.map fun h => h.val [l, j]).getD 0) = fun l j => h0.val [l, j] := by
    rcases hidden with _ | h
    · exact ⟨_, by simp [GruModel.initialHidden, hx]; rfl, rfl, rfl⟩
    · exact ⟨h, rfl, hh h rfl, rfl⟩
  rw [i3]
  obtain ⟨out, hn, e, s, s', v, u⟩ := C76_unbatched m.gruWeights hL hT hx i2
  refine ⟨⟨[T, m.nFeaturesOut], fun idx => (∑ j ∈ range m.hiddenLayerSize,
      out.val (idx.dropLast ++ [j]) * m.linW (idx.getLastD 0) j) + m.linB (idx.getLastD 0)⟩, hn,
    ?_, rfl, s', ?_, u⟩
  · simp [GruModel.forward, i1, GruModel.gru, e, linearLayer, s, raiseIf, bind, Except.bind]
  · intro t ht i _
    simp only [List.dropLast, List.getLastD_cons, List.cons_append, List.nil_append]
    congr 1
    apply Finset.sum_congr rfl
    intro j hj
    rw [mul_comm]
    congr 1
    exact v t ht j (Finset.mem_range.1 hj)

/-- **C76.** The same for a batch of sequences. -/
theorem C76_model_batched (m : GruModel) {T B : ℕ} (hL : 0 < m.nRecurrentLayers) (hT : 0 < T)
    {x : Tensor} (hx : x.shape = [T, B, m.nFeaturesIn]) (hidden : Option Tensor)
    (hh : ∀ h ∈ hidden, h.shape = [m.nRecurrentLayers, B, m.hiddenLayerSize]) :
    ∃ out hn, m.forward x hidden = .ok (out, hn) ∧ out.shape = [T, B, m.nFeaturesOut] ∧
      hn.shape = [m.nRecurrentLayers, B, m.hiddenLayerSize] ∧
      (∀ t < T, ∀ b < B, ∀ i < m.nFeaturesOut, out.val [t, b, i] =
        (∑ j ∈ range m.hiddenLayerSize, m.linW i j *
          Spec.hiddenAfter (stackOf m.nFeaturesIn m.hiddenLayerSize m.nRecurrentLayers
            m.gruWeights fun l j => (hidden.map fun h => h.val [l, b, j]).getD 0) (seqOfBatch x T b)
            (m.nRecurrentLayers - 1) t j) + m.linB i) ∧
      ∀ l < m.nRecurrentLayers, ∀ b < B, ∀ j < m.hiddenLayerSize, hn.val [l, b, j] =
        Spec.hiddenAfter (stackOf m.nFeaturesIn m.hiddenLayerSize m.nRecurrentLayers
          m.gruWeights fun l j => (hidden.map fun h => h.val [l, b, j]).getD 0) (seqOfBatch x T b)
          l (T - 1) j := by
  obtain ⟨h0, i1, i2, i3⟩ : ∃ h0, m.initialHidden x hidden = .ok h0 ∧
      h0.shape = [m.nRecurrentLayers, B, m.hiddenLayerSize] ∧
      ∀ b, (fun l j => (hidden.map fun h => h.val [l, b, j]).getD 0) = fun l j => h0.val [l, b, j] := by
    rcases hidden with _ | h
    · exact ⟨_, by simp [GruModel.initialHidden, hx, orRaise, Except.map]; rfl, rfl, fun _ => rfl⟩
    · exact ⟨h, rfl, hh h rfl, fun _ => rfl⟩
  simp only [i3]
  obtain ⟨out, hn, e, s, s', v, u⟩ := C76_batched m.gruWeights hL hT hx i2
  refine ⟨⟨[T, B, m.nFeaturesOut], fun idx => (∑ j ∈ range m.hiddenLayerSize,
      out.val (idx.dropLast ++ [j]) * m.linW (idx.getLastD 0) j) + m.linB (idx.getLastD 0)⟩, hn,
    ?_, rfl, s', ?_, u⟩
  · simp [GruModel.forward, i1, GruModel.gru, e, linearLayer, s, raiseIf, bind, Except.bind]
  · intro t ht b hb i _
    simp only [List.dropLast, List.getLastD_cons, List.cons_append, List.nil_append]
    congr 1
    apply Finset.sum_congr rfl
    intro j hj
    rw [mul_comm]
    congr 1
    exact v t ht b hb j (Finset.mem_range.1 hj)

/-- **C76.** An empty sequence and a network without layers are rejected. -/
theorem C76_raises {nIn H L B T : ℕ} (w : ℕ → CellWeights) {x h0 : Tensor}
    (hx : x.shape = [T, B, nIn]) (hh : h0.shape = [L, B, H]) :
    (T = 0 → (gruInit nIn H L w).forward x (some h0) = .error .runtimeError) ∧
    (L = 0 → 0 < T → (gruInit nIn H L w).forward x (some h0) = .error .unboundLocal) := by
  constructor
  · rintro rfl
    have hm : (List.range L).mapM (matAt h0) =
        .ok ((List.range L).map fun l => ⟨B, H, fun p q => h0.val [l, p, q]⟩) := by
      apply mapM_of_forall
      intro l hl
      simp [matAt, hh, List.mem_range.1 hl]
    have : (gruInit nIn H L w).numLayers = L := rfl
    simp [Gru.forward, hx, orRaise, this, hm, bind, Except.bind, pure, Except.pure, stackMats]
  · rintro rfl hT
    obtain ⟨T, rfl⟩ : ∃ n, T = n + 1 := ⟨T - 1, by omega⟩
    have : (gruInit nIn H 0 w).numLayers = 0 := rfl
    simp [Gru.forward, hx, orRaise, this, timeStep, matAt, List.range_succ_eq_map, List.foldlM_cons,
      bind, Except.bind, pure, Except.pure]

/-! Non-vacuity: two layers, three samples, four steps. -/

example : ∃ out hn, (gruInit 2 5 2 fun l => ⟨fun i j => i + j + l, fun i j => i - j, fun i => i,
      fun _ => 1⟩).forward ⟨[4, 3, 2], fun idx => idx.sum⟩ (some (Tensor.zeros [2, 3, 5])) =
        .ok (out, hn) ∧ out.shape = [4, 3, 5] ∧ hn.shape = [2, 3, 5] := by
  obtain ⟨out, hn, e, s, s', -⟩ := C76_batched (nIn := 2) (H := 5) (L := 2) (B := 3) (T := 4)
    (fun l => ⟨fun i j => i + j + l, fun i j => i - j, fun i => i, fun _ => 1⟩) (by omega) (by omega)
    (x := ⟨[4, 3, 2], fun idx => idx.sum⟩) (h0 := Tensor.zeros [2, 3, 5]) rfl rfl
  exact ⟨out, hn, e, s, s'⟩

/-- The specification on one layer with one component, one step from zero with only the bias
of the new gate: `h' = (1 - 1/2) tanh 1`. -/
example : Spec.hiddenAfter (stackOf 1 1 1 (fun _ => ⟨0, 0, fun i => if i = 2 then 1 else 0, 0⟩) 0)
    [fun _ => 7] 0 0 0 = 1 / 2 * Real.tanh 1 := by
  simp [Spec.hiddenAfter, stackOf, Spec.stackedRun, Spec.GruLayer.run, Spec.GruLayer.step,
    Spec.torchLayer, Spec.affineOf]
  norm_num

end

end Hooke
