import Verif.Spec.Prediction
import Verif.Props.Gru
import Verif.Props.TimeSeriesBatch

/-!
# C78: prediction of a data set
-/

namespace Hooke

open Spec

noncomputable section

/-! ### The model on a batch -/

/-- The hidden state of sample `b`. -/
def HiddenOf (L B H b : ℕ) : Option Tensor → Option Tensor → Prop
  | none, none => True
  | some h, some h' => h.shape = [L, B, H] ∧ h'.shape = [L, H] ∧ ∀ l j, h.val [l, b, j] = h'.val [l, j]
  | _, _ => False

theorem linear_ok {nIn nOut : ℕ} {w : ℕ → ℕ → ℝ} {b : ℕ → ℝ} {t : Tensor} {s : List ℕ}
    (h : t.shape = s ++ [nIn]) :
    linearLayer nIn nOut w b t = .ok ⟨s ++ [nOut], fun idx =>
      (∑ j ∈ Finset.range nIn, t.val (idx.dropLast ++ [j]) * w (idx.getLastD 0) j) +
        b (idx.getLastD 0)⟩ := by
  simp [linearLayer, h, raiseIf, bind, Except.bind]

theorem model_batch (m : GruModel) {T B : ℕ} (hL : 0 < m.nRecurrentLayers) (hT : 0 < T)
    {x : Tensor} (hx : x.shape = [T, B, m.nFeaturesIn]) {hid : Option Tensor}
    (hh : ∀ h, hid = some h → h.shape = [m.nRecurrentLayers, B, m.hiddenLayerSize]) :
    ∃ out hn, m.forward x hid = .ok (out, hn) ∧ out.shape = [T, B, m.nFeaturesOut] ∧
      ∀ b < B, ∀ y : Tensor, y.shape = [T, m.nFeaturesIn] →
        (∀ t j, x.val [t, b, j] = y.val [t, j]) → ∀ hid',
        HiddenOf m.nRecurrentLayers B m.hiddenLayerSize b hid hid' →
        ∃ out1 hn1, m.forward y hid' = .ok (out1, hn1) ∧ out1.shape = [T, m.nFeaturesOut] ∧
          ∀ t < T, ∀ g < m.nFeaturesOut, out.val [t, b, g] = out1.val [t, g] := by
  obtain ⟨h0, e0, s0, hc⟩ : ∃ h0, m.initialHidden x hid = .ok h0 ∧
      h0.shape = [m.nRecurrentLayers, B, m.hiddenLayerSize] ∧
      ∀ b < B, ∀ y : Tensor, y.shape = [T, m.nFeaturesIn] → ∀ hid',
        HiddenOf m.nRecurrentLayers B m.hiddenLayerSize b hid hid' →
        ∃ h1, m.initialHidden y hid' = .ok h1 ∧ h1.shape = [m.nRecurrentLayers, m.hiddenLayerSize] ∧
          ∀ l j, h0.val [l, b, j] = h1.val [l, j] := by
    cases hid with
    | none =>
      refine ⟨Tensor.zeros [m.nRecurrentLayers, B, m.hiddenLayerSize], ?_, rfl, ?_⟩
      · simp [GruModel.initialHidden, hx, orRaise, Except.map]
      · intro b _ y hy hid' hcomp
        cases hid' with
        | some _ => exact hcomp.elim
        | none =>
          exact ⟨Tensor.zeros [m.nRecurrentLayers, m.hiddenLayerSize],
            by simp [GruModel.initialHidden, hy], rfl, fun _ _ => rfl⟩
    | some h =>
      refine ⟨h, rfl, hh h rfl, ?_⟩
      intro b _ y hy hid' hcomp
      cases hid' with
      | none => exact hcomp.elim
      | some h' => exact ⟨h', rfl, hcomp.2.1, hcomp.2.2⟩
  obtain ⟨out, hn, e, s, -, v, -⟩ := C76_batched m.gruWeights hL hT hx s0
  have s' : out.shape = [T, B] ++ [m.hiddenLayerSize] := s
  refine ⟨⟨[T, B] ++ [m.nFeaturesOut], fun idx =>
      (∑ j ∈ Finset.range m.hiddenLayerSize, out.val (idx.dropLast ++ [j]) *
        m.linW (idx.getLastD 0) j) + m.linB (idx.getLastD 0)⟩, hn, ?_, rfl, ?_⟩
  · simp only [GruModel.forward, e0, GruModel.gru, e, linear_ok s', bind, Except.bind]
  · intro b hb y hy hyv hid' hcomp
    obtain ⟨h1, e1, s1, hv⟩ := hc b hb y hy hid' hcomp
    obtain ⟨out1, hn1, e2, s2, -, v2, -⟩ := C76_unbatched m.gruWeights hL hT hy s1
    have s2' : out1.shape = [T] ++ [m.hiddenLayerSize] := s2
    refine ⟨⟨[T] ++ [m.nFeaturesOut], fun idx =>
        (∑ j ∈ Finset.range m.hiddenLayerSize, out1.val (idx.dropLast ++ [j]) *
          m.linW (idx.getLastD 0) j) + m.linB (idx.getLastD 0)⟩, hn1, ?_, rfl, ?_⟩
    · simp only [GruModel.forward, e1, GruModel.gru, e2, linear_ok s2', bind, Except.bind]
    · intro t ht g _
      simp only [List.dropLast, List.getLastD_cons, List.cons_append, List.nil_append]
      congr 1
      apply Finset.sum_congr rfl
      intro j hj
      have hj' := Finset.mem_range.1 hj
      congr 1
      have a1 : (fun l j => h0.val [l, b, j]) = fun l j => h1.val [l, j] := by
        funext l j; exact hv l j
      have a2 : seqOfBatch x T b = seqOf y T := by
        simp only [seqOfBatch, seqOf, hyv]
      have := v t ht b hb j hj'
      rw [a1, a2] at this
      exact this.trans (v2 t ht j hj').symm

/-! ### The data loader -/

theorem flatten_batches {α : Type} (l : List α) (n m : ℕ) :
    ((List.range m).map fun k => (l.drop (k * n)).take n).flatten = l.take (m * n) := by
  induction m with
  | zero => simp
  | succ m ih =>
    rw [List.range_succ, List.map_append, List.flatten_append, ih, Nat.succ_mul, List.take_add]
    simp

/-- **C78.** The data loader serves every sample exactly once and in order, at most `batch_size` at a
time, whatever the size of the data set. -/
theorem C78_loader {α : Type} (ds : List α) {n : ℕ} (hn : 0 < n) :
    ∃ bs, timeSeriesLoader ds n [] = .ok bs ∧ bs.flatten = ds ∧
      ∀ (k : ℕ) b, bs[k]? = some b → b ≠ [] ∧ b.length ≤ n ∧
        ∀ (i : ℕ) x, b[i]? = some x → i < n ∧ ds[k * n + i]? = some x := by
  refine ⟨(List.range ((ds.length + n - 1) / n)).map fun k => (ds.drop (k * n)).take n, ?_, ?_, ?_⟩
  · have : ¬ ((n : ℤ) ≤ 0) := by omega
    simp [timeSeriesLoader, raiseIf, bind, Except.bind, hn.ne']
  · rw [flatten_batches, List.take_of_length_le]
    have h1 := Nat.div_add_mod (ds.length + n - 1) n
    have h2 := Nat.mod_lt (ds.length + n - 1) hn
    rw [mul_comm] at h1
    omega
  · intro k b hb
    rw [List.getElem?_map, Option.map_eq_some_iff] at hb
    obtain ⟨k', hk', rfl⟩ := hb
    have hk := List.getElem?_eq_some_iff.1 hk'
    obtain ⟨hk1, hk2⟩ := hk
    simp only [List.length_range, List.getElem_range] at hk1 hk2
    subst hk2
    have hlt : k * n < ds.length := by
      have h1 := Nat.div_mul_le_self (ds.length + n - 1) n
      have h2 : (k + 1) * n ≤ (ds.length + n - 1) / n * n := Nat.mul_le_mul_right n hk1
      rw [Nat.succ_mul] at h2
      omega
    refine ⟨?_, by simp, ?_⟩
    · intro h
      have := congrArg List.length h
      simp at this
      omega
    · intro i x hx
      have hi : i < n := by
        have := (List.getElem?_eq_some_iff.1 hx).1
        simp at this; omega
      rw [List.getElem?_take_of_lt hi, List.getElem?_drop] at hx
      exact ⟨hi, hx⟩

theorem foldlM_blocks {α β : Type} {f : List β → List α → Py (List β)} {R : α → β → Prop}
    (bs : List (List α))
    (h : ∀ b ∈ bs, ∀ acc, ∃ r, f acc b = .ok (acc ++ r) ∧ List.Forall₂ R b r) :
    ∀ acc, ∃ r, bs.foldlM f acc = .ok (acc ++ r) ∧ List.Forall₂ R bs.flatten r := by
  induction bs with
  | nil => intro acc; exact ⟨[], by simp [pure, Except.pure], .nil⟩
  | cons b bs ih =>
    intro acc
    obtain ⟨r1, e1, h1⟩ := h b (by simp) acc
    obtain ⟨r2, e2, h2⟩ := ih (fun b' hb' => h b' (by simp [hb'])) (acc ++ r1)
    refine ⟨r1 ++ r2, ?_, ?_⟩
    · rw [List.foldlM_cons, e1]
      simp only [bind, Except.bind]
      rw [e2, List.append_assoc]
    · rw [List.flatten_cons]
      exact List.rel_append h1 h2

/-! ### One batch -/

theorem transformIf_in {c : PredCfg} (hs : ScalersReady c) {t : Tensor} {s : List ℕ}
    (ht : t.shape = s ++ [c.model.nFeaturesIn]) (hl : s.length = 1 ∨ s.length = 2) :
    transformIf c.inNormalized c.scalers c.scalers.featuresIn true t = .ok (scaledInput c t) := by
  unfold transformIf scaledInput
  split
  · next h =>
    obtain ⟨sc, e, hn⟩ := hs.1 h
    have h1 : (t.shape.length = 2 ∨ t.shape.length = 3) ∧
        t.shape.getLast? = some sc.nFeatures := by
      rw [ht]; simp [hn]; omega
    simp [h, e, dataScalerTransform, raiseIf, orRaise, h1, bind, Except.bind]
  · next h => simp [Bool.not_eq_true _ ▸ h]

theorem transformIf_out {c : PredCfg} (hs : ScalersReady c) {t : Tensor} {s : List ℕ}
    (ht : t.shape = s ++ [c.model.nFeaturesOut]) (hl : s.length = 1 ∨ s.length = 2) :
    (∃ y, transformIf c.outNormalized c.scalers c.scalers.featuresOut false t = .ok y ∧
      y.shape = t.shape ∧ ∀ idx, y.val idx = scaledBack c (idx.getLastD 0) (t.val idx)) ∧
    (∃ y, transformIf c.normalizedLoss c.scalers c.scalers.featuresOut true t = .ok y ∧
      y.shape = t.shape ∧ ∀ idx, y.val idx = lossValue c (idx.getLastD 0) (t.val idx)) := by
  unfold transformIf scaledBack lossValue
  constructor
  · split
    · next h =>
      obtain ⟨sc, e, hn⟩ := hs.2 (.inl h)
      have h1 : (t.shape.length = 2 ∨ t.shape.length = 3) ∧
          t.shape.getLast? = some sc.nFeatures := by
        rw [ht]; simp [hn]; omega
      refine ⟨⟨t.shape, fun idx => sc.inv (idx.getLastD 0) (t.val idx)⟩, ?_, rfl, ?_⟩
      · simp [e, dataScalerTransform, raiseIf, orRaise, h1, bind, Except.bind]
      · simp [h, e]
    · next h => exact ⟨t, rfl, rfl, by simp [Bool.not_eq_true _ ▸ h]⟩
  · split
    · next h =>
      obtain ⟨sc, e, hn⟩ := hs.2 (.inr h)
      have h1 : (t.shape.length = 2 ∨ t.shape.length = 3) ∧
          t.shape.getLast? = some sc.nFeatures := by
        rw [ht]; simp [hn]; omega
      refine ⟨⟨t.shape, fun idx => sc.fwd (idx.getLastD 0) (t.val idx)⟩, ?_, rfl, ?_⟩
      · simp [e, dataScalerTransform, raiseIf, orRaise, h1, bind, Except.bind]
      · simp [h, e]
    · next h => exact ⟨t, rfl, rfl, by simp [Bool.not_eq_true _ ▸ h]⟩

theorem sampleLoss_ok {c : PredCfg} (hs : ScalersReady c) {o t : Tensor} {T : ℕ}
    (ho : o.shape = [T, c.model.nFeaturesOut]) (ht : t.shape = [T, c.model.nFeaturesOut]) :
    sampleLoss c o t = .ok (c.lossFn ((List.range T).flatMap fun s =>
      (List.range c.model.nFeaturesOut).map fun g =>
        (lossValue c g (o.val [s, g]), lossValue c g (t.val [s, g])))) := by
  obtain ⟨y, e1, s1, v1⟩ := (transformIf_out hs (t := o) (s := [T]) ho (by simp)).2
  obtain ⟨z, e2, s2, v2⟩ := (transformIf_out hs (t := t) (s := [T]) ht (by simp)).2
  simp only [sampleLoss, e1, e2, entryPairs, s1, s2, ho, ht, if_true, bind, Except.bind, v1, v2,
    List.getLastD_cons, List.getLastD_nil]

theorem hasSeries_unique {x : PyDict FeatVal} {k : String} {T F T' F' : ℕ} {u u' : Tensor}
    (h : HasSeries x k T F u) (h' : HasSeries x k T' F' u') : u = u' ∧ T = T' ∧ F = F' := by
  have e : u = u' := by
    have := h.1.symm.trans h'.1
    simpa using this
  subst e
  have := h.2.symm.trans h'.2
  simp at this
  exact ⟨rfl, this⟩

/-- What is saved for sample `x`. -/
def Saved (c : PredCfg) (x : PyDict FeatVal) (r : SamplePrediction) : Prop :=
  ∀ T u v h, IsSample c.model x T u v h → IsPrediction c T u v h r

theorem step_ok {c : PredCfg} (hL : 0 < c.model.nRecurrentLayers) (hs : ScalersReady c)
    (hn : c.lossNature = "features_out") {b : List (PyDict FeatVal)} (hb : b ≠ [])
    (hsample : ∀ x ∈ b, ∃ T u v h, IsSample c.model x T u v h)
    (hsame : ∀ x ∈ b, ∀ y ∈ b, ∀ k T F t, HasSeries x k T F t → ∃ u, HasSeries y k T F u)
    (acc : List SamplePrediction) :
    ∃ r, predictStep c acc b = .ok (acc ++ r) ∧ List.Forall₂ (Saved c) b r := by
  obtain ⟨first, rest, rfl⟩ := List.exists_cons_of_ne_nil hb
  obtain ⟨T, u0, v0, h0, hx0⟩ := hsample first (by simp)
  obtain ⟨batch, eb⟩ := (C66_collate first rest hx0.nodup).2 fun k T F t ht x hx =>
    hsame first (by simp) x (by simp [hx]) k T F t ht
  obtain ⟨hkeys, -, hval⟩ := C66_values first rest hx0.nodup batch eb
  -- the entries of the batch
  have entry : ∀ k T F t, HasSeries first k T F t → ∃ v, batch.get? k = some v ∧
      v.shape = [T, rest.length + 1, F] ∧ ∀ b x, (first :: rest)[b]? = some x →
        ∃ u, HasSeries x k T F u ∧ ∀ i j, v.val [i, b, j] = u.val [i, j] := by
    intro k T F t ht
    have hk := (hkeys k).2 ⟨T, F, t, ht⟩
    obtain ⟨v, hv⟩ : ∃ v, batch.get? k = some v := by
      cases hg : batch.get? k with
      | some v => exact ⟨v, rfl⟩
      | none => exact absurd hk (KDict.get?_eq_none.1 hg)
    obtain ⟨T', F', hsh, hpt⟩ := hval k v hv
    obtain ⟨u', hu', -⟩ := hpt 0 first rfl
    obtain ⟨-, rfl, rfl⟩ := hasSeries_unique ht hu'
    exact ⟨v, hv, hsh, hpt⟩
  obtain ⟨fin, ef, sf, vf⟩ := entry _ _ _ _ hx0.input
  obtain ⟨tgt, et, st, vt⟩ := entry _ _ _ _ hx0.output
  have hhid : ∀ h, batch.get? "hidden_features_in" = some h →
      h.shape = [c.model.nRecurrentLayers, rest.length + 1, c.model.hiddenLayerSize] := by
    intro h hh
    obtain ⟨T', F', hsh, hpt⟩ := hval _ h hh
    obtain ⟨u', hu', -⟩ := hpt 0 first rfl
    have := hx0.hidden
    cases h0 with
    | none => exact absurd hu' (this _ _ _)
    | some t =>
      obtain ⟨-, rfl, rfl⟩ := hasSeries_unique this hu'
      exact hsh
  have sf' : fin.shape = [T, rest.length + 1] ++ [c.model.nFeaturesIn] := sf
  have e1 := transformIf_in hs sf' (by simp)
  have sx : (scaledInput c fin).shape = [T, rest.length + 1, c.model.nFeaturesIn] := by
    unfold scaledInput; split <;> simpa using sf
  obtain ⟨out, hn', e2, so, vo⟩ := model_batch c.model hL hx0.pos sx hhid
  have so' : out.shape = [T, rest.length + 1] ++ [c.model.nFeaturesOut] := so
  obtain ⟨y, e3, sy, vy⟩ := (transformIf_out hs so' (by simp)).1
  have sy' : y.shape = [T, rest.length + 1, c.model.nFeaturesOut] := sy.trans so
  -- the results of the samples
  let res : ℕ → SamplePrediction := fun j =>
    ⟨⟨[T, c.model.nFeaturesOut], fun idx => y.val (idx.insertIdx 1 j)⟩,
     ⟨[T, c.model.nFeaturesOut], fun idx => tgt.val (idx.insertIdx 1 j)⟩,
     c.lossFn ((List.range T).flatMap fun s => (List.range c.model.nFeaturesOut).map fun g =>
      (lossValue c g (y.val [s, j, g]), lossValue c g (tgt.val [s, j, g])))⟩
  have e4 : predictBatch c batch = .ok ((List.range (rest.length + 1)).map fun j =>
      ((res j).out, (res j).targets)) := by
    have hm : (List.range (rest.length + 1)).mapM (fun j => (do
        let o ← sliceSample y j
        let t ← sliceSample tgt j
        .ok (o, t) : Py (Tensor × Tensor))) = .ok ((List.range (rest.length + 1)).map fun j =>
          ((res j).out, (res j).targets)) := by
      apply mapM_of_forall
      intro j hj
      have := List.mem_range.1 hj
      simp [sliceSample, sy', st, this, bind, Except.bind, res]
    simp only [bind, Except.bind] at hm
    simp [predictBatch, ef, et, e1, sf, e2, e3, hn, orRaise, raiseIf, bind, Except.bind, hm]
  refine ⟨(List.range (rest.length + 1)).map res, ?_, ?_⟩
  · have hm : ((List.range (rest.length + 1)).map fun j => ((res j).out, (res j).targets)).mapM
        (fun p => (sampleLoss c p.1 p.2).map fun l => SamplePrediction.mk p.1 p.2 l) =
        .ok ((List.range (rest.length + 1)).map res) := by
      apply mapM_ok_of_forall₂
      rw [List.forall₂_map_left_iff, List.forall₂_map_right_iff]
      refine List.forall₂_same.2 fun j _ => ?_
      rw [sampleLoss_ok hs rfl rfl]
      simp [Except.map, res]
    simp only [predictStep, eb, e4, hm, bind, Except.bind]
  · rw [forall₂_iff_get]
    refine ⟨by simp, ?_⟩
    intro b x r hxb hrb T' u v h hx
    have hb' : b < rest.length + 1 := by
      have := (List.getElem?_eq_some_iff.1 hxb).1
      simpa using this
    rw [List.getElem?_map, List.getElem?_range hb'] at hrb
    simp only [Option.map_some, Option.some.injEq] at hrb
    subst hrb
    obtain ⟨u', hu', vu⟩ := vf b x hxb
    obtain ⟨rfl, rfl, -⟩ := hasSeries_unique hx.input hu'
    obtain ⟨v', hv', vv⟩ := vt b x hxb
    obtain ⟨rfl, -, -⟩ := hasSeries_unique hx.output hv'
    have hcomp : HiddenOf c.model.nRecurrentLayers (rest.length + 1) c.model.hiddenLayerSize b
        (batch.get? "hidden_features_in") h := by
      have hxh := hx.hidden
      cases hg : batch.get? "hidden_features_in" with
      | none =>
        cases h with
        | none => trivial
        | some t =>
          exfalso
          obtain ⟨w, hw⟩ := hsame x (List.mem_of_getElem? hxb) first (by simp) _ _ _ _ hxh
          obtain ⟨w', hw', -⟩ := entry _ _ _ _ hw
          rw [hg] at hw'
          cases hw'
      | some w =>
        obtain ⟨T'', F'', hsh, hpt⟩ := hval _ w hg
        obtain ⟨t', ht', vt'⟩ := hpt b x hxb
        cases h with
        | none => exact absurd ht' (hxh _ _ _)
        | some t =>
          obtain ⟨rfl, rfl, rfl⟩ := hasSeries_unique hxh ht'
          exact ⟨hsh, hxh.2, vt'⟩
    have su : (scaledInput c u).shape = [T', c.model.nFeaturesIn] := by
      unfold scaledInput; split <;> simpa using hx.input.2
    obtain ⟨out1, hn1, ef1, so1, vo1⟩ := vo b hb' (scaledInput c u) su (by
      intro t j
      unfold scaledInput
      split <;> simp [vu]) h hcomp
    refine ⟨out1, hn1, ef1, so1, rfl, rfl, ?_, ?_, ?_⟩
    · intro t ht g hg
      simp only [res, List.insertIdx_succ_cons, List.insertIdx_zero]
      rw [vy, vo1 t ht g hg]
      simp
    · intro t _ g _
      simp only [res, List.insertIdx_succ_cons, List.insertIdx_zero]
      exact vv t g
    · simp only [res]
      congr 1
      apply List.flatMap_congr
      intro t ht
      apply List.map_congr_left
      intro g hg
      rw [vy, vo1 t (List.mem_range.1 ht) g (List.mem_range.1 hg), vv]
      simp

/-- **C78.** For every data set and every batch size, prediction without a seed saves one result per
sample, in the order of the data set, and each result is that of the sample evaluated alone; the
average loss is the mean of the losses of the samples. -/
theorem C78_predict {c : PredCfg} (hL : 0 < c.model.nRecurrentLayers) (hs : ScalersReady c)
    (hn : c.lossNature = "features_out") (hseed : c.seed = none) {n : ℕ} (hn0 : 0 < n)
    (hbs : c.batchSize = n) {ds : List (PyDict FeatVal)}
    (hsample : ∀ x ∈ ds, ∃ T u v h, IsSample c.model x T u v h)
    (hsame : ∀ (i j : ℕ) x y, ds[i]? = some x → ds[j]? = some y → i / n = j / n →
      ∀ k T F t, HasSeries x k T F t → ∃ u, HasSeries y k T F u) :
    ∃ res, predict c ds = .ok (res, some (Fl.mean (res.map fun r => .fin r.loss))) ∧
      List.Forall₂ (fun x r => ∀ T u v h, IsSample c.model x T u v h → IsPrediction c T u v h r)
        ds res := by
  obtain ⟨bs, e, hflat, hbatch⟩ := C78_loader ds hn0
  obtain ⟨r, er, hr⟩ := foldlM_blocks (f := predictStep c) (R := Saved c) bs (by
    intro b hb acc
    obtain ⟨k, hk⟩ := List.mem_iff_getElem?.1 hb
    obtain ⟨hne, -, hidx⟩ := hbatch k b hk
    refine step_ok hL hs hn hne ?_ ?_ acc
    · intro x hx
      exact hsample x (by rw [← hflat]; exact List.mem_flatten.2 ⟨b, hb, hx⟩)
    · intro x hx y hy
      obtain ⟨i, hi⟩ := List.mem_iff_getElem?.1 hx
      obtain ⟨j, hj⟩ := List.mem_iff_getElem?.1 hy
      obtain ⟨hi1, hi2⟩ := hidx i x hi
      obtain ⟨hj1, hj2⟩ := hidx j y hj
      refine hsame _ _ x y hi2 hj2 ?_
      rw [mul_comm, Nat.mul_add_div hn0, Nat.mul_add_div hn0, Nat.div_eq_of_lt hi1,
        Nat.div_eq_of_lt hj1]) []
  rw [hflat] at hr
  refine ⟨r, ?_, hr⟩
  simp only [List.nil_append] at er
  simp [predict, hseed, hbs, e, er, bind, Except.bind, hr.length_eq]

/-- **C78.** The batch size does not matter: any two batch sizes for which the batches can be built
give the same predictions, targets and losses, sample by sample, and the same average loss. -/
theorem C78_batch_size {c c' : PredCfg} (hL : 0 < c.model.nRecurrentLayers) (hs : ScalersReady c)
    (hn : c.lossNature = "features_out") (hseed : c.seed = none) {n n' : ℕ} (hn0 : 0 < n)
    (hn0' : 0 < n') (hbs : c.batchSize = n) (hc' : c' = { c with batchSize := n' })
    {ds : List (PyDict FeatVal)} (hsample : ∀ x ∈ ds, ∃ T u v h, IsSample c.model x T u v h)
    (hsame : ∀ (i j : ℕ) x y, ds[i]? = some x → ds[j]? = some y → i / n = j / n ∨ i / n' = j / n' →
      ∀ k T F t, HasSeries x k T F t → ∃ u, HasSeries y k T F u) :
    ∃ res res' avg, predict c ds = .ok (res, avg) ∧ predict c' ds = .ok (res', avg) ∧
      List.Forall₂ (fun r r' : SamplePrediction => r.loss = r'.loss ∧ r.out.shape = r'.out.shape ∧
        r.targets.shape = r'.targets.shape ∧
        ∀ T G, r.out.shape = [T, G] → ∀ t < T, ∀ g < G, r.out.val [t, g] = r'.out.val [t, g] ∧
          r.targets.val [t, g] = r'.targets.val [t, g]) res res' := by
  obtain ⟨res, e, h⟩ := C78_predict hL hs hn hseed hn0 hbs hsample
    (fun i j x y hi hj hij => hsame i j x y hi hj (.inl hij))
  obtain ⟨res', e', h'⟩ := C78_predict (c := c') (n := n') (ds := ds) (by rw [hc']; exact hL)
    (by rw [hc']; exact hs) (by rw [hc']; exact hn) (by rw [hc']; exact hseed) hn0' (by rw [hc'])
    (by rw [hc']; exact hsample) (fun i j x y hi hj hij => hsame i j x y hi hj (.inr hij))
  subst hc'
  have key : List.Forall₂ (fun r r' : SamplePrediction => r.loss = r'.loss ∧
      r.out.shape = r'.out.shape ∧ r.targets.shape = r'.targets.shape ∧
        ∀ T G, r.out.shape = [T, G] → ∀ t < T, ∀ g < G, r.out.val [t, g] = r'.out.val [t, g] ∧
          r.targets.val [t, g] = r'.targets.val [t, g]) res res' := by
    have g := forall₂_iff_get.1 h
    have g' := forall₂_iff_get.1 h'
    refine forall₂_iff_get.2 ⟨g.1.symm.trans g'.1, fun i r r' hr hr' => ?_⟩
    have hi : i < ds.length := by rw [g.1]; exact (List.getElem?_eq_some_iff.1 hr).1
    obtain ⟨T, u, v, hd, hx⟩ := hsample _ (List.getElem_mem hi)
    obtain ⟨out, hn1, e1, -, s1, s2, v1, v2, l1⟩ :=
      g.2 i _ r (List.getElem?_eq_getElem hi) hr T u v hd hx
    obtain ⟨out', hn1', e1', -, s1', s2', v1', v2', l1'⟩ :=
      g'.2 i _ r' (List.getElem?_eq_getElem hi) hr' T u v hd hx
    have eo : out = out' := by
      have h2 := e1.symm.trans e1'
      simp only [Except.ok.injEq, Prod.mk.injEq] at h2
      exact h2.1
    subst eo
    refine ⟨l1.trans l1'.symm, s1.trans s1'.symm, s2.trans s2'.symm, ?_⟩
    intro T' G' hsh t ht g hg
    rw [s1] at hsh
    simp only [List.cons.injEq, and_true] at hsh
    obtain ⟨rfl, rfl⟩ := hsh
    exact ⟨(v1 t ht g hg).trans (v1' t ht g hg).symm, (v2 t ht g hg).trans (v2' t ht g hg).symm⟩
  have hl : res.map (fun r => r.loss) = res'.map fun r => r.loss := by
    have k2 := forall₂_iff_get.1 key
    apply List.ext_getElem? 
    intro i
    simp only [List.getElem?_map]
    cases hr : res[i]? with
    | none =>
      have : res'[i]? = none := by
        rw [List.getElem?_eq_none_iff] at hr ⊢
        omega
      rw [this]
    | some r =>
      have hi : i < res'.length := by
        rw [← k2.1]; exact (List.getElem?_eq_some_iff.1 hr).1
      rw [List.getElem?_eq_getElem hi]
      simp [(k2.2 i r _ hr (List.getElem?_eq_getElem hi)).1]
  refine ⟨res, res', _, e, ?_, key⟩
  rw [e']
  have : res.map (fun r => Fl.fin r.loss) = res'.map fun r => Fl.fin r.loss := by
    have h2 := congrArg (List.map Fl.fin) hl
    simpa [Function.comp_def] using h2
  rw [this]

/-- **C78, violated.** With an integer seed, prediction always raises `TypeError`: the arguments of
the data loader are passed on as one argument named `kwargs`. -/
theorem C78_seed_violated (c : PredCfg) (ds : List (PyDict FeatVal)) (s : ℤ) (h : c.seed = some s) :
    predict c ds = .error .typeError := by
  have : ∃ k ∈ ["kwargs"], k ∉ dataLoaderArgs := ⟨"kwargs", by simp, by decide⟩
  simp only [predict, h, Option.isSome_some, if_true, timeSeriesLoader, raiseIf, if_pos this, bind,
    Except.bind]

/-- **C78, violated.** Samples without targets cannot be predicted, although their ground truth is
meant to be optional: `KeyError`. -/
theorem C78_no_targets_violated {c : PredCfg} (hs : ScalersReady c) (hseed : c.seed = none)
    {n : ℕ} (hn0 : 0 < n) (hbs : c.batchSize = n) {x : PyDict FeatVal}
    {ds : List (PyDict FeatVal)} {T : ℕ} {u : Tensor}
    (hnod : x.keys.Nodup) (hin : HasSeries x "features_in" T c.model.nFeaturesIn u)
    (hout : ∀ T F t, ¬ HasSeries x "features_out" T F t)
    (hsame : ∀ y ∈ ds, ∀ k T F t, HasSeries x k T F t → ∃ u, HasSeries y k T F u) :
    predict c (x :: ds) = .error .keyError := by
  obtain ⟨bs, e, hflat, hbatch⟩ := C78_loader (x :: ds) hn0
  cases bs with
  | nil => simp at hflat
  | cons b bs =>
    obtain ⟨hne, -, -⟩ := hbatch 0 b rfl
    obtain ⟨first, rest, rfl⟩ := List.exists_cons_of_ne_nil hne
    have hf : first = x ∧ ∀ y ∈ rest, y ∈ ds := by
      simp only [List.flatten_cons, List.cons_append, List.cons.injEq] at hflat
      exact ⟨hflat.1, fun y hy => by rw [← hflat.2]; simp [hy]⟩
    obtain ⟨rfl, hrest⟩ := hf
    obtain ⟨batch, eb⟩ := (C66_collate first rest hnod).2 fun k T F t ht y hy =>
      hsame y (hrest y hy) k T F t ht
    obtain ⟨hkeys, -, hval⟩ := C66_values first rest hnod batch eb
    have h1 : batch.get? "features_out" = none := by
      rw [KDict.get?_eq_none, hkeys]
      rintro ⟨T, F, t, ht⟩
      exact hout T F t ht
    obtain ⟨fin, ef⟩ := KDict.mem_keys_iff.1 ((hkeys "features_in").2 ⟨_, _, _, hin⟩)
    obtain ⟨T', F', sf, hpt⟩ := hval _ fin ef
    obtain ⟨u', hu', -⟩ := hpt 0 first rfl
    obtain ⟨-, rfl, rfl⟩ := hasSeries_unique hin hu'
    have e1 := transformIf_in hs (t := fin) (s := [T, rest.length + 1]) sf (by simp)
    have e2 : predictStep c [] (first :: rest) = .error .keyError := by
      simp [predictStep, eb, predictBatch, ef, e1, h1, orRaise, bind, Except.bind]
    simp [predict, hseed, hbs, e, e2, List.foldlM_cons, bind, Except.bind]

/-- **C78, violated.** A perfect prediction is reported as if there were no ground truth: the average
loss is not written when it is exactly zero. -/
theorem C78_zero_loss_violated {res : List SamplePrediction} (h0 : res ≠ [])
    (h : ∀ r ∈ res, r.loss = 0) :
    ¬ isLossReported (some (Fl.mean (res.map fun r => .fin r.loss))) := by
  have hm : Fl.mean (res.map fun r => .fin r.loss) = .fin 0 := by
    have h1 : (res.map fun r => Fl.fin r.loss) = (res.map fun r => r.loss).map Fl.fin := by simp
    rw [h1, Fl.mean_fin (by simpa using h0)]
    have h2 : (res.map fun r => r.loss).sum = 0 := by
      apply List.sum_eq_zero
      intro x hx
      obtain ⟨r, hr, rfl⟩ := List.mem_map.1 hx
      exact h r hr
    simp [h2]
  simp [isLossReported, hm]

/-- **C78.** Of an empty data set nothing is saved and the average loss is not a number. -/
theorem C78_empty {c : PredCfg} (hseed : c.seed = none) (hb : 0 < c.batchSize) :
    predict c [] = .ok ([], some .nan) := by
  have h1 : ¬ c.batchSize ≤ 0 := by omega
  have h2 : (c.batchSize.toNat - 1) / c.batchSize.toNat = 0 := Nat.div_eq_of_lt (by omega)
  simp [predict, hseed, timeSeriesLoader, raiseIf, h1, h2, bind, Except.bind, pure, Except.pure,
    Fl.mean, Fl.sum, Fl.div]

/-! Non-vacuity: three samples with inputs of two features and targets of one feature, predicted two
at a time by a model with two layers, scaled input and unscaled output. -/

/-- A sample. -/
def predSample (a : ℝ) : PyDict FeatVal :=
  [("features_in", .tensor ⟨[4, 2], fun _ => a⟩), ("features_out", .tensor ⟨[4, 1], fun _ => a⟩)]

/-- A model and its scalers. -/
def predCfg : PredCfg where
  model := ⟨2, 1, 3, 2, fun _ => ⟨fun i j => i + j, fun i j => i - j, fun _ => 1, fun _ => 0⟩,
    fun _ j => j, fun _ => 1⟩
  scalers := ⟨some ⟨2, fun g x => x - g, fun g x => x + g⟩, none⟩
  inNormalized := true
  outNormalized := false
  lossFn := fun l => (l.map fun p => (p.1 - p.2) ^ 2).sum / l.length
  batchSize := 2

theorem predSample_ok (a : ℝ) : IsSample predCfg.model (predSample a) 4 ⟨[4, 2], fun _ => a⟩
    ⟨[4, 1], fun _ => a⟩ none where
  nodup := by simp [predSample, KDict.keys]
  pos := by omega
  input := ⟨by simp [predSample, KDict.get?], rfl⟩
  output := ⟨by simp [predSample, KDict.get?], rfl⟩
  hidden := by
    rintro T F t ⟨h, -⟩
    simp [predSample, KDict.get?] at h

example : ∃ res, predict predCfg [predSample 1, predSample 2, predSample 3] =
    .ok (res, some (Fl.mean (res.map fun r => .fin r.loss))) ∧ res.length = 3 := by
  obtain ⟨res, e, h⟩ := C78_predict (c := predCfg) (n := 2) (by decide)
    ⟨fun _ => ⟨_, rfl, rfl⟩, by simp [predCfg]⟩ rfl rfl (by omega) rfl
    (ds := [predSample 1, predSample 2, predSample 3])
    (by
      intro x hx
      simp only [List.mem_cons, List.not_mem_nil, or_false] at hx
      rcases hx with rfl | rfl | rfl <;> exact ⟨_, _, _, _, predSample_ok _⟩)
    (by
      have key : ∀ a b k T F t, HasSeries (predSample a) k T F t →
          ∃ u, HasSeries (predSample b) k T F u := by
        rintro a b k T F t ⟨h1, h2⟩
        simp only [predSample, KDict.get?] at h1
        split at h1
        · next e =>
          subst e
          simp only [Option.some.injEq, FeatVal.tensor.injEq] at h1
          subst h1
          exact ⟨⟨[4, 2], fun _ => b⟩, by simp [predSample, KDict.get?], h2⟩
        · split at h1
          · next e =>
            subst e
            simp only [Option.some.injEq, FeatVal.tensor.injEq] at h1
            subst h1
            exact ⟨⟨[4, 1], fun _ => b⟩, by simp [predSample, KDict.get?], h2⟩
          · simp at h1
      intro i j x y hx hy _
      have hx' := List.mem_of_getElem? hx
      have hy' := List.mem_of_getElem? hy
      simp only [List.mem_cons, List.not_mem_nil, or_false] at hx' hy'
      rcases hx' with rfl | rfl | rfl <;> rcases hy' with rfl | rfl | rfl <;> exact key _ _)
  exact ⟨res, e, by rw [← h.length_eq]; rfl⟩

end

end Hooke
