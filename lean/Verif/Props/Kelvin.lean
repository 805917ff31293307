import Verif.Lemmas.SameTensor
import Mathlib.Tactic.IntervalCases

/-!
# C01 - C06: matricial storage of tensors
-/

namespace Hooke

open Spec

/-- The repository's component orders are complete (used as non-vacuity witnesses). -/
theorem sym2d_complete : CompleteSym 2 sym2d := by
  refine ⟨⟨?_, by decide⟩, ?_, ?_⟩
  · intro c hc; simp [sym2d] at hc; rcases hc with rfl | rfl | rfl <;> exact ⟨_, _, by simp, by simp, by simp, by simp, rfl⟩
  · intro a b h1 h2 h3 h4; interval_cases a <;> interval_cases b <;> simp [sym2d]
  · intro a b hab h; simp [sym2d] at h ⊢; omega

theorem sym3d_complete : CompleteSym 3 sym3d := by
  refine ⟨⟨?_, by decide⟩, ?_, ?_⟩
  · intro c hc; simp [sym3d] at hc
    rcases hc with rfl | rfl | rfl | rfl | rfl | rfl <;>
      exact ⟨_, _, by simp, by simp, by simp, by simp, rfl⟩
  · intro a b h1 h2 h3 h4; interval_cases a <;> interval_cases b <;> simp [sym3d]
  · intro a b hab h; simp [sym3d] at h ⊢; omega

theorem nsym2d_complete : CompleteFull 2 nsym2d := by
  refine ⟨⟨?_, by decide⟩, ?_⟩
  · intro c hc; simp [nsym2d] at hc
    rcases hc with rfl | rfl | rfl | rfl <;>
      exact ⟨_, _, by simp, by simp, by simp, by simp, rfl⟩
  · intro a b h1 h2 h3 h4; interval_cases a <;> interval_cases b <;> simp [nsym2d]

theorem nsym3d_complete : CompleteFull 3 nsym3d := by
  refine ⟨⟨?_, by decide⟩, ?_⟩
  · intro c hc; simp [nsym3d] at hc
    rcases hc with rfl | rfl | rfl | rfl | rfl | rfl | rfl | rfl | rfl <;>
      exact ⟨_, _, by simp, by simp, by simp, by simp, rfl⟩
  · intro a b h1 h2 h3 h4; interval_cases a <;> interval_cases b <;> simp [nsym3d]

/-- Whatever problem type is accepted, the orders handed out are complete. -/
theorem problemType_orders_complete {p n : ℕ} {s f : List Comp}
    (h : getProblemTypeParameters p = .ok (n, s, f)) : CompleteSym n s ∧ CompleteFull n f := by
  unfold getProblemTypeParameters at h
  split at h
  · simp at h; obtain ⟨rfl, rfl, rfl⟩ := h; exact ⟨sym2d_complete, nsym2d_complete⟩
  · split at h
    · simp at h; obtain ⟨rfl, rfl, rfl⟩ := h; exact ⟨sym3d_complete, nsym3d_complete⟩
    · simp at h

example : getProblemTypeParameters 4 = .ok (3, sym3d, nsym3d) := rfl

/-! ## C01 tensor → matricial form → tensor, second order -/

/-- C01 (full orders): every second-order tensor is recovered. -/
theorem C01_roundtrip_full {n : ℕ} {co : List Comp} (h : CompleteFull n co) (k : Bool)
    {t : Tensor} (ht : t.shape = [n, n]) :
    ∃ m u, getTensorMf t n co k = .ok m ∧ getTensorFromMf m n co k = .ok u ∧ SameTensor u t := by
  obtain ⟨m, h1, h2, h3⟩ := getTensorMf_two h.toValidPairs (kelvinFlag_full h k) ht
  obtain ⟨u, h4, h5, h6⟩ := getTensorFromMf_full (k := k) h h2
  refine ⟨m, u, h1, h4, same_two h5 ht ?_⟩
  intro i hi j hj
  obtain ⟨c, hc, rfl, rfl⟩ := h.exists_rep hi hj
  rw [h6 c hc, h3 c hc]
  simp [kFactor]

/-- C01 (symmetric orders, Kelvin notation): every symmetric tensor is recovered. -/
theorem C01_roundtrip_sym {n : ℕ} {co : List Comp} (h : CompleteSym n co)
    {t : Tensor} (ht : IsSym2 n t) :
    ∃ m u, getTensorMf t n co = .ok m ∧ getTensorFromMf m n co = .ok u ∧ SameTensor u t := by
  obtain ⟨k', hk, hk'⟩ := kelvinFlag_sym h true
  obtain ⟨m, h1, h2, h3⟩ := getTensorMf_two h.toValidPairs hk ht.1
  obtain ⟨u, h4, h5, h6⟩ := getTensorFromMf_sym' h h2
  refine ⟨m, u, h1, h4, same_two h5 ht.1 ?_⟩
  intro i hi j hj
  obtain ⟨c, hc, hr⟩ := h.exists_rep hi hj
  rw [h6 c hc i j hr, h3 c hc, kFactor_congr (hk' c hc), ← mul_assoc,
    one_div_mul_cancel (kFactor_pos true c).ne', one_mul]
  rcases hr with ⟨rfl, rfl⟩ | ⟨rfl, rfl⟩
  · rfl
  · exact ht.2 _ hj _ hi

/-- Non-vacuity: a symmetric 3D tensor and an order with a transposed label. -/
example : CompleteSym 3 sym3d ∧ IsSym2 3 ⟨[3, 3], fun i => (i.sum : ℝ)⟩ :=
  ⟨sym3d_complete, rfl, fun i _ j _ => by simp [add_comm]⟩

example : CompleteFull 2 nsym2d ∧ (⟨[2, 2], fun i => (i.getD 0 0 : ℝ)⟩ : Tensor).shape = [2, 2] :=
  ⟨nsym2d_complete, rfl⟩

/-- Outside Kelvin notation (`is_kelvin_notation=False`) the loop version does not
write the transposed entries: a symmetric tensor is *not* recovered. -/
theorem C01_nokelvin_violated : ∃ t m u, IsSym2 2 t ∧
    getTensorMf t 2 sym2d false = .ok m ∧ getTensorFromMf m 2 sym2d false = .ok u ∧
    ¬ SameTensor u t := by
  have hk : kelvinFlag 2 sym2d false = .ok false := by decide
  let t : Tensor := ⟨[2, 2], fun _ => 1⟩
  obtain ⟨m, h1, h2, h3⟩ := getTensorMf_two sym2d_complete.toValidPairs hk (t := t) rfl
  obtain ⟨u, h4, h5, h6⟩ := getTensorFromMf_two sym2d_complete.toValidPairs hk h2
  refine ⟨t, m, u, ⟨rfl, fun _ _ _ _ => rfl⟩, h1, h4, ?_⟩
  rintro ⟨-, hs⟩
  have := hs [1, 0] (by rw [h5]; exact .cons (by norm_num) (.cons (by norm_num) .nil))
  rw [h6, Tensor.writes_other] at this
  · simp [Tensor.zeros, t] at this
  · intro w hw
    obtain ⟨c, hc, hw⟩ := List.mem_flatMap.1 hw
    have := (mem_fromMfWrites hw).2
    simp [sym2d] at hc
    rcases hc with rfl | rfl | rfl <;> simp [Comp.i, Comp.j] at this <;> simp [this]

/-! ## C02 matricial form → tensor → matricial form -/

/-- C02 (full orders). -/
theorem C02_roundtrip_full {n : ℕ} {co : List Comp} (h : CompleteFull n co) (k : Bool)
    {m : Tensor} (hm : m.shape = [co.length]) :
    ∃ t m', getTensorFromMf m n co k = .ok t ∧ getTensorMf t n co k = .ok m' ∧ SameTensor m' m := by
  obtain ⟨t, h1, h2, h3⟩ := getTensorFromMf_full (k := k) h hm
  obtain ⟨m', h4, h5, h6⟩ := getTensorMf_two h.toValidPairs (kelvinFlag_full h k) h2
  refine ⟨t, m', h1, h4, same_mf h.nodup h5 hm ?_⟩
  intro c hc
  rw [h6 c hc, h3 c hc]
  simp [kFactor]

/-- C02 (symmetric orders), with and without Kelvin notation. -/
theorem C02_roundtrip_sym {n : ℕ} {co : List Comp} (h : CompleteSym n co) (k : Bool)
    {m : Tensor} (hm : m.shape = [co.length]) :
    ∃ t m', getTensorFromMf m n co k = .ok t ∧ getTensorMf t n co k = .ok m' ∧ SameTensor m' m := by
  obtain ⟨k', hk, hk'⟩ := kelvinFlag_sym h k
  cases k with
  | true =>
    obtain ⟨t, h1, h2, h3⟩ := getTensorFromMf_sym' h hm
    obtain ⟨m', h4, h5, h6⟩ := getTensorMf_two h.toValidPairs hk h2
    refine ⟨t, m', h1, h4, same_mf h.nodup h5 hm ?_⟩
    intro c hc
    rw [h6 c hc, h3 c hc _ _ (Or.inl ⟨rfl, rfl⟩), kFactor_congr (hk' c hc), ← mul_assoc,
      mul_one_div_cancel (kFactor_pos true c).ne', one_mul]
  | false =>
    obtain ⟨t, h1, h2, h3⟩ := getTensorFromMf_two h.toValidPairs hk hm
    obtain ⟨m', h4, h5, h6⟩ := getTensorMf_two h.toValidPairs hk h2
    refine ⟨t, m', h1, h4, same_mf h.nodup h5 hm ?_⟩
    intro c hc
    rw [h6 c hc, kFactor_congr (hk' c hc)]
    have : t.val [c.i, c.j] = m.val [co.idxOf c] := by
      rw [h3]
      apply Tensor.writes_val
      · intro w hw e
        obtain ⟨d, hd, hw⟩ := List.mem_flatMap.1 hw
        obtain ⟨hv, hi⟩ := mem_fromMfWrites hw
        rw [kFactor_congr (hk' d hd)] at hv
        rcases hi with hi | ⟨-, ht, hne⟩
        · rw [e] at hi
          simp at hi
          rw [h.toValidPairs.ext hc hd hi.1 hi.2, hv]
          simp [kFactor]
        · have := hk' d hd hne; simp [ht] at this
      · exact ⟨([c.i, c.j], (1 / kFactor k' c) * m.val [co.idxOf c]),
          List.mem_flatMap.2 ⟨c, hc, by simp [fromMfWrites]⟩, rfl⟩
    rw [this]; simp [kFactor]

example : CompleteSym 3 sym3d ∧ (⟨[6], fun i => (i.sum : ℝ)⟩ : Tensor).shape = [sym3d.length] :=
  ⟨sym3d_complete, rfl⟩

/-! ## C03 fourth-order tensors -/

/-- C03 (full orders). -/
theorem C03_roundtrip_full {n : ℕ} {co : List Comp} (h : CompleteFull n co) (k : Bool)
    {t : Tensor} (ht : t.shape = [n, n, n, n]) :
    ∃ m u, getTensorMf t n co k = .ok m ∧ getTensorFromMf m n co k = .ok u ∧ SameTensor u t := by
  obtain ⟨m, h1, h2, h3⟩ := getTensorMf_four h.toValidPairs (kelvinFlag_full h k) ht
  obtain ⟨u, h4, h5, h6⟩ := getTensorFromMf_full4 (k := k) h h2
  refine ⟨m, u, h1, h4, same_four h5 ht ?_⟩
  intro i hi j hj p hp q hq
  obtain ⟨a, ha, rfl, rfl⟩ := h.exists_rep hi hj
  obtain ⟨b, hb, rfl, rfl⟩ := h.exists_rep hp hq
  rw [h6 a ha b hb, h3 a ha b hb]
  simp [kFactor]

/-- C03 (symmetric orders, Kelvin notation): every tensor with both minor symmetries. -/
theorem C03_roundtrip_sym {n : ℕ} {co : List Comp} (h : CompleteSym n co)
    {t : Tensor} (ht : IsMinorSym4 n t) :
    ∃ m u, getTensorMf t n co = .ok m ∧ getTensorFromMf m n co = .ok u ∧ SameTensor u t := by
  obtain ⟨k', hk, hk'⟩ := kelvinFlag_sym h true
  obtain ⟨m, h1, h2, h3⟩ := getTensorMf_four h.toValidPairs hk ht.1
  obtain ⟨u, h4, h5, h6⟩ := getTensorFromMf_sym4 h h2
  refine ⟨m, u, h1, h4, same_four h5 ht.1 ?_⟩
  intro i hi j hj p hp q hq
  obtain ⟨a, ha, hr⟩ := h.exists_rep hi hj
  obtain ⟨b, hb, hs⟩ := h.exists_rep hp hq
  rw [h6 a ha b hb i j p q hr hs, h3 a ha b hb, kFactor_congr (hk' a ha), kFactor_congr (hk' b hb),
    ← mul_assoc, one_div_mul_cancel (mul_pos (kFactor_pos true a) (kFactor_pos true b)).ne',
    one_mul]
  rcases hr with ⟨rfl, rfl⟩ | ⟨rfl, rfl⟩ <;> rcases hs with ⟨rfl, rfl⟩ | ⟨rfl, rfl⟩
  · rfl
  · exact (ht.2 _ hi _ hj _ hq _ hp).2
  · exact (ht.2 _ hj _ hi _ hp _ hq).1
  · exact (ht.2 _ hj _ hi _ hq _ hp).1.trans (ht.2 _ hi _ hj _ hq _ hp).2

/-- C03, other direction: every square matricial form is recovered. -/
theorem C03_mf_roundtrip_sym {n : ℕ} {co : List Comp} (h : CompleteSym n co)
    {m : Tensor} (hm : m.shape = [co.length, co.length]) :
    ∃ t m', getTensorFromMf m n co = .ok t ∧ getTensorMf t n co = .ok m' ∧ SameTensor m' m := by
  obtain ⟨k', hk, hk'⟩ := kelvinFlag_sym h true
  obtain ⟨t, h1, h2, h3⟩ := getTensorFromMf_sym4 h hm
  obtain ⟨m', h4, h5, h6⟩ := getTensorMf_four h.toValidPairs hk h2
  refine ⟨t, m', h1, h4, same_mf2 h.nodup h5 hm ?_⟩
  intro a ha b hb
  rw [h6 a ha b hb, h3 a ha b hb _ _ _ _ (Or.inl ⟨rfl, rfl⟩) (Or.inl ⟨rfl, rfl⟩),
    kFactor_congr (hk' a ha), kFactor_congr (hk' b hb), ← mul_assoc,
    mul_one_div_cancel (mul_pos (kFactor_pos true a) (kFactor_pos true b)).ne', one_mul]

example : CompleteSym 3 sym3d ∧ IsMinorSym4 3 ⟨[3, 3, 3, 3], fun i =>
    ((i.getD 0 0 + i.getD 1 0) * (i.getD 2 0 + i.getD 3 0) : ℝ)⟩ :=
  ⟨sym3d_complete, rfl, fun i _ j _ k _ l _ => by
    constructor <;> simp [add_comm]⟩

/-! ## C04 inner product and fourth:second contraction -/

/-- C04a: the dot product of the matricial forms of two symmetric tensors is their
double contraction. -/
theorem C04_inner_product {n : ℕ} {co : List Comp} (h : CompleteSym n co) {a b ma mb : Tensor}
    (ha : IsSym2 n a) (hb : IsSym2 n b) (hma : getTensorMf a n co = .ok ma)
    (hmb : getTensorMf b n co = .ok mb) :
    ∑ k ∈ Finset.range co.length, ma.val [k] * mb.val [k] =
      ∑ i ∈ Finset.range n, ∑ j ∈ Finset.range n, a.val [i, j] * b.val [i, j] := by
  obtain ⟨k', hk, hk'⟩ := kelvinFlag_sym h true
  obtain ⟨m, h1, h2, h3⟩ := getTensorMf_two h.toValidPairs hk ha.1
  obtain ⟨m', h4, h5, h6⟩ := getTensorMf_two h.toValidPairs hk hb.1
  obtain rfl : m = ma := by rw [h1] at hma; simpa using hma
  obtain rfl : m' = mb := by rw [h4] at hmb; simpa using hmb
  rw [sum_range_eq_map h.nodup, sum_pairs_sym h]
  · congr 1
    apply List.map_congr_left
    intro c hc
    rw [h3 c hc, h6 c hc, kFactor_congr (hk' c hc), ← kFactor_sq]
    ring
  · intro i hi j hj
    rw [ha.2 i hi j hj, hb.2 i hi j hj]

/-- Double contraction of a fourth- with a second-order tensor (specification). -/
noncomputable def Spec.contract42 (n : ℕ) (c e : Tensor) : Tensor :=
  ⟨[n, n], fun idx => ∑ k ∈ Finset.range n, ∑ l ∈ Finset.range n,
    c.val [idx.getD 0 0, idx.getD 1 0, k, l] * e.val [k, l]⟩

/-- C04b: the matricial form of `C : e` is the matrix form of `C` applied to that of `e`. -/
theorem C04_contraction {n : ℕ} {co : List Comp} (h : CompleteSym n co) {c e mc me mr : Tensor}
    (hc : IsMinorSym4 n c) (he : IsSym2 n e) (hmc : getTensorMf c n co = .ok mc)
    (hme : getTensorMf e n co = .ok me)
    (hmr : getTensorMf (contract42 n c e) n co = .ok mr) :
    ∀ k < co.length, mr.val [k] =
      ∑ l ∈ Finset.range co.length, mc.val [k, l] * me.val [l] := by
  obtain ⟨k', hk, hk'⟩ := kelvinFlag_sym h true
  obtain ⟨m, h1, h2, h3⟩ := getTensorMf_four h.toValidPairs hk hc.1
  obtain ⟨m', h4, h5, h6⟩ := getTensorMf_two h.toValidPairs hk he.1
  obtain ⟨m'', h7, h8, h9⟩ := getTensorMf_two h.toValidPairs hk (t := contract42 n c e) rfl
  obtain rfl : m = mc := by rw [h1] at hmc; simpa using hmc
  obtain rfl : m' = me := by rw [h4] at hme; simpa using hme
  obtain rfl : m'' = mr := by rw [h7] at hmr; simpa using hmr
  intro k hkl
  obtain ⟨a, ha, rfl⟩ := pos_of_lt h.nodup hkl
  have hab := h.toValidPairs.ij ha
  rw [h9 a ha, sum_range_eq_map h.nodup]
  simp only [contract42, List.getD_cons_zero, List.getD_cons_succ]
  rw [sum_pairs_sym h, ← List.sum_map_mul_left]
  · congr 1
    apply List.map_congr_left
    intro b hb
    rw [h3 a ha b hb, h6 b hb, ← kFactor_sq, kFactor_congr (hk' b hb)]
    ring
  · intro i hi j hj
    rw [(hc.2 _ hab.1 _ hab.2.1 i hi j hj).2, he.2 i hi j hj]

example : ∃ ma, getTensorMf ⟨[3, 3], fun i => (i.sum : ℝ)⟩ 3 sym3d = .ok ma := by
  obtain ⟨m, u, h, -, -⟩ := C01_roundtrip_sym sym3d_complete
    (t := ⟨[3, 3], fun i => (i.sum : ℝ)⟩) ⟨rfl, fun i _ j _ => by simp [add_comm]⟩
  exact ⟨m, h⟩

/-! ## C05 vectorised conversions -/

/-- C05a: `vget_tensor_mf` returns what `get_tensor_mf` returns (second order). -/
theorem C05_vget_tensor_mf {n : ℕ} {co : List Comp} (h : CompleteSym n co ∨ CompleteFull n co)
    (k : Bool) {t : Tensor} (ht : t.shape = [n, n] ∨ t.shape = [n, n, n, n]) :
    ∃ m m', getTensorMf t n co k = .ok m ∧ vgetTensorMf t n co k = .ok m' ∧ SameTensor m m' := by
  have hv : ValidPairs n co := by rcases h with h | h <;> exact h.toValidPairs
  obtain ⟨k', hk⟩ : ∃ k', kelvinFlag n co k = .ok k' := by
    rcases h with h | h
    · obtain ⟨k', hk, -⟩ := kelvinFlag_sym h k; exact ⟨k', hk⟩
    · exact ⟨_, kelvinFlag_full h k⟩
  rcases ht with ht | ht
  · obtain ⟨m, h1, h2, h3⟩ := getTensorMf_two hv hk ht
    obtain ⟨m', h4, h5, h6⟩ := vgetTensorMf_two hv hk ht
    exact ⟨m, m', h1, h4, same_mf hv.nodup h2 h5 fun c hc => by rw [h3 c hc, h6 c hc]⟩
  · obtain ⟨m, h1, h2, h3⟩ := getTensorMf_four hv hk ht
    obtain ⟨m', h4, h5, h6⟩ := vgetTensorMf_four hv hk ht
    exact ⟨m, m', h1, h4, same_mf2 hv.nodup h2 h5
      fun a ha b hb => by rw [h3 a ha b hb, h6 a ha b hb]⟩

/-- C05b (partial): `vget_tensor_from_mf` returns what `get_tensor_from_mf` returns, for
full orders and for symmetric orders in Kelvin notation.  Missing: symmetric orders with
`is_kelvin_notation=False`, for which it is false (`C05_nokelvin_violated`). -/
theorem C05_vget_tensor_from_mf_partial {n : ℕ} {co : List Comp} {k : Bool}
    (h : (CompleteSym n co ∧ k = true) ∨ CompleteFull n co)
    {m : Tensor} (hm : m.shape = [co.length] ∨ m.shape = [co.length, co.length]) :
    ∃ t t', getTensorFromMf m n co k = .ok t ∧ vgetTensorFromMf m n co k = .ok t' ∧
      SameTensor t t' := by
  rcases h with ⟨h, rfl⟩ | h <;> rcases hm with hm | hm
  · obtain ⟨t, h1, h2, h3⟩ := getTensorFromMf_sym' h hm
    obtain ⟨t', h4, h5, h6⟩ := vgetTensorFromMf_sym h true hm
    refine ⟨t, t', h1, h4, same_two h2 h5 ?_⟩
    intro i hi j hj
    obtain ⟨c, hc, hr⟩ := h.exists_rep hi hj
    rw [h3 c hc i j hr, h6 c hc i j hr]
  · obtain ⟨t, h1, h2, h3⟩ := getTensorFromMf_sym4 h hm
    obtain ⟨t', h4, h5, h6⟩ := vgetTensorFromMf_sym4 h true hm
    refine ⟨t, t', h1, h4, same_four h2 h5 ?_⟩
    intro i hi j hj p hp q hq
    obtain ⟨a, ha, hr⟩ := h.exists_rep hi hj
    obtain ⟨b, hb, hs⟩ := h.exists_rep hp hq
    rw [h3 a ha b hb _ _ _ _ hr hs, h6 a ha b hb _ _ _ _ hr hs]
  · obtain ⟨t, h1, h2, h3⟩ := getTensorFromMf_full (k := k) h hm
    obtain ⟨t', h4, h5, h6⟩ := vgetTensorFromMf_full h k hm
    refine ⟨t, t', h1, h4, same_two h2 h5 ?_⟩
    intro i hi j hj
    obtain ⟨c, hc, rfl, rfl⟩ := h.exists_rep hi hj
    rw [h3 c hc, h6 c hc]
  · obtain ⟨t, h1, h2, h3⟩ := getTensorFromMf_full4 (k := k) h hm
    obtain ⟨t', h4, h5, h6⟩ := vgetTensorFromMf_full4 h k hm
    refine ⟨t, t', h1, h4, same_four h2 h5 ?_⟩
    intro i hi j hj p hp q hq
    obtain ⟨a, ha, rfl, rfl⟩ := h.exists_rep hi hj
    obtain ⟨b, hb, rfl, rfl⟩ := h.exists_rep hp hq
    rw [h3 a ha b hb, h6 a ha b hb]

/-- C05b fails for a symmetric order with `is_kelvin_notation=False`: the loop version leaves
the transposed entry zero, the vectorised one fills it. -/
theorem C05_nokelvin_violated : ∃ m t t', getTensorFromMf m 2 sym2d false = .ok t ∧
    vgetTensorFromMf m 2 sym2d false = .ok t' ∧ ¬ SameTensor t t' := by
  have hk : kelvinFlag 2 sym2d false = .ok false := by decide
  let m : Tensor := ⟨[3], fun _ => 1⟩
  obtain ⟨u, h4, h5, h6⟩ := getTensorFromMf_two sym2d_complete.toValidPairs hk (m := m) rfl
  obtain ⟨t', h7, h8, h9⟩ := vgetTensorFromMf_sym sym2d_complete false (m := m) rfl
  refine ⟨m, u, t', h4, h7, ?_⟩
  rintro ⟨-, hs⟩
  have := hs [1, 0] (by rw [h5]; exact .cons (by norm_num) (.cons (by norm_num) .nil))
  rw [h9 [1, 2] (by simp [sym2d]) 1 0 (Or.inr (by simp [Comp.i, Comp.j])), h6,
    Tensor.writes_other] at this
  · simp [Tensor.zeros, m, kFactor] at this
  · intro w hw
    obtain ⟨c, hc, hw⟩ := List.mem_flatMap.1 hw
    have := (mem_fromMfWrites hw).2
    simp [sym2d] at hc
    rcases hc with rfl | rfl | rfl <;> simp [Comp.i, Comp.j] at this <;> simp [this]

/-! ## C06 input validation -/

/-- C06a: `get_tensor_mf` fails exactly on the malformed requests, and then with
`RuntimeError`. -/
theorem C06_rejects_exactly_malformed (t : Tensor) (n : ℕ) (co : List Comp) (k : Bool) :
    (getTensorMf t n co k = .error .runtimeError ↔
      (t.shape.length ≠ 2 ∧ t.shape.length ≠ 4) ∨
      (∃ c ∈ co, ∃ d ∈ c, d < 1 ∨ n < d) ∨
      (∃ d ∈ t.shape, d ≠ n) ∨
      (∃ c ∈ co, c.length ≠ 2) ∨
      ¬ co.Nodup ∨
      (co.length ≠ n ^ 2 ∧ co.length ≠ n * (n + 1) / 2)) ∧
    ∀ e, getTensorMf t n co k = .error e → e = .runtimeError := by
  have hsum : (List.range (n + 1)).sum = n * (n + 1) / 2 := by
    rw [sum_range_eq_choose, Nat.choose_two_right, Nat.add_sub_cancel, mul_comm]
  have hd : badDigit n co = true ↔ ∃ c ∈ co, ∃ d ∈ c, d < 1 ∨ n < d := by
    simp only [badDigit, List.any_eq_true, List.mem_flatten]
    constructor
    · rintro ⟨d, ⟨c, hc, hd⟩, h⟩; simp at h; exact ⟨c, hc, d, hd, by omega⟩
    · rintro ⟨c, hc, d, hd, h⟩; exact ⟨d, ⟨c, hc, hd⟩, by simp; omega⟩
  have hs : t.shape.any (fun d => d ≠ n) = true ↔ ∃ d ∈ t.shape, d ≠ n := by simp
  have hl : badLength co = true ↔ ∃ c ∈ co, c.length ≠ 2 := by simp [badLength]
  have hn : hasDuplicate co = true ↔ ¬ co.Nodup := by
    rw [← hasDuplicate_eq_false]; simp
  rw [← hd, ← hs, ← hl, ← hn, ← hsum]
  clear hd hs hl hn hsum
  unfold getTensorMf kelvinFlag
  generalize t.shape.any (fun d => d ≠ n) = bs
  generalize badDigit n co = bd
  generalize badLength co = bl
  generalize hasDuplicate co = bn
  simp only [bind, Except.bind, throw, throwThe, MonadExceptOf.throw, pure, Except.pure]
  constructor
  · split_ifs <;> simp_all
  · intro e
    split_ifs <;> simp_all

/-- C06b: an accepted order of symmetric length that omits an unordered pair is not
information preserving: two different symmetric tensors have the same matricial form. -/
theorem C06_incomplete_order_loses_information {n : ℕ} {co : List Comp} {k : Bool}
    {a b : ℕ} (ha : 1 ≤ a ∧ a ≤ n) (hb : 1 ≤ b ∧ b ≤ n)
    (hab : [a, b] ∉ co) (hba : [b, a] ∉ co)
    {t m : Tensor} (ht : IsSym2 n t) (hm : getTensorMf t n co k = .ok m) :
    ∃ u m', IsSym2 n u ∧ getTensorMf u n co k = .ok m' ∧ SameTensor m m' ∧
      ¬ SameTensor t u := by
  have hacc : ∀ e, getTensorMf t n co k ≠ .error e := by intro e; rw [hm]; simp
  -- the checks passed
  have h1 : badDigit n co = false ∧ badLength co = false ∧ hasDuplicate co = false ∧
      ∃ k', kelvinFlag n co k = .ok k' := by
    have := hacc
    unfold getTensorMf at this
    simp only [ht.1, bind, Except.bind, throw, throwThe, MonadExceptOf.throw] at this
    cases e1 : badDigit n co <;> cases e2 : badLength co <;> cases e3 : hasDuplicate co <;>
      cases e4 : kelvinFlag n co k <;> simp_all
  obtain ⟨c1, c2, c3, k', hk⟩ := h1
  have hv := validPairs_of_checks c1 c2 c3
  let u : Tensor := ⟨[n, n], fun idx => t.val idx +
    if idx = [a - 1, b - 1] ∨ idx = [b - 1, a - 1] then 1 else 0⟩
  have hu : IsSym2 n u := by
    refine ⟨rfl, ?_⟩
    intro i hi j hj
    simp only [u, ht.2 i hi j hj]
    congr 1
    have : ([i, j] = [a - 1, b - 1] ∨ [i, j] = [b - 1, a - 1]) ↔
        ([j, i] = [a - 1, b - 1] ∨ [j, i] = [b - 1, a - 1]) := by simp; tauto
    simp only [this]
  obtain ⟨m1, h2, h3, h4⟩ := getTensorMf_two hv hk ht.1
  obtain ⟨m2, h5, h6, h7⟩ := getTensorMf_two hv hk hu.1
  obtain rfl : m1 = m := by rw [h2] at hm; simpa using hm
  refine ⟨u, m2, hu, h5, same_mf hv.nodup h3 h6 ?_, ?_⟩
  · intro c hc
    rw [h4 c hc, h7 c hc]
    have e := (hv.ij hc).2.2
    have n1 : ¬ (c.i = a - 1 ∧ c.j = b - 1) := by
      rintro ⟨h1, h2⟩; apply hab; rw [e, h1, h2, Nat.sub_add_cancel ha.1, Nat.sub_add_cancel hb.1] at hc
      exact hc
    have n2 : ¬ (c.i = b - 1 ∧ c.j = a - 1) := by
      rintro ⟨h1, h2⟩; apply hba; rw [e, h1, h2, Nat.sub_add_cancel ha.1, Nat.sub_add_cancel hb.1] at hc
      exact hc
    simp [u, n1, n2]
  · rintro ⟨-, hs⟩
    have := hs [a - 1, b - 1] (by rw [ht.1]; exact .cons (by omega) (.cons (by omega) .nil))
    simp [u] at this

/-- Such an order exists and is accepted: `('11', '12', '21')` in 2D. -/
example : ∃ m, getTensorMf ⟨[2, 2], fun _ => 1⟩ 2 [[1,1],[1,2],[2,1]] = .ok m ∧
    [2, 2] ∉ ([[1,1],[1,2],[2,1]] : List Comp) := by
  have hv : ValidPairs 2 ([[1,1],[1,2],[2,1]] : List Comp) :=
    validPairs_of_checks (by decide) (by decide) (by decide)
  have hk : kelvinFlag 2 ([[1,1],[1,2],[2,1]] : List Comp) true = .ok true := by decide
  obtain ⟨m, h, -⟩ := getTensorMf_two hv hk (t := ⟨[2, 2], fun _ => 1⟩) rfl
  exact ⟨m, h, by decide⟩

end Hooke
