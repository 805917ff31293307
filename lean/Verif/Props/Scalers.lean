import Verif.Lemmas.Py
import Verif.Lemmas.Scalers
import Mathlib.Tactic.FinCases
import Mathlib.Data.Fin.VecNotation

/-! # C38, C39: data scalers -/

namespace Hooke

noncomputable section

variable {n : ℕ}

/-! ## C38 -/

theorem minMaxEntry_fin {lo hi a b : ℝ} (h : a ≠ b) (x : ℝ) :
    minMaxEntry lo hi (Fl.fin a) (Fl.fin b) (Fl.fin x) =
      Fl.fin (lo + (hi - lo) / (b - a) * (x - a)) := by
  have : b - a ≠ 0 := sub_ne_zero.mpr h.symm
  simp only [minMaxEntry, Fl.sub_fin, Fl.div_fin this, Fl.mul_fin, Fl.add_fin]

theorem minMax_transform {s : MinMaxScaler n} {a b : Fin n → ℝ}
    (ha : s.minimum = some fun j => Fl.fin (a j)) (hb : s.maximum = some fun j => Fl.fin (b j))
    (hab : ∀ j, a j ≠ b j) (t : FT ℝ n) (c : Bool) :
    s.transform t.arg c = .ok
      (t.mapF fun j x => s.normMin + (s.normMax - s.normMin) / (b j - a j) * (x - a j)).fl := by
  have h := fl_mapF (fun j v => minMaxEntry s.normMin s.normMax (Fl.fin (a j)) (Fl.fin (b j)) v)
    (fun j x => s.normMin + (s.normMax - s.normMin) / (b j - a j) * (x - a j)) t
    (fun j x => minMaxEntry_fin (hab j) x)
  simp [MinMaxScaler.transform, FT.arg, ha, hb, orRaise, onRows_eq, h, raiseIf, fl_no_nan, bind,
    Except.bind, pure, Except.pure]

/-- C38a: for a min-max scaler whose feature ranges and normalised range are nonzero, transforming
finite data never fails and `inverse_transform` returns the original data, for two- and
three-dimensional tensors alike. -/
theorem C38_minmax_inverse {s : MinMaxScaler n} {a b : Fin n → ℝ}
    (ha : s.minimum = some fun j => Fl.fin (a j)) (hb : s.maximum = some fun j => Fl.fin (b j))
    (hab : ∀ j, a j ≠ b j) (hn : s.normMin ≠ s.normMax) (t : FT ℝ n) (check : Bool) :
    ∃ y, s.transform t.arg check = .ok y ∧ s.inverse (.feat n y) = .ok t.fl := by
  refine ⟨_, minMax_transform ha hb hab t check, ?_⟩
  have hd : s.normMax - s.normMin ≠ 0 := sub_ne_zero.mpr hn.symm
  simp only [MinMaxScaler.inverse, checkTensor_feat, ha, hb, orRaise, onRows_eq, bind, Except.bind,
    pure, Except.pure]
  rw [fl_mapF _ (fun j x => a j + (b j - a j) / (s.normMax - s.normMin) * (x - s.normMin)),
    mapF_mapF]
  · congr 2
    rw [← mapF_id t]
    simp only [mapF_mapF]
    congr 1
    funext j x
    have hj : b j - a j ≠ 0 := sub_ne_zero.mpr (hab j).symm
    field_simp
    ring
  · intro j x
    simp only [minMaxInvEntry, Fl.sub_fin, Fl.div_fin hd, Fl.mul_fin, Fl.add_fin]

/-- C38b: the other way around, transforming inverse-transformed data returns the data. -/
theorem C38_minmax_inverse_right {s : MinMaxScaler n} {a b : Fin n → ℝ}
    (ha : s.minimum = some fun j => Fl.fin (a j)) (hb : s.maximum = some fun j => Fl.fin (b j))
    (hab : ∀ j, a j ≠ b j) (hn : s.normMin ≠ s.normMax) (t : FT ℝ n) (check : Bool) :
    ∃ y, s.inverse t.arg = .ok y ∧ s.transform (.feat n y) check = .ok t.fl := by
  have hd : s.normMax - s.normMin ≠ 0 := sub_ne_zero.mpr hn.symm
  refine ⟨(t.mapF fun j x => a j + (b j - a j) / (s.normMax - s.normMin) * (x - s.normMin)).fl,
    ?_, ?_⟩
  · simp only [MinMaxScaler.inverse, FT.arg, checkTensor_feat, ha, hb, orRaise, onRows_eq, bind,
      Except.bind, pure, Except.pure]
    rw [fl_mapF]
    intro j x
    simp only [minMaxInvEntry, Fl.sub_fin, Fl.div_fin hd, Fl.mul_fin, Fl.add_fin]
  · have := minMax_transform ha hb hab
      (t.mapF fun j x => a j + (b j - a j) / (s.normMax - s.normMin) * (x - s.normMin)) check
    rw [FT.arg] at this
    rw [this, mapF_mapF]
    congr 2
    rw [← mapF_id t]
    simp only [mapF_mapF]
    congr 1
    funext j x
    have hj : b j - a j ≠ 0 := sub_ne_zero.mpr (hab j).symm
    field_simp
    ring

/-- C38c: a feature with zero range (e.g. constant training data) is destroyed by min-max scaling:
every transformed value is infinite or NaN, and it is NaN for the training value itself. -/
theorem C38_minmax_zero_range {lo hi a : ℝ} (h : lo ≠ hi) (x : ℝ) :
    (∀ r, minMaxEntry lo hi (Fl.fin a) (Fl.fin a) (Fl.fin x) ≠ Fl.fin r) ∧
      (x = a → (minMaxEntry lo hi (Fl.fin a) (Fl.fin a) (Fl.fin x)).IsNan) := by
  have hd : hi - lo ≠ 0 := sub_ne_zero.mpr h.symm
  simp only [minMaxEntry, Fl.sub_fin, sub_self, Fl.div, if_true, if_neg hd, Fl.mul]
  by_cases hx : x - a = 0
  · simp [hx, Fl.add, Fl.IsNan]
  · rw [if_neg hx]
    refine ⟨fun r => by simp [Fl.infTimes, Fl.add], fun h => absurd (sub_eq_zero.mpr h) hx⟩

theorem std_entry {std : ℝ} (h : 0 ≤ std) (mean x : ℝ) :
    stdEntry (Fl.fin mean) (Fl.fin std) (Fl.fin x) =
      Fl.fin (if std = 0 then x - mean else (x - mean) / std) := by
  unfold stdEntry
  by_cases h0 : std = 0
  · simp [h0]
  · simp [h0, Fl.div_fin h0]

theorem std_transform {s : StandardScaler n} {mean std : Fin n → ℝ}
    (hm : s.mean = some fun j => Fl.fin (mean j)) (hs : s.std = some fun j => Fl.fin (std j))
    (h0 : ∀ j, 0 ≤ std j) (t : FT ℝ n) (c : Bool) :
    s.transform t.arg c = .ok
      (t.mapF fun j x => if std j = 0 then x - mean j else (x - mean j) / std j).fl := by
  have h := fl_mapF (fun j v => stdEntry (Fl.fin (mean j)) (Fl.fin (std j)) v)
    (fun j x => if std j = 0 then x - mean j else (x - mean j) / std j) t
    (fun j x => std_entry (h0 j) _ x)
  simp only [StandardScaler.transform, FT.arg, checkTensor_feat, hm, hs, orRaise, onRows_eq, h,
    raiseIf, bind, Except.bind, pure, Except.pure, fl_no_nan, and_false, if_false]

theorem std_inverse {s : StandardScaler n} {mean std : Fin n → ℝ}
    (hm : s.mean = some fun j => Fl.fin (mean j)) (hs : s.std = some fun j => Fl.fin (std j))
    (t : FT ℝ n) : s.inverse t.arg = .ok (t.mapF fun j x => x * std j + mean j).fl := by
  simp only [StandardScaler.inverse, FT.arg, checkTensor_feat, hm, hs, orRaise, onRows_eq, bind,
    Except.bind, pure, Except.pure]
  rw [fl_mapF]
  intro j x
  simp

/-- C38d: for a standard scaler, `inverse_transform (transform x)` replaces the values of every
feature with zero deviation by the mean and keeps all the others. -/
theorem C38_standard_round_trip {s : StandardScaler n} {mean std : Fin n → ℝ}
    (hm : s.mean = some fun j => Fl.fin (mean j)) (hs : s.std = some fun j => Fl.fin (std j))
    (h0 : ∀ j, 0 ≤ std j) (t : FT ℝ n) (check : Bool) :
    ∃ y, s.transform t.arg check = .ok y ∧
      s.inverse (.feat n y) = .ok (t.mapF fun j x => if std j = 0 then mean j else x).fl := by
  refine ⟨_, std_transform hm hs h0 t check, ?_⟩
  have := std_inverse hm hs (t.mapF fun j x => if std j = 0 then x - mean j else (x - mean j) / std j)
  rw [FT.arg] at this
  rw [this, mapF_mapF]
  congr 3
  funext j x
  by_cases h : std j = 0
  · simp [h]
  · simp only [h, if_false]; field_simp; ring

/-- C38e: for a standard scaler with positive deviations `inverse_transform (transform x) = x`. -/
theorem C38_standard_inverse {s : StandardScaler n} {mean std : Fin n → ℝ}
    (hm : s.mean = some fun j => Fl.fin (mean j)) (hs : s.std = some fun j => Fl.fin (std j))
    (h0 : ∀ j, 0 < std j) (t : FT ℝ n) (check : Bool) :
    ∃ y, s.transform t.arg check = .ok y ∧ s.inverse (.feat n y) = .ok t.fl := by
  obtain ⟨y, h1, h2⟩ := C38_standard_round_trip hm hs (fun j => (h0 j).le) t check
  refine ⟨y, h1, h2.trans ?_⟩
  congr 2
  conv_rhs => rw [← mapF_id t]
  congr 1
  funext j x
  rw [if_neg (h0 j).ne']

/-- C38f: the round trip of a standard scaler is exact only if every value of a feature with zero
deviation is the mean: otherwise the data are lost. -/
theorem C38_standard_lossy_iff {s : StandardScaler n} {mean std : Fin n → ℝ}
    (hm : s.mean = some fun j => Fl.fin (mean j)) (hs : s.std = some fun j => Fl.fin (std j))
    (h0 : ∀ j, 0 ≤ std j) (t : FT ℝ n) (check : Bool) {y : FT Fl n}
    (hy : s.transform t.arg check = .ok y) :
    s.inverse (.feat n y) = .ok t.fl ↔ ∀ j, std j = 0 → ∀ v, t.Has j v → v = mean j := by
  obtain ⟨y', h1, h2⟩ := C38_standard_round_trip hm hs h0 t check
  rw [hy] at h1
  obtain rfl := Except.ok.inj h1
  rw [h2]
  constructor
  · intro h j hj v hv
    have h := Except.ok.inj h
    cases t with
    | d2 m x =>
      obtain ⟨i, rfl⟩ := hv
      simp only [FT.fl, FT.mapF, FT.d2.injEq, heq_eq_eq, true_and] at h
      have := congrFun (congrFun h i) j
      simpa [hj] using this.symm
    | d3 l m x =>
      obtain ⟨k, i, rfl⟩ := hv
      simp only [FT.fl, FT.mapF, FT.d3.injEq, heq_eq_eq, true_and] at h
      have := congrFun (congrFun (congrFun h k) i) j
      simpa [hj] using this.symm
  · intro h
    cases t with
    | d2 m x =>
      simp only [FT.fl, FT.mapF]
      congr 2
      funext i j
      by_cases hj : std j = 0
      · simp [hj, h j hj (x i j) ⟨i, rfl⟩]
      · simp [hj]
    | d3 l m x =>
      simp only [FT.fl, FT.mapF]
      congr 2
      funext k i j
      by_cases hj : std j = 0
      · simp [hj, h j hj (x k i j) ⟨k, i, rfl⟩]
      · simp [hj]

/-- C38g: a tensor with the wrong number of features or of dimensions raises RuntimeError, in every
scaler operation. -/
theorem C38_wrong_shape {s : MinMaxScaler n} {s' : StandardScaler n} {t : AnyTensor Fl}
    (ht : ∀ t', t ≠ .feat n t') (check : Bool) :
    s.transform t check = .error .runtimeError ∧ s.inverse t = .error .runtimeError ∧
      s.fit t = .error .runtimeError ∧ s'.transform t check = .error .runtimeError ∧
      s'.inverse t = .error .runtimeError ∧ s'.fit t check = .error .runtimeError := by
  have h : checkTensor n t = .error .runtimeError := by
    cases t with
    | feat k t =>
      by_cases hk : k = n
      · subst hk; exact absurd rfl (ht t)
      · simp [checkTensor, hk]
    | otherDim => rfl
    | notTensor => rfl
  simp [MinMaxScaler.transform, MinMaxScaler.inverse, MinMaxScaler.fit, StandardScaler.transform,
    StandardScaler.inverse, StandardScaler.fit, h, bind, Except.bind]

/-! ## C39 -/

theorem col_ne_nil {t : FT ℝ n} (h : 0 < t.count) (j : Fin n) : t.col j ≠ [] := by
  intro h'
  have := col_length t j
  rw [h'] at this
  simp at this
  omega

theorem fitRows_nil {t : FT ℝ n} : fitRows t.fl = [] ↔ t.count = 0 := by
  cases t <;> simp [fitRows, FT.fl, FT.mapF, FT.count, ← List.length_eq_zero_iff]

theorem minMax_fit (s : MinMaxScaler n) {t : FT ℝ n} (hc : 0 < t.count) :
    ∃ (s' : MinMaxScaler n) (a b : Fin n → ℝ), s.fit t.arg = .ok s' ∧
      s'.normMin = s.normMin ∧ s'.normMax = s.normMax ∧
      s'.minimum = some (fun j => Fl.fin (a j)) ∧ s'.maximum = some (fun j => Fl.fin (b j)) ∧
      ∀ j, t.Has j (a j) ∧ t.Has j (b j) ∧ ∀ v, t.Has j v → a j ≤ v ∧ v ≤ b j := by
  have h1 : ∀ j, ∃ a, colMin (column (fitRows t.fl) j) = some (Fl.fin a) ∧ t.Has j a ∧
      ∀ v, t.Has j v → a ≤ v := by
    intro j
    obtain ⟨a, h, hm, hl⟩ := colMin_fin (col_ne_nil hc j)
    refine ⟨a, by rw [column_fl, h], (mem_col t j a).mp hm, fun v hv => hl v ((mem_col t j v).mpr hv)⟩
  have h2 : ∀ j, ∃ a, colMax (column (fitRows t.fl) j) = some (Fl.fin a) ∧ t.Has j a ∧
      ∀ v, t.Has j v → v ≤ a := by
    intro j
    obtain ⟨a, h, hm, hl⟩ := colMax_fin (col_ne_nil hc j)
    refine ⟨a, by rw [column_fl, h], (mem_col t j a).mp hm, fun v hv => hl v ((mem_col t j v).mpr hv)⟩
  choose a ha using h1
  choose b hb using h2
  have hne : fitRows t.fl ≠ [] := by rw [Ne, fitRows_nil]; omega
  have hfit : s.fit t.arg = .ok { s with
      minimum := some fun j => (colMin (column (fitRows t.fl) j)).getD .nan
      maximum := some fun j => (colMax (column (fitRows t.fl) j)).getD .nan } := by
    simp only [MinMaxScaler.fit, FT.arg, checkTensor_feat, raiseIf, hne, if_false, bind,
      Except.bind, pure, Except.pure]
  refine ⟨_, a, b, hfit, rfl, rfl, ?_, ?_,
    fun j => ⟨(ha j).2.1, (hb j).2.1, fun v hv => ⟨(ha j).2.2 v hv, (hb j).2.2 v hv⟩⟩⟩
  · simp [(ha _).1]
  · simp [(hb _).1]

/-- C39a: after fitting on data all of whose features vary, min-max transformed training data lie
in `[norm_minimum, norm_maximum]` and attain both ends in every feature. -/
theorem C39_minmax (s : MinMaxScaler n) {t : FT ℝ n} (hc : 0 < t.count) (hv : ∀ j, t.Varies j)
    (hn : s.normMin ≤ s.normMax) (check : Bool) :
    ∃ s' y, s.fit t.arg = .ok s' ∧ s'.transform t.arg check = .ok (FT.fl y) ∧
      ∀ j, (∀ v, y.Has j v → s.normMin ≤ v ∧ v ≤ s.normMax) ∧
        y.Has j s.normMin ∧ y.Has j s.normMax := by
  obtain ⟨s', a, b, hf, hl, hh, ha, hb, hj⟩ := minMax_fit s hc
  have hlt : ∀ j, a j < b j := by
    intro j
    obtain ⟨v, w, h1, h2, hne⟩ := hv j
    obtain ⟨-, -, h⟩ := hj j
    obtain ⟨p1, p2⟩ := h v h1
    obtain ⟨q1, q2⟩ := h w h2
    rcases lt_or_gt_of_ne hne with h | h <;> linarith
  refine ⟨s', _, hf, minMax_transform ha hb (fun j => (hlt j).ne) t check, fun j => ?_⟩
  rw [hl, hh]
  obtain ⟨h1, h2, h⟩ := hj j
  have hd : 0 < b j - a j := sub_pos.mpr (hlt j)
  refine ⟨fun v hv => ?_, ?_, ?_⟩
  · obtain ⟨x, hx, rfl⟩ := (has_mapF _ _ _ _).mp hv
    obtain ⟨p1, p2⟩ := h x hx
    have hq : 0 ≤ (s.normMax - s.normMin) / (b j - a j) := div_nonneg (by linarith) hd.le
    constructor
    · nlinarith [mul_nonneg hq (sub_nonneg.mpr p1)]
    · have : (s.normMax - s.normMin) / (b j - a j) * (x - a j) ≤
          (s.normMax - s.normMin) / (b j - a j) * (b j - a j) :=
        mul_le_mul_of_nonneg_left (by linarith) hq
      rw [div_mul_cancel₀ _ hd.ne'] at this
      linarith
  · exact (has_mapF _ _ _ _).mpr ⟨a j, h1, by simp⟩
  · refine (has_mapF _ _ _ _).mpr ⟨b j, h2, ?_⟩
    rw [div_mul_cancel₀ _ hd.ne']; ring

/-- C39b: fitting a min-max scaler to no data raises IndexError. -/
theorem C39_minmax_empty (s : MinMaxScaler n) {t : FT ℝ n} (hc : t.count = 0) :
    s.fit t.arg = .error .indexError := by
  simp [MinMaxScaler.fit, FT.arg, raiseIf, fitRows_nil.mpr hc, bind, Except.bind]

/-- C39c: a training feature which is constant becomes NaN after min-max scaling; with data checking
the scaler raises on its own training data. -/
theorem C39_minmax_constant_violated (s : MinMaxScaler n) {t : FT ℝ n} (hc : 0 < t.count)
    (hn : s.normMin ≠ s.normMax) {j : Fin n} (hv : ¬ t.Varies j) :
    ∃ s' y, s.fit t.arg = .ok s' ∧ s'.transform t.arg false = .ok y ∧
      (∀ v, y.Has j v → v.IsNan) ∧ s'.transform t.arg true = .error .runtimeError := by
  obtain ⟨s', a, b, hf, hl, hh, ha, hb, hj⟩ := minMax_fit s hc
  obtain ⟨h1, h2, h⟩ := hj j
  have heq : ∀ v, t.Has j v → v = a j := by
    intro v hv'
    by_contra hne
    exact hv ⟨v, a j, hv', h1, hne⟩
  have hab : b j = a j := heq _ h2
  have hn' : s'.normMin ≠ s'.normMax := by rw [hl, hh]; exact hn
  refine ⟨s', t.fl.mapF fun j v => minMaxEntry s'.normMin s'.normMax (Fl.fin (a j)) (Fl.fin (b j)) v,
    hf, ?_, ?_, ?_⟩
  · simp [MinMaxScaler.transform, FT.arg, ha, hb, orRaise, onRows_eq, raiseIf, bind,
      Except.bind, pure, Except.pure]
  · intro v hv'
    obtain ⟨x, hx, rfl⟩ := (has_mapF _ _ _ _).mp hv'
    obtain ⟨r, hr, rfl⟩ := (has_mapF _ _ _ _).mp hx
    rw [hab]
    exact (C38_minmax_zero_range hn' r).2 (heq r hr)
  · have hnan : anyNan (t.fl.mapF fun j v =>
        minMaxEntry s'.normMin s'.normMax (Fl.fin (a j)) (Fl.fin (b j)) v) := by
      have key := (C38_minmax_zero_range hn' (a j)).2 rfl
      cases t with
      | d2 m x =>
        obtain ⟨i, hi⟩ := h1
        refine ⟨i, j, ?_⟩
        simp only [hi, hab]; exact key
      | d3 l m x =>
        obtain ⟨k, i, hi⟩ := h1
        refine ⟨k, i, j, ?_⟩
        simp only [hi, hab]; exact key
    simp [MinMaxScaler.transform, FT.arg, ha, hb, orRaise, onRows_eq, raiseIf, hnan, bind,
      Except.bind]

/-- Mean of feature `j`. -/
def FT.mean (t : FT ℝ n) (j : Fin n) : ℝ := t.total j id / t.count

theorem std_fit (s : StandardScaler n) {t : FT ℝ n} {bessel : Bool} (hc : bessel.toNat < t.count) :
    ∃ (s' : StandardScaler n), s.fit t.arg bessel = .ok s' ∧
      s'.mean = some (fun j => Fl.fin (t.mean j)) ∧
      s'.std = some fun j => Fl.fin (√(t.total j (fun x => (x - t.mean j) ^ 2) /
        (t.count - bessel.toNat : ℕ))) := by
  have hm : ∀ j, Fl.mean (column (fitRows t.fl) j) = Fl.fin (t.mean j) := by
    intro j
    rw [column_fl, Fl.mean_fin (col_ne_nil (by omega) j), col_length, FT.mean, ← sum_col,
      List.map_id]
  refine ⟨_, by
    simp only [StandardScaler.fit, FT.arg, checkTensor_feat, bind, Except.bind, pure, Except.pure]
    rfl, ?_, ?_⟩
  · simp [hm]
  · simp only [Option.some.injEq]
    funext j
    have hpos : ((t.count - bessel.toNat : ℕ) : ℝ) ≠ 0 := by
      have : t.count - bessel.toNat ≠ 0 := by omega
      exact_mod_cast this
    rw [colStd, hm, column_fl, List.map_map]
    have : ((fun x : Fl => (x.sub (Fl.fin (t.mean j))).mul (x.sub (Fl.fin (t.mean j)))) ∘ Fl.fin) =
        Fl.fin ∘ fun x => (x - t.mean j) ^ 2 := by
      funext x; simp [sq]
    rw [this, ← List.map_map, Fl.sum_fin, sum_col, List.length_map, col_length, Fl.div_fin hpos,
      Fl.sqrt_fin]
    exact div_nonneg (total_nonneg _ _ fun x => sq_nonneg _) (Nat.cast_nonneg _)

theorem deviation_zero_iff {t : FT ℝ n} (hc : 0 < t.count) (j : Fin n) :
    t.total j (fun x => (x - t.mean j) ^ 2) = 0 ↔ ¬ t.Varies j := by
  constructor
  · rintro h ⟨v, w, hv, hw, hne⟩
    have h1 := total_eq_zero t j (fun x => sq_nonneg (x - t.mean j)) h hv
    have h2 := total_eq_zero t j (fun x => sq_nonneg (x - t.mean j)) h hw
    have h1 := pow_eq_zero_iff (two_ne_zero) |>.mp h1
    have h2 := pow_eq_zero_iff (two_ne_zero) |>.mp h2
    exact hne (by linarith)
  · intro h
    obtain ⟨v, hv⟩ : ∃ v, v ∈ t.col j := List.exists_mem_of_ne_nil _ (col_ne_nil hc j)
    have hall : ∀ w ∈ t.col j, w = v := by
      intro w hw
      by_contra hne
      exact h ⟨w, v, (mem_col t j w).mp hw, (mem_col t j v).mp hv, hne⟩
    have hcol : t.col j = List.replicate t.count v := by
      rw [List.eq_replicate_iff]; exact ⟨col_length t j, hall⟩
    have hc' : (t.count : ℝ) ≠ 0 := by exact_mod_cast hc.ne'
    have hm : t.mean j = v := by
      rw [FT.mean, ← sum_col, hcol]
      simp; field_simp
    rw [← sum_col, hcol, hm]
    simp

theorem total_centered {t : FT ℝ n} (hc : 0 < t.count) (j : Fin n) :
    t.total j (fun x => x - t.mean j) = 0 := by
  have hc' : (t.count : ℝ) ≠ 0 := by exact_mod_cast hc.ne'
  have h1 : t.total j (fun x => x - t.mean j) = t.total j id + t.total j fun _ => -t.mean j := by
    rw [← total_add]; rfl
  rw [h1, total_const, FT.mean]
  field_simp
  ring

/-- C39d: after fitting (with or without Bessel's correction `c`), the transformed training data are
finite, have zero mean in every feature, sum of squares `N - c` (hence variance one) in every
feature which varies, and vanish in every constant feature. -/
theorem C39_standard (s : StandardScaler n) {t : FT ℝ n} {bessel : Bool}
    (hc : bessel.toNat < t.count) (check : Bool) :
    ∃ s' y, s.fit t.arg bessel = .ok s' ∧ s'.transform t.arg check = .ok (FT.fl y) ∧
      y.count = t.count ∧
      ∀ j, y.total j (fun x => x) = 0 ∧
        (t.Varies j → y.total j (fun x => x ^ 2) = (t.count : ℝ) - bessel.toNat) ∧
        (¬ t.Varies j → ∀ v, y.Has j v → v = 0) := by
  obtain ⟨s', hf, hm, hs⟩ := std_fit s hc
  have hc0 : 0 < t.count := by omega
  refine ⟨s', _, hf, std_transform hm hs (fun j => Real.sqrt_nonneg _) t check, by cases t <;> rfl,
    fun j => ?_⟩
  have hpos : (0 : ℝ) < ((t.count - bessel.toNat : ℕ) : ℝ) := by
    have : 0 < t.count - bessel.toNat := by omega
    exact_mod_cast this
  set S := t.total j (fun x => (x - t.mean j) ^ 2) with hS
  have hS0 : 0 ≤ S := total_nonneg _ _ fun x => sq_nonneg _
  have hz : √(S / ((t.count - bessel.toNat : ℕ) : ℝ)) = 0 ↔ ¬ t.Varies j := by
    rw [Real.sqrt_eq_zero (div_nonneg hS0 hpos.le), div_eq_zero_iff, or_iff_left hpos.ne',
      deviation_zero_iff hc0]
  have key := total_centered hc0 j
  refine ⟨?_, ?_, ?_⟩
  · rw [total_mapF]
    by_cases h : √(S / ((t.count - bessel.toNat : ℕ) : ℝ)) = 0
    · simp only [← hS, h, if_true]; exact key
    · simp only [← hS, h, if_false]
      have : (t.total j fun x => (x - t.mean j) / √(S / ((t.count - bessel.toNat : ℕ) : ℝ))) =
          (√(S / ((t.count - bessel.toNat : ℕ) : ℝ)))⁻¹ * t.total j (fun x => x - t.mean j) := by
        rw [← total_smul]; congr 1; funext x; ring
      rw [this, key, mul_zero]
  · intro hv
    have h : √(S / ((t.count - bessel.toNat : ℕ) : ℝ)) ≠ 0 := fun h => hz.mp h hv
    rw [total_mapF]
    simp only [← hS, h, if_false]
    have hq : (t.total j fun x => ((x - t.mean j) / √(S / ((t.count - bessel.toNat : ℕ) : ℝ))) ^ 2) =
        (S / ((t.count - bessel.toNat : ℕ) : ℝ))⁻¹ * S := by
      rw [hS, ← total_smul]
      congr 1; funext x
      rw [div_pow, Real.sq_sqrt (div_nonneg hS0 hpos.le), ← hS]; ring
    have hSne : S ≠ 0 := fun h0 => (deviation_zero_iff hc0 j).mp h0 hv
    rw [hq]
    have : ((t.count - bessel.toNat : ℕ) : ℝ) = (t.count : ℝ) - bessel.toNat := by
      rw [Nat.cast_sub (by omega)]
    rw [← this]
    field_simp
  · intro hv v hvy
    obtain ⟨x, hx, rfl⟩ := (has_mapF _ _ _ _).mp hvy
    simp only [← hS, hz.mpr hv, if_true]
    have h0 := (deviation_zero_iff hc0 j).mpr hv
    have := total_eq_zero t j (fun x => sq_nonneg (x - t.mean j)) h0 hx
    exact pow_eq_zero_iff (two_ne_zero) |>.mp this

/-! ### Non-vacuity -/

/-- Training data `(0, 5), (2, 7)` with two varying features. -/
def sampleTensor : FT ℝ 2 := .d2 2 ![![0, 5], ![2, 7]]

example : 0 < sampleTensor.count ∧ true.toNat < sampleTensor.count ∧ ∀ j, sampleTensor.Varies j := by
  refine ⟨by simp [sampleTensor, FT.count], by simp [sampleTensor, FT.count], ?_⟩
  intro j
  fin_cases j
  · exact ⟨0, 2, ⟨0, by simp⟩, ⟨1, by simp⟩, by norm_num⟩
  · exact ⟨5, 7, ⟨0, by simp⟩, ⟨1, by simp⟩, by norm_num⟩

/-- a three-dimensional tensor with a constant feature -/
example : ∃ t : FT ℝ 1, 0 < t.count ∧ ¬ t.Varies 0 :=
  ⟨.d3 1 2 fun _ _ _ => 4, by simp [FT.count], by
    rintro ⟨v, w, ⟨_, _, rfl⟩, ⟨_, _, rfl⟩, h⟩; exact h rfl⟩

end

end Hooke
