import Verif.Spec.NoisyDataset
import Verif.Lemmas.StrainPathHist
import Verif.Props.Noise
import Verif.Props.Denoise
import Verif.Props.ResponseDataset

/-!
# C109: noisy response data sets
-/

noncomputable section

namespace Hooke

open Spec

variable {n : ℕ} {σ : Type}

/-! ### Arrays -/

theorem arrayOf_length (T F : ℕ) (f : ℕ → ℕ → ℝ) : (arrayOf T F f).length = T := by
  simp [arrayOf]

theorem arrayOf_congr {T F : ℕ} {f g : ℕ → ℕ → ℝ} (h : ∀ t < T, ∀ c < F, f t c = g t c) :
    arrayOf T F f = arrayOf T F g := by
  refine List.map_congr_left fun t ht => List.map_congr_left fun c hc => ?_
  exact h t (List.mem_range.mp ht) c (List.mem_range.mp hc)

theorem range_map_getD {β : Type} (l : List β) (z : β) :
    (List.range l.length).map (fun t => l.getD t z) = l := by
  refine List.ext_getElem (by simp) fun i h1 h2 => ?_
  simp [h2]

theorem shape_arrayOf {T F : ℕ} {p : List (List ℝ)} (h : HasShape T F p) :
    p = arrayOf T F (valueAt p) := by
  obtain ⟨rfl, h⟩ := h
  conv_lhs => rw [← range_map_getD p []]
  refine List.map_congr_left fun t ht => ?_
  have ht := List.mem_range.mp ht
  have hl : (p.getD t []).length = F := by
    rw [List.getD_eq_getElem?_getD, List.getElem?_eq_getElem ht]
    exact h _ (List.getElem_mem ht)
  rw [← hl]
  exact (range_map_getD _ 0).symm

theorem rowAt_mem {p : List (List ℝ)} {t : ℕ} (ht : t < p.length) : rowAt p t ∈ p := by
  rw [rowAt, List.getD_eq_getElem?_getD, List.getElem?_eq_getElem ht]
  exact List.getElem_mem ht

/-! ### Response of a path -/

theorem noisyFeature_eq {co : List Comp} {features : List (String × ℕ)} {M : RcModel n σ}
    (h : GoodSetting co features M) (s : σ) {f : (String × ℕ) × Option (List (List ℝ))}
    (hf : f.1 ∈ features) : noisyFeature n co M s f = genFeature n co M s f := by
  obtain ⟨v, hv⟩ := h.present s f.1 hf
  unfold noisyFeature genFeature
  rw [hv]
  cases f.2 <;> rfl

theorem genFeature_name {co : List Comp} {M : RcModel n σ} {s : σ}
    {f g : (String × ℕ) × Option (List (List ℝ))} (h : genFeature n co M s f = .ok g) : g.1 = f.1 := by
  unfold genFeature at h
  split at h
  · cases h; rfl
  · cases h
  · split at h
    · obtain ⟨a, -, h⟩ := bind_ok h
      obtain ⟨b, -, h⟩ := bind_ok h
      cases h; rfl
    · obtain ⟨b, -, h⟩ := bind_ok h
      cases h; rfl

theorem mapM_mem {α β : Type} {f : α → Py β} {l : List α} {r : List β} (h : l.mapM f = .ok r) :
    ∀ y ∈ r, ∃ x ∈ l, f x = .ok y := by
  induction l generalizing r with
  | nil => cases h; simp
  | cons x l ih =>
    rw [List.mapM_cons] at h
    obtain ⟨b, hb, h⟩ := bind_ok h
    obtain ⟨bs, hbs, h⟩ := bind_ok h
    cases h
    intro y hy
    rcases List.mem_cons.mp hy with rfl | hy
    · exact ⟨x, by simp, hb⟩
    · obtain ⟨z, hz, hzy⟩ := ih hbs y hy
      exact ⟨z, by simp [hz], hzy⟩

theorem noisyStep_eq {co : List Comp} {features : List (String × ℕ)} {M : RcModel n σ}
    (h : GoodSetting co features M) {sp : List (List ℝ)} {acc : GenAcc σ}
    (hacc : ∀ f ∈ acc.feats, f.1 ∈ features) (t : ℕ) :
    noisyStep n co M sp acc t = genStep n co M sp acc t ∧
      ∀ b, genStep n co M sp acc t = .ok b → ∀ f ∈ b.feats, f.1 ∈ features := by
  have e : ∀ s, acc.feats.mapM (noisyFeature n co M s) = acc.feats.mapM (genFeature n co M s) :=
    fun s => mapM_congr_of_mem fun f hf => noisyFeature_eq h s (hacc f hf)
  constructor
  · unfold noisyStep genStep
    simp only [e]
  · intro b hb f hf
    unfold genStep at hb
    split at hb
    · cases hb; exact hacc f hf
    · obtain ⟨inc, -, hb⟩ := bind_ok hb
      obtain ⟨s, -, hb⟩ := bind_ok hb
      split at hb
      · cases hb; exact hacc f hf
      · obtain ⟨st, -, hb⟩ := bind_ok hb
        obtain ⟨fs, hfs, hb⟩ := bind_ok hb
        cases hb
        obtain ⟨g, hg, hgf⟩ := mapM_mem hfs f hf
        rw [genFeature_name hgf]
        exact hacc g hg

theorem noisyStressPath_eq {co : List Comp} {features : List (String × ℕ)} {M : RcModel n σ}
    (h : GoodSetting co features M) (T : ℕ) (sp : List (List ℝ)) :
    noisyStressPath n co M features T sp = genStressPath n co M features T sp := by
  have key : ∀ (l : List ℕ) (acc : GenAcc σ), (∀ f ∈ acc.feats, f.1 ∈ features) →
      l.foldlM (noisyStep n co M sp) acc = l.foldlM (genStep n co M sp) acc := by
    intro l
    induction l with
    | nil => intro acc _; rfl
    | cons t l ih =>
      intro acc hacc
      rw [List.foldlM_cons, List.foldlM_cons, (noisyStep_eq h hacc t).1]
      rcases hb : genStep n co M sp acc t with e | b
      · rfl
      · exact ih b ((noisyStep_eq h hacc t).2 b hb)
  unfold noisyStressPath genStressPath
  rw [key]
  intro f hf
  obtain ⟨g, hg, rfl⟩ := List.mem_map.mp hf
  exact hg

theorem genStressPath_shape {co : List Comp} {features : List (String × ℕ)} {M : RcModel n σ}
    (h : GoodSetting co features M) {sp : List (List ℝ)} (hne : sp ≠ [])
    (hsp : ∀ r ∈ sp, co.length ≤ r.length) {r : ResponsePath} {b : Bool}
    (hr : genStressPath n co M features sp.length sp = .ok (r, b)) :
    HasShape sp.length co.length r.stress := by
  have hT : 0 < sp.length := List.length_pos_iff.2 hne
  have hacc : ∀ st m, m < sp.length →
      HasShape sp.length co.length (padRows sp.length co.length (accOf co features M st m).stress) := by
    intro st m hm
    constructor
    · simp [padRows, accOf]; omega
    · intro row hrow
      simp only [padRows, accOf, List.mem_append, List.mem_cons, List.mem_map, List.mem_replicate] at hrow
      rcases hrow with (rfl | ⟨t, -, rfl⟩) | ⟨-, rfl⟩
      · simp
      · simp [kelvinComps]
      · simp
  obtain ⟨a, h1, rfl, -⟩ := (genPath_fold hne).1 hr
  rcases (genFold_ok h hsp _ (by omega) rfl).1 h1 with ⟨st, -, -, rfl⟩ | ⟨st, t, ht, h4, rfl⟩
  · exact hacc st _ (by omega)
  · exact hacc st (t - 1) (by have := h4.2.1; omega)

/-! ### Noise of a path -/

theorem generateNoise_value {g : NoiseGen} (hg : ReadyNoise g) {T F : ℕ} {v : String}
    {weights : Option (List ℝ)} (hv : Variability v weights T)
    (hw : ∀ t < T, 0 ≤ weightAt v weights t) (d : NoiseDraws) :
    generateNoise g T F v weights d
      = .ok (arrayOf T F fun t c => noiseValue g (weightAt v weights t) d t c) := by
  have hnone : g.dist ≠ some .spiked → spikeNoise g T F d = .ok (pathOfShape T F fun _ _ => 0) := by
    intro h
    unfold spikeNoise
    rw [if_neg h]
  unfold generateNoise
  cases hg with
  | @uniform a h1 h2 =>
    rw [uniform_base h1 h2 hv d, hnone (by simp [h1])]
    simp only [bind, Except.bind, pure, Except.pure, orRaise, addPaths_pathOfShape, add_zero]
    congr 1
    refine arrayOf_congr fun t _ c _ => ?_
    simp only [noiseValue, h1, parameterOf, h2]
  | @gaussian s h1 h2 h3 =>
    rw [gaussian_base (.inl h1) h2 h3 hv hw d, hnone (by simp [h1])]
    simp only [bind, Except.bind, pure, Except.pure, orRaise, addPaths_pathOfShape, add_zero]
    congr 1
    refine arrayOf_congr fun t _ c _ => ?_
    simp only [noiseValue, h1, parameterOf, h2]
  | @spiked s k p h1 h2 h3 h4 h5 h6 h7 =>
    have hsp : spikeNoise g T F d
        = .ok (pathOfShape T F fun t c => if d.spike t c then k else 0) := by
      unfold spikeNoise
      have r : raiseIf (p < 0 ∨ 1 < p) PyErr.valueError = .ok () :=
        raiseIf_ok.mpr (by rintro (h | h) <;> linarith)
      rw [if_pos h1, h4, h5]
      simp only [bind, Except.bind, pure, Except.pure, r]
    rw [gaussian_base (.inr h1) h2 h3 hv hw d, hsp]
    simp only [bind, Except.bind, pure, Except.pure, orRaise, addPaths_pathOfShape]
    congr 1
    refine arrayOf_congr fun t _ c _ => ?_
    simp only [noiseValue, h1, parameterOf, h2, h4]

theorem frobenius_eq {t : Tensor} {f : T2 n} (h : ∀ i j : Fin n, t.val [i, j] = f i j) :
    frobenius n t = √(∑ i : Fin n, ∑ j : Fin n, f i j ^ 2) := by
  have e : ∀ g : ℕ → ℝ, ((List.range n).map g).sum = ∑ i : Fin n, g i := by
    intro g
    rw [← List.sum_ofFn, List.ofFn_eq_map]
    rw [← List.map_coe_finRange_eq_range, List.map_map]
    rfl
  unfold frobenius
  rw [e]
  congr 1
  refine Finset.sum_congr rfl fun i _ => ?_
  rw [e]
  exact Finset.sum_congr rfl fun j _ => by rw [h]

theorem normPath_eq {co : List Comp} (h : CompleteSym n co) {sp : List (List ℝ)}
    (hsp : ∀ r ∈ sp, co.length ≤ r.length) : normPath n co sp = .ok (sp.map (strainNorm n co)) := by
  refine mapM_of_forall fun r hr => ?_
  obtain ⟨t, h1, h2⟩ := npBuild_symTensor h (hsp r hr)
  rw [h1]
  simp only [bind, Except.bind, pure, Except.pure, strainNorm, frobenius_eq h2]

/-- The value of `heteroscedastic_normalizer` before a path. -/
def NormBefore (S : NoisySetup) (n : ℕ) (co : List Comp) (m : ℝ) (sp : List (List ℝ))
    (norm : Option ℝ) : Prop :=
  S.variability = "homoscedastic" ∨ S.variability = "heteroscedastic" ∧ S.script = true ∧ 0 < m ∧
    (norm = some m ∨ norm = none ∧ IsLargestNorm n co sp m)

/-- The value after a path. -/
def normAfter (S : NoisySetup) (m : ℝ) (norm : Option ℝ) : Option ℝ :=
  if S.variability = "homoscedastic" then norm else some m

/-- The weights of a path. -/
def weightsOf (S : NoisySetup) (n : ℕ) (co : List Comp) (m : ℝ) (sp : List (List ℝ)) :
    Option (List ℝ) :=
  if S.variability = "homoscedastic" then none else some (sp.map fun r => strainNorm n co r / m)

theorem het_ne_hom : ¬ "heteroscedastic" = "homoscedastic" := by decide

theorem npMax_largest {co : List Comp} {sp : List (List ℝ)} {m : ℝ}
    (h : IsLargestNorm n co sp m) : npMax (sp.map (strainNorm n co)) = .ok m := by
  obtain ⟨⟨r, hr, rfl⟩, h2⟩ := h
  obtain ⟨m', h3, h4, h5⟩ := npMax_spec (l := sp.map (strainNorm n co))
    (by intro e; rw [List.map_eq_nil_iff.mp e] at hr; simp at hr)
  obtain ⟨r', hr', rfl⟩ := List.mem_map.mp h4
  rw [h3, le_antisymm (h2 r' hr') (h5 _ (List.mem_map.mpr ⟨r, hr, rfl⟩))]

theorem hetWeights_eq {S : NoisySetup} {co : List Comp} (h : CompleteSym n co) {m : ℝ}
    {sp : List (List ℝ)} (hsp : ∀ r ∈ sp, co.length ≤ r.length) {norm : Option ℝ}
    (hn : NormBefore S n co m sp norm) :
    hetWeights S n co sp norm = .ok (weightsOf S n co m sp, normAfter S m norm) := by
  unfold hetWeights weightsOf normAfter
  rcases hn with hv | ⟨hv, hs, -, hm⟩
  · rw [hv, if_neg (by decide), if_pos rfl, if_pos rfl]
  · have hr : raiseIf (S.script = false) PyErr.unboundLocal = .ok () := raiseIf_ok.mpr (by simp [hs])
    have hmax : norm.elim (npMax (sp.map (strainNorm n co))) Except.ok = .ok m := by
      rcases hm with rfl | ⟨rfl, hm⟩
      · rfl
      · exact npMax_largest hm
    rw [hv, if_pos rfl, if_neg het_ne_hom, if_neg het_ne_hom, hr, normPath_eq h hsp]
    simp only [bind, Except.bind, pure, Except.pure, hmax, List.map_map]
    rfl

theorem weightsOf_variability {S : NoisySetup} {co : List Comp} {m : ℝ} {sp : List (List ℝ)}
    {norm : Option ℝ} (hn : NormBefore S n co m sp norm) :
    Variability S.variability (weightsOf S n co m sp) sp.length ∧ ∀ t < sp.length,
      weightAt S.variability (weightsOf S n co m sp) t = pathWeight S n co m sp t ∧
      0 ≤ pathWeight S n co m sp t := by
  unfold weightsOf pathWeight weightAt
  rcases hn with hv | ⟨hv, -, hm, -⟩
  · rw [hv]
    refine ⟨.inl rfl, fun t _ => ?_⟩
    simp
  · rw [hv]
    simp only [if_neg het_ne_hom]
    refine ⟨.inr ⟨rfl, by rintro _ ⟨⟩; simp⟩, fun t ht => ⟨?_, ?_⟩⟩
    · simp [rowAt, ht]
    · exact div_nonneg (Real.sqrt_nonneg _) hm.le

/-! ### Noisy strain -/

theorem scale_back_to {k : ℕ} {s : StrainScaler} (h : ScalerFits k (some s)) {j : ℕ} (hj : j < k)
    (x e : ℝ) : s.back j (s.to j x + e) = x + noiseFactor (some s) j * e := by
  cases s with
  | minMax n lo hi mn mx =>
    obtain ⟨-, h1, h2⟩ := h
    have h3 : hi - lo ≠ 0 := by linarith
    have h4 : mx j - mn j ≠ 0 := by have := h2 j hj; linarith
    simp only [StrainScaler.back, StrainScaler.to, noiseFactor]
    field_simp
    ring
  | standard n mean std =>
    obtain ⟨-, h2⟩ := h
    have h4 : std j ≠ 0 := (h2 j hj).ne'
    simp only [StrainScaler.back, StrainScaler.to, noiseFactor, if_pos h4]
    field_simp
    ring

theorem scalePath_arrayOf {T F : ℕ} {s : StrainScaler} (hs : s.nFeat = F)
    (f : StrainScaler → ℕ → ℝ → ℝ) (g : ℕ → ℕ → ℝ) :
    scalePath (some s) f (arrayOf T F g) = .ok (arrayOf T F fun t c => f s c (g t c)) := by
  unfold scalePath
  have hr : raiseIf (∃ r ∈ arrayOf T F g, r.length ≠ s.nFeat) PyErr.runtimeError = .ok () := by
    refine raiseIf_ok.mpr ?_
    rintro ⟨r, hr, hne⟩
    exact hne (by rw [hs]; exact (pathOfShape_shape T F g).2 r hr)
  dsimp only
  rw [hr]
  simp only [bind, Except.bind, pure, Except.pure, arrayOf, List.map_map]
  congr 1
  refine List.map_congr_left fun t _ => ?_
  refine List.ext_getElem (by simp) fun i h1 h2 => ?_
  simp

theorem noisyScaled {S : NoisySetup} {T F : ℕ} (hs : ScalerFits F S.scaler) (x e : ℕ → ℕ → ℝ) :
    ∃ base, scalePath S.scaler StrainScaler.to (arrayOf T F x) = .ok (arrayOf T F base) ∧
      (∀ s, S.scaler = some s → base = fun t c => s.to c (x t c)) ∧ (S.scaler = none → base = x) ∧
      scalePath S.scaler StrainScaler.back (addPaths (arrayOf T F base) (arrayOf T F e))
        = .ok (arrayOf T F fun t c => x t c + noiseFactor S.scaler c * e t c) := by
  have hadd : ∀ b, addPaths (arrayOf T F b) (arrayOf T F e) = arrayOf T F fun t c => b t c + e t c :=
    fun b => addPaths_pathOfShape T F b e
  rcases hS : S.scaler with _ | s
  · refine ⟨x, rfl, by simp, fun _ => rfl, ?_⟩
    rw [hadd]
    simp only [scalePath, noiseFactor, one_mul]
  · rw [hS] at hs
    have hn : s.nFeat = F := by
      cases s with
      | minMax => exact hs.1
      | standard => exact hs.1
    refine ⟨fun t c => s.to c (x t c), scalePath_arrayOf hn _ _, by rintro _ ⟨⟩; rfl, by simp, ?_⟩
    rw [hadd, scalePath_arrayOf hn]
    congr 1
    exact arrayOf_congr fun t _ c hc => scale_back_to hs hc _ _

theorem arrayOf_set_zero {T F : ℕ} (hT : 0 < T) (g : ℕ → ℕ → ℝ) (z : ℕ → ℝ) {r : List ℝ}
    (hr : r = (List.range F).map z) :
    (arrayOf T F g).set 0 r = arrayOf T F fun t c => if t = 0 then z c else g t c := by
  subst hr
  obtain ⟨T, rfl⟩ := Nat.exists_eq_succ_of_ne_zero hT.ne'
  simp only [arrayOf, Nat.succ_eq_add_one, List.range_succ_eq_map, List.map_cons, List.set_cons_zero,
    List.map_map]
  congr 1

theorem valueAt_arrayOf {T F : ℕ} (f : ℕ → ℕ → ℝ) {t c : ℕ} (ht : t < T) (hc : c < F) :
    valueAt (arrayOf T F f) t c = f t c := pathOfShape_value f ht hc

theorem denoiseStrain_eq {S : NoisySetup} {T F : ℕ} (hT : 0 < T) (hF : 0 < F) (hd : S.denoise = true)
    (hdd : S.dd = .float64) (base f : ℕ → ℕ → ℝ) :
    denoiseStrain S F (arrayOf T F base) (arrayOf T F f) = .ok (arrayOf T F fun t c =>
      if t = 0 then base 0 c else (∑ i ∈ Finset.range 5, extended T (fun s => f s c)
        ((t : ℤ) - 2 + i)) / 5) := by
  have hlen : (seriesOf F (arrayOf T F f)).len = T := by simp [seriesOf, arrayOf_length]
  obtain ⟨y, h1, h2⟩ := C67_mean S.dd (fun _ _ => .ok []) (seriesOf F (arrayOf T F f)) 5 (by norm_num)
    hdd.symm (by rw [hlen]; exact hT) hF
  obtain ⟨y', h1', h3⟩ := C67_shape S.dd (fun _ _ => .ok []) (seriesOf F (arrayOf T F f)) 5 1
    (by norm_num) hdd.symm (by rw [hlen]; exact hT) hF
  rw [show ((5 : ℕ) : ℤ) = 5 from rfl] at h1
  rw [h1] at h1'
  cases h1'
  obtain ⟨-, h4, h5⟩ := h3
  rw [hlen] at h4 h2
  have h0 : (arrayOf T F base)[0]? = some ((List.range F).map fun c => base 0 c) := by
    simp [arrayOf, hT]
  unfold denoiseStrain
  rw [if_pos hd, h1, h0]
  simp only [bind, Except.bind, pure, Except.pure, orRaise]
  congr 1
  have hrows : rowsOf y = arrayOf T F y.val := by
    unfold rowsOf
    rw [h4, h5]
    rfl
  rw [hrows, arrayOf_set_zero hT y.val (fun c => base 0 c) rfl]
  refine arrayOf_congr fun t ht c hc => ?_
  split
  · rfl
  · rw [h2 t ht c hc]
    congr 1
    refine Finset.sum_congr rfl fun i _ => ?_
    unfold extended
    rw [show (seriesOf F (arrayOf T F f)).val = fun t c => valueAt (arrayOf T F f) t c from rfl]
    dsimp only
    rw [valueAt_arrayOf _ (by omega) hc]
    rfl

/-- The trial of a path up to the denoising. -/
theorem noisyStrainPath_pre {S : NoisySetup} {co : List Comp} (h : CompleteSym n co)
    (hg : ReadyNoise S.gen) (hsc : ScalerFits co.length S.scaler) {m : ℝ} {sp : List (List ℝ)}
    (hne : sp ≠ []) (hsp : HasShape sp.length co.length sp) {norm : Option ℝ}
    (hn : NormBefore S n co m sp norm) (d : NoiseDraws) :
    ∃ base : ℕ → ℕ → ℝ, (∀ s, S.scaler = some s → base = fun t c => s.to c (valueAt sp t c)) ∧
      (S.scaler = none → base = valueAt sp) ∧
      noisyStrainPath S n co sp norm d = (do
        let strain ← denoiseStrain S co.length (arrayOf sp.length co.length base)
          (arrayOf sp.length co.length (noisyStrain S n co m sp d))
        return (arrayOf sp.length co.length (pathNoise S n co m sp d), strain,
          normAfter S m norm)) := by
  have hT : 0 < sp.length := List.length_pos_iff.2 hne
  have hhead : (sp.headD []).length = co.length := by
    cases sp with
    | nil => exact absurd rfl hne
    | cons r l => exact hsp.2 r (by simp)
  obtain ⟨hv, hw⟩ := weightsOf_variability hn
  obtain ⟨base, h1, h2, h3, h4⟩ := noisyScaled (S := S) (T := sp.length) hsc (valueAt sp)
    (pathNoise S n co m sp d)
  refine ⟨base, h2, h3, ?_⟩
  unfold noisyStrainPath
  rw [hetWeights_eq h (fun r hr => (hsp.2 r hr).ge) hn]
  simp only [bind, Except.bind, hhead]
  rw [generateNoise_value hg hv (fun t ht => by rw [(hw t ht).1]; exact (hw t ht).2) d]
  have hr : raiseIf ((arrayOf sp.length co.length fun t c => noiseValue S.gen
      (weightAt S.variability (weightsOf S n co m sp) t) d t c) = []) PyErr.indexError = .ok () := by
    refine raiseIf_ok.mpr fun e => ?_
    have := congrArg List.length e
    rw [arrayOf_length] at this
    simp at this
    exact hne this
  have hset : (arrayOf sp.length co.length fun t c => noiseValue S.gen
      (weightAt S.variability (weightsOf S n co m sp) t) d t c).set 0 (List.replicate co.length 0)
      = arrayOf sp.length co.length (pathNoise S n co m sp d) := by
    rw [arrayOf_set_zero hT _ (fun _ => 0) (by rw [List.map_const', List.length_range])]
    refine arrayOf_congr fun t ht c _ => ?_
    rw [(hw t ht).1]
    rfl
  simp only [hr, hset]
  rw [← shape_arrayOf hsp] at h1
  simp only [h1, h4]
  rfl

/-- The trial of a path is as specified. -/
theorem noisyStrainPath_eq {S : NoisySetup} {co : List Comp} (h : CompleteSym n co) (hco : co ≠ [])
    (hg : ReadyNoise S.gen) (hsc : ScalerFits co.length S.scaler)
    (hdn : S.denoise = true → S.dd = .float64 ∧ S.scaler = none) {m : ℝ} {sp : List (List ℝ)}
    (hne : sp ≠ []) (hsp : HasShape sp.length co.length sp) {norm : Option ℝ}
    (hn : NormBefore S n co m sp norm) (d : NoiseDraws) :
    noisyStrainPath S n co sp norm d
      = .ok (arrayOf sp.length co.length (pathNoise S n co m sp d), sampleStrain S n co m sp d,
        normAfter S m norm) := by
  have hT : 0 < sp.length := List.length_pos_iff.2 hne
  have hF : 0 < co.length := List.length_pos_iff.2 hco
  obtain ⟨base, -, h3, h4⟩ := noisyStrainPath_pre h hg hsc hne hsp hn d
  rw [h4]
  by_cases hden : S.denoise = true
  · obtain ⟨hdd, hs⟩ := hdn hden
    rw [denoiseStrain_eq hT hF hden hdd]
    simp only [bind, Except.bind, pure, Except.pure, Except.ok.injEq, Prod.mk.injEq, true_and, and_true]
    refine arrayOf_congr fun t _ c _ => ?_
    rw [h3 hs]
    by_cases ht : t = 0
    · subst ht
      simp [noisyStrain, pathNoise]
    · simp only [ht, if_false, hden, true_and, not_false_eq_true, if_true, ne_eq]
  · unfold denoiseStrain
    rw [if_neg hden]
    simp only [bind, Except.bind, pure, Except.pure, Except.ok.injEq, Prod.mk.injEq, true_and, and_true]
    refine arrayOf_congr fun t _ c _ => ?_
    simp only [hden]
    rfl

/-! ### Samples -/

theorem subPaths_eq {T F : ℕ} {a b : List (List ℝ)} (ha : HasShape T F a) (hb : HasShape T F b) :
    subPaths a b = .ok (arrayOf T F fun t c => valueAt a t c - valueAt b t c) := by
  unfold subPaths
  have hl : ∀ {l : List (List ℝ)}, HasShape T F l → l.map List.length = List.replicate T F := by
    intro l hl
    refine List.eq_replicate_iff.mpr ⟨by simp [hl.1], fun k hk => ?_⟩
    obtain ⟨r, hr, rfl⟩ := List.mem_map.mp hk
    exact hl.2 r hr
  have hr : raiseIf (a.map List.length ≠ b.map List.length) PyErr.valueError = .ok () :=
    raiseIf_ok.mpr (by rw [hl ha, hl hb]; simp)
  rw [hr]
  simp only [bind, Except.bind, pure, Except.pure]
  congr 1
  conv_lhs => rw [shape_arrayOf ha, shape_arrayOf hb]
  unfold arrayOf
  rw [List.zipWith_map, List.zipWith_self]
  refine List.map_congr_left fun t _ => ?_
  rw [List.zipWith_map, List.zipWith_self]

theorem sampleStrain_shape (S : NoisySetup) (n : ℕ) (co : List Comp) (m : ℝ) (sp : List (List ℝ))
    (d : NoiseDraws) : HasShape sp.length co.length (sampleStrain S n co m sp d) :=
  pathOfShape_shape _ _ _

theorem normBefore_after {S : NoisySetup} {co : List Comp} {m : ℝ} {sp : List (List ℝ)}
    {norm : Option ℝ} (hn : NormBefore S n co m sp norm) (sp' : List (List ℝ)) :
    NormBefore S n co m sp' (normAfter S m norm) ∧
      normAfter S m (normAfter S m norm) = normAfter S m norm := by
  rcases hn with hv | ⟨hv, hs, hm, -⟩
  · exact ⟨.inl hv, by simp [normAfter, hv]⟩
  · refine ⟨.inr ⟨hv, hs, hm, .inl ?_⟩, ?_⟩ <;> simp [normAfter, hv, het_ne_hom]

theorem noisySample_ok {S : NoisySetup} {co : List Comp} {features : List (String × ℕ)}
    {M : RcModel n σ} (hS : GoodNoise S n co features M) {m : ℝ} {x : ResponsePath}
    (hx : NoiselessPath co.length x) {draws : ℕ → NoiseDraws} (k j : ℕ) {norm : Option ℝ}
    (hn : NormBefore S n co m x.strain norm) {y : NoisySample} {j' : ℕ} {norm' : Option ℝ} :
    noisySample S n co M features x draws k j norm = .ok (y, j', norm') ↔
      genSample n co M features (fun j => sampleStrain S n co m x.strain (draws j)) k j
        = .ok (y.response, j') ∧
      y.strainNoise = arrayOf x.strain.length co.length (pathNoise S n co m x.strain (draws (j' - 1))) ∧
      (y.stressNoise = arrayOf x.strain.length co.length fun t c =>
        valueAt y.response.stress t c - valueAt x.stress t c) ∧ norm' = normAfter S m norm := by
  induction k generalizing j norm with
  | zero =>
    constructor
    · intro h
      obtain ⟨a, -, h⟩ := bind_ok h
      obtain ⟨b, -, h⟩ := bind_ok h
      cases h
    · rintro ⟨h, -⟩
      obtain ⟨a, -, h⟩ := bind_ok h
      cases h
  | succ k ih =>
    have hsh := sampleStrain_shape S n co m x.strain (draws j)
    have hne : sampleStrain S n co m x.strain (draws j) ≠ [] := by
      intro e
      rw [e] at hsh
      exact hx.nonempty (List.length_eq_zero_iff.mp hsh.1.symm)
    rw [noisySample, genSample, noisyStrainPath_eq hS.setting.comps hS.comps hS.noise hS.scaler
      hS.denoise hx.nonempty hx.strain hn (draws j)]
    simp only [bind, Except.bind]
    rw [noisyStressPath_eq hS.setting, hsh.1]
    rcases hr : genStressPath n co M features x.strain.length
      (sampleStrain S n co m x.strain (draws j)) with e | ⟨r, b⟩
    · simp
    · have hst : HasShape x.strain.length co.length r.stress := by
        have := genStressPath_shape hS.setting hne (fun r hr => (hsh.2 r hr).ge) (b := b)
          (r := r) (by rw [hsh.1]; exact hr)
        rwa [hsh.1] at this
      simp only [subPaths_eq hst hx.stress]
      cases b with
      | false =>
        simp only [Bool.false_eq_true, if_false, Except.ok.injEq, Prod.mk.injEq]
        constructor
        · rintro ⟨rfl, rfl, rfl⟩
          exact ⟨⟨rfl, rfl⟩, rfl, rfl, rfl⟩
        · rintro ⟨⟨rfl, rfl⟩, h1, h2, rfl⟩
          refine ⟨?_, rfl, rfl⟩
          cases y
          simp only at h1 h2
          rw [h1, h2, Nat.add_sub_cancel]
      | true =>
        simp only [if_true]
        obtain ⟨h1, h2⟩ := normBefore_after hn x.strain
        rw [ih (j + 1) h1, h2]

theorem noisySampled_iff {S : NoisySetup} {co : List Comp} {features : List (String × ℕ)}
    {M : RcModel n σ} (hS : GoodNoise S n co features M) {m : ℝ} {x : ResponsePath}
    (hx : NoiselessPath co.length x) {draws : ℕ → NoiseDraws} {norm : Option ℝ}
    (hn : NormBefore S n co m x.strain norm) {a b : ℕ} {y : NoisySample} {norm' : Option ℝ} :
    noisySample S n co M features x draws 10 a norm = .ok (y, b, norm') ↔
      NoisySampled S co M features m draws x a b y ∧ norm' = normAfter S m norm := by
  rw [noisySample_ok hS hx 10 a hn, sampled_iff hS.setting]
  · constructor
    · rintro ⟨h1, h2, h3, h4⟩
      exact ⟨⟨h1, h2, h3⟩, h4⟩
    · rintro ⟨⟨h1, h2, h3⟩, h4⟩
      exact ⟨h1, h2, h3, h4⟩
  · intro j e
    have hsh := sampleStrain_shape S n co m x.strain (draws j)
    rw [e] at hsh
    exact hx.nonempty (List.length_eq_zero_iff.mp hsh.1.symm)
  · intro j r hr
    exact ((sampleStrain_shape S n co m x.strain (draws j)).2 r hr).ge

theorem noisyFold_ok {S : NoisySetup} {co : List Comp} {features : List (String × ℕ)}
    {M : RcModel n σ} (hS : GoodNoise S n co features M) {m : ℝ} {draws : ℕ → NoiseDraws}
    (l : List ResponsePath) (hl : ∀ x ∈ l, NoiselessPath co.length x) (acc : List NoisySample) (j : ℕ)
    {norm : Option ℝ} (hn : ∀ x, l.head? = some x → NormBefore S n co m x.strain norm)
    {r : List NoisySample} {j' : ℕ} :
    (∃ norm', l.foldlM (fun (acc : List NoisySample × ℕ × Option ℝ) x => do
      let s ← noisySample S n co M features x draws 10 acc.2.1 acc.2.2
      return (acc.1 ++ [s.1], s.2)) (acc, j, norm) = .ok (r, j', norm')) ↔
    ∃ ys, r = acc ++ ys ∧ ys.length = l.length ∧ ∃ used : ℕ → ℕ, used 0 = j ∧ used l.length = j' ∧
      ∀ i (hi : i < l.length) (hi' : i < ys.length),
        NoisySampled S co M features m draws l[i] (used i) (used (i + 1)) ys[i] := by
  induction l generalizing acc j norm r j' with
  | nil =>
    simp only [List.foldlM_nil, pure, Except.pure, Except.ok.injEq, Prod.mk.injEq]
    constructor
    · rintro ⟨_, rfl, rfl, -⟩
      exact ⟨[], by simp, rfl, fun _ => j, rfl, rfl, fun i hi => by simp at hi⟩
    · rintro ⟨ys, rfl, h1, used, rfl, rfl, -⟩
      exact ⟨norm, by simp [List.length_eq_zero_iff.mp h1], rfl, rfl⟩
  | cons x l ih =>
    have hnx := hn x rfl
    have hafter : ∀ x', l.head? = some x' → NormBefore S n co m x'.strain (normAfter S m norm) :=
      fun x' _ => (normBefore_after hnx x'.strain).1
    rw [List.foldlM_cons]
    constructor
    · rintro ⟨norm', h⟩
      obtain ⟨b, hb, h⟩ := bind_ok h
      obtain ⟨⟨y, a, nm⟩, hs, hb⟩ := bind_ok hb
      cases hb
      obtain ⟨h1, rfl⟩ := (noisySampled_iff hS (hl x (by simp)) hnx).1 hs
      obtain ⟨ys, rfl, h2, used, rfl, rfl, h3⟩ := (ih (fun z hz => hl z (by simp [hz])) _ _ hafter).1
        ⟨norm', h⟩
      refine ⟨y :: ys, by simp, by simp [h2], fun i => if i = 0 then j else used (i - 1), rfl,
        by simp, fun i hi hi' => ?_⟩
      cases i with
      | zero => simpa using h1
      | succ i => simpa using h3 i (by simpa using hi) (by simpa using hi')
    · rintro ⟨ys, rfl, h2, used, rfl, rfl, h3⟩
      cases ys with
      | nil => simp at h2
      | cons y ys =>
        have h1 := h3 0 (by simp) (by simp)
        simp only [List.getElem_cons_zero, Nat.zero_add] at h1
        have hs := (noisySampled_iff hS (hl x (by simp)) hnx).2 ⟨h1, rfl⟩
        obtain ⟨norm', h4⟩ := (ih (fun z hz => hl z (by simp [hz])) (acc ++ [y]) (used 1) hafter
          (r := acc ++ y :: ys) (j' := used (l.length + 1))).2
          ⟨ys, by simp, by simpa using h2, fun i => used (i + 1), rfl, rfl, fun i hi hi' =>
            h3 (i + 1) (by simpa using hi) (by simpa using hi')⟩
        refine ⟨norm', ?_⟩
        rw [hs]
        exact h4

/-- **C109.** The generation of a noisy data set returns exactly if every path, in turn, has a trial
without failure among the next ten; the samples, in the order of the paths, are the responses to the
strains with the noise of these trials, with this noise and the change of the stresses. -/
theorem C109_dataset {S : NoisySetup} {co : List Comp} {features : List (String × ℕ)}
    {M : RcModel n σ} (hS : GoodNoise S n co features M) {l : List ResponsePath}
    (hl : ∀ x ∈ l, NoiselessPath co.length x) {m : ℝ} (hm : UsedVariability S n co l m)
    {draws : ℕ → NoiseDraws} {r : List NoisySample} :
    generateNoisyDataset S n co M features l draws = .ok r ↔
      l ≠ [] ∧ r.length = l.length ∧ ∃ used : ℕ → ℕ, used 0 = 0 ∧
        ∀ i (hi : i < l.length) (hi' : i < r.length),
          NoisySampled S co M features m draws l[i] (used i) (used (i + 1)) r[i] := by
  have hn : ∀ x, l.head? = some x → NormBefore S n co m x.strain S.normalizer := by
    intro x hx
    rcases hm with hv | ⟨hv, hs, h0, hm⟩
    · exact .inl hv
    · refine .inr ⟨hv, hs, h0, ?_⟩
      rcases hm with hm | ⟨hm, x', hx', hlarge⟩
      · exact .inl hm
      · rw [hx] at hx'
        cases hx'
        exact .inr ⟨hm, hlarge⟩
  simp only [generateNoisyDataset, bind_ok_iff, raiseIf_ok, pure, Except.pure, Except.ok.injEq]
  constructor
  · rintro ⟨⟨r', j, nm⟩, h1, -, h2, rfl⟩
    obtain ⟨ys, rfl, h3, used, h4, -, h5⟩ := (noisyFold_ok hS l hl [] 0 hn).1 ⟨nm, h1⟩
    exact ⟨h2, h3, used, h4, h5⟩
  · rintro ⟨h1, h2, used, h3, h4⟩
    obtain ⟨nm, h5⟩ := (noisyFold_ok hS l hl [] 0 hn (r := r) (j' := used l.length)).2
      ⟨r, rfl, h2, used, h3, rfl, h4⟩
    exact ⟨_, h5, (), h1, rfl⟩

theorem sampled_strain {co : List Comp} {features : List (String × ℕ)} {M : RcModel n σ}
    {draws : ℕ → List (List ℝ)} {a b : ℕ} {r : ResponsePath} (h : Sampled co features M draws a b r) :
    r.strain = draws (b - 1) := by
  obtain ⟨-, -, ⟨st, -, rfl⟩, -⟩ := h
  rfl

/-- **C109 (initial strain).** Every sample begins with the strain of the noiseless path. -/
theorem C109_initial {S : NoisySetup} {co : List Comp} {features : List (String × ℕ)}
    {M : RcModel n σ} (hS : GoodNoise S n co features M) {l : List ResponsePath}
    (hl : ∀ x ∈ l, NoiselessPath co.length x) {m : ℝ} (hm : UsedVariability S n co l m)
    {draws : ℕ → NoiseDraws} {r : List NoisySample}
    (hr : generateNoisyDataset S n co M features l draws = .ok r) :
    r.map (fun y => y.response.strain.head?) = l.map fun x => x.strain.head? := by
  obtain ⟨-, h1, used, -, h2⟩ := (C109_dataset hS hl hm).1 hr
  refine List.ext_getElem (by simp [h1]) fun i hi hi' => ?_
  simp only [List.length_map] at hi hi'
  simp only [List.getElem_map]
  rw [sampled_strain (h2 i hi' hi).sampled]
  have hx := hl _ (List.getElem_mem hi')
  have hT := List.length_pos_iff.2 hx.nonempty
  conv_rhs => rw [shape_arrayOf hx.strain]
  simp only [sampleStrain, arrayOf, List.head?_map, List.head?_range]
  rw [if_neg hT.ne', Option.map_some, Option.map_some]
  simp [noisyStrain, pathNoise]

/-- **C109 (amplitude).** Uniform noise of amplitude `amp`, not denoised: no strain differs from the
noiseless one by more than half the amplitude (in the normalized space) times one plus the weight. -/
theorem C109_amplitude {S : NoisySetup} {co : List Comp} {features : List (String × ℕ)}
    {M : RcModel n σ} (hS : GoodNoise S n co features M) {l : List ResponsePath}
    (hl : ∀ x ∈ l, NoiselessPath co.length x) {m : ℝ} (hm : UsedVariability S n co l m)
    {draws : ℕ → NoiseDraws} (hd : ∀ j, UnitDraws (draws j)) {r : List NoisySample}
    (hr : generateNoisyDataset S n co M features l draws = .ok r) {amp : ℝ}
    (hu : S.gen.dist = some .uniform) (ha : S.gen.param "amp" = .ok amp) (hden : S.denoise = false) :
    ∀ i (hi : i < l.length) (hi' : i < r.length), ∀ t < l[i].strain.length, ∀ c < co.length,
      |valueAt r[i].response.strain t c - valueAt l[i].strain t c|
        ≤ noiseFactor S.scaler c * (|amp| / 2 * (1 + pathWeight S n co m l[i].strain t)) := by
  obtain ⟨-, h1, used, -, h2⟩ := (C109_dataset hS hl hm).1 hr
  intro i hi hi' t ht c hc
  rw [sampled_strain (h2 i hi hi').sampled]
  rw [sampleStrain, valueAt_arrayOf _ ht hc]
  simp only [hden, Bool.false_eq_true, false_and, if_false, noisyStrain, add_sub_cancel_left]
  have hfac : 0 ≤ noiseFactor S.scaler c := by
    have := hS.scaler
    rcases hs : S.scaler with _ | (⟨n', lo, hi2, mn, mx⟩ | ⟨n', mean, std⟩)
    · simp [noiseFactor]
    · rw [hs] at this
      exact div_nonneg (by have := this.2.2 c hc; linarith) (by have := this.2.1; linarith)
    · rw [hs] at this
      exact (this.2 c hc).le
  have hw : 0 ≤ pathWeight S n co m l[i].strain t := by
    unfold pathWeight
    split
    · exact le_rfl
    · rename_i hne
      rcases hm with hv | ⟨hv, hs, h0, -⟩
      · exact absurd hv hne
      · exact div_nonneg (Real.sqrt_nonneg _) h0.le
  rw [abs_mul, abs_of_nonneg hfac]
  refine mul_le_mul_of_nonneg_left ?_ hfac
  unfold pathNoise
  split
  · rw [abs_zero]; positivity
  · obtain ⟨e1, e2, e3, e4⟩ := hd (used (i + 1) - 1) t c
    have hp : parameterOf S.gen "amp" = amp := by simp only [parameterOf, ha]
    simp only [noiseValue, hu, hp]
    generalize (draws (used (i + 1) - 1)).unit t c = u at *
    generalize (draws (used (i + 1) - 1)).unit' t c = u' at *
    generalize pathWeight S n co m l[i].strain t = w at *
    have hA := abs_nonneg amp
    rw [abs_le]
    constructor <;> nlinarith [mul_nonneg hA e1, mul_nonneg hA e3, mul_nonneg hw (mul_nonneg hA e3),
      mul_nonneg hA (sub_nonneg.mpr e2.le), mul_nonneg hw (mul_nonneg hA (sub_nonneg.mpr e4.le))]

/-- **C109 (no noise).** Noise of amplitude zero, not denoised: if the noiseless paths are responses
of the constitutive model, the data set returned is the noiseless one, with all noise zero. -/
theorem C109_zero {S : NoisySetup} {co : List Comp} {features : List (String × ℕ)}
    {M : RcModel n σ} (hS : GoodNoise S n co features M) {l : List ResponsePath} (hne : l ≠ [])
    (hl : ∀ x ∈ l, NoiselessPath co.length x)
    (hresp : ∀ x ∈ l, ∃ st, Succeeds co M x.strain st ∧ x = responseOf co features M x.strain st)
    {m : ℝ} (hm : UsedVariability S n co l m) (draws : ℕ → NoiseDraws)
    (hu : S.gen.dist = some .uniform) (ha : S.gen.param "amp" = .ok 0) (hden : S.denoise = false) :
    generateNoisyDataset S n co M features l draws = .ok (l.map fun x =>
      ⟨x, arrayOf x.strain.length co.length fun _ _ => 0,
        arrayOf x.strain.length co.length fun _ _ => 0⟩) := by
  rw [C109_dataset hS hl hm]
  have hp : parameterOf S.gen "amp" = 0 := by simp only [parameterOf, ha]
  have hz : ∀ sp d t c, pathNoise S n co m sp d t c = 0 := by
    intro sp d t c
    unfold pathNoise
    split
    · rfl
    · simp [noiseValue, hu, hp]
  refine ⟨hne, by simp, fun i => i, rfl, fun i hi hi' => ?_⟩
  have hx := hl _ (List.getElem_mem hi)
  have hsp : ∀ j, sampleStrain S n co m l[i].strain (draws j) = l[i].strain := by
    intro j
    conv_rhs => rw [shape_arrayOf hx.strain]
    refine arrayOf_congr fun t _ c _ => ?_
    simp [hden, noisyStrain, hz]
  simp only [List.getElem_map]
  refine ⟨⟨by omega, by omega, ?_, fun j h1 h2 => by omega⟩, ?_, ?_⟩
  · dsimp only
    rw [hsp]
    exact hresp _ (List.getElem_mem hi)
  · exact arrayOf_congr fun t _ c _ => (hz _ _ _ _).symm
  · exact arrayOf_congr fun t _ c _ => (sub_self _).symm

end Hooke
