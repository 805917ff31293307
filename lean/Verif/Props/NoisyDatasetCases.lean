import Verif.Props.NoisyDataset

/-!
# C109: examples and faults
-/

noncomputable section

namespace Hooke

open Spec

variable {n : ℕ} {σ : Type}

/-! ### Examples -/

/-- The noiseless path of the slider from zero to one. -/
def exNoiseless : ResponsePath :=
  responseOf sliderNet.co sliderNet.features sliderNet.model [[0], [1]]
    fun t => if t = 0 then (0, 0) else (1, |1|)

/-- Uniform noise of amplitude two, homoscedastic. -/
def exNoisySetup : NoisySetup :=
  ⟨.float32, false, exUniformNoise 2, "homoscedastic", none, none, false⟩

/-- The same with a scaler of the strains from zero to four. -/
def exScaledSetup : NoisySetup :=
  { exNoisySetup with scaler := some (.minMax 1 (-1) 1 (fun _ => 0) fun _ => 4) }

theorem exNoiseless_path : NoiselessPath sliderNet.co.length exNoiseless := by
  have h : (exNoiseless.strain : List (List ℝ)) = [[0], [1]] := rfl
  refine ⟨by rw [h]; simp, ?_, ?_⟩
  · rw [h]
    refine ⟨rfl, fun r hr => ?_⟩
    simp only [List.mem_cons, List.not_mem_nil, or_false] at hr
    rcases hr with rfl | rfl <;> rfl
  · refine ⟨by simp [exNoiseless, responseOf], fun r hr => ?_⟩
    simp only [exNoiseless, responseOf, List.mem_map] at hr
    obtain ⟨t, -, rfl⟩ := hr
    split <;> simp [kelvinComps]

theorem exNoisy_good : GoodNoise exNoisySetup 1 sliderNet.co sliderNet.features sliderNet.model :=
  ⟨slider_good, by simp [sliderNet], .uniform rfl rfl, trivial, by simp [exNoisySetup]⟩

theorem exScaled_good : GoodNoise exScaledSetup 1 sliderNet.co sliderNet.features sliderNet.model :=
  ⟨slider_good, by simp [sliderNet], .uniform rfl rfl, ⟨rfl, by norm_num, fun j _ => by norm_num⟩,
    by simp [exScaledSetup, exNoisySetup]⟩

/-- A noisy data set of one path, in the normalized space: the noise of 1/2 is one unit of strain, and
changes the stress by two. -/
example : generateNoisyDataset exScaledSetup 1 sliderNet.co sliderNet.model sliderNet.features
    [exNoiseless] (fun _ => exNoiseDraws (3 / 4) 0) = .ok [⟨responseOf sliderNet.co sliderNet.features
      sliderNet.model [[0], [2]] fun t => if t = 0 then (0, 0) else (2, |2|),
      [[0], [1 / 2]], [[0], [2]]⟩] := by
  have hstrain : sampleStrain exScaledSetup 1 sliderNet.co 1 exNoiseless.strain
      (exNoiseDraws (3 / 4) 0) = [[0], [2]] := by
    norm_num [sampleStrain, arrayOf, exNoiseless, responseOf, sliderNet, List.range_succ, exScaledSetup,
      exNoisySetup, noisyStrain, pathNoise, noiseValue, exUniformNoise, noiseFactor, valueAt, exNoiseDraws,
      parameterOf, NoiseGen.param, KDict.get?, orRaise, bind, Except.bind, pathWeight]
  rw [C109_dataset exScaled_good (by simpa using exNoiseless_path) (m := 1) (.inl rfl)]
  refine ⟨by simp, rfl, fun i => i, rfl, fun i hi hi' => ?_⟩
  obtain rfl : i = 0 := by simpa using hi
  simp only [List.getElem_cons_zero]
  refine ⟨⟨by omega, by omega, ?_, fun j h1 h2 => by omega⟩, ?_, ?_⟩
  · dsimp only
    rw [hstrain]
    exact ⟨_, ⟨slider_trajectory 2, fun t h1 _ => by simp [sliderNet, h1.ne']; norm_num⟩, rfl⟩
  · norm_num [arrayOf, exNoiseless, responseOf, sliderNet, List.range_succ, exScaledSetup,
      exNoisySetup, pathNoise, noiseValue, exUniformNoise, valueAt, exNoiseDraws,
      parameterOf, NoiseGen.param, KDict.get?, orRaise, bind, Except.bind, pathWeight]
  · norm_num [arrayOf, exNoiseless, responseOf, sliderNet, List.range_succ, valueAt, kelvinComps, Comp.i,
      Comp.j]

/-- The hypotheses of the theorem on zero noise are met, for heteroscedastic noise in a script. -/
example : UsedVariability ⟨.float32, true, exUniformNoise 0, "heteroscedastic", none, none, false⟩ 1
    sliderNet.co [exNoiseless] 1 ∧ ∃ st, Succeeds sliderNet.co sliderNet.model exNoiseless.strain st ∧
      exNoiseless = responseOf sliderNet.co sliderNet.features sliderNet.model exNoiseless.strain st := by
  constructor
  · refine .inr ⟨rfl, rfl, one_pos, .inr ⟨rfl, _, rfl, ⟨[1], by simp [exNoiseless, responseOf], ?_⟩,
      fun r hr => ?_⟩⟩
    · simp [strainNorm, symTensor, sliderNet, Comp.i, Comp.j, List.findIdx_cons]
    · have hr : r = [0] ∨ r = [1] := by simpa [exNoiseless, responseOf] using hr
      rcases hr with rfl | rfl <;>
        simp [strainNorm, symTensor, sliderNet, Comp.i, Comp.j, List.findIdx_cons]
  · exact ⟨_, ⟨slider_trajectory 1, fun t h1 _ => by simp [sliderNet, h1.ne']⟩, rfl⟩

/-! ### Faults -/

theorem noisyStrainPath_first {S : NoisySetup} {co : List Comp} (h : CompleteSym n co) {m : ℝ}
    {sp : List (List ℝ)} (hsp : ∀ r ∈ sp, co.length ≤ r.length) (hm : IsLargestNorm n co sp m)
    (hv : S.variability = "heteroscedastic") (d : NoiseDraws) :
    noisyStrainPath S n co sp none d = noisyStrainPath S n co sp (some m) d := by
  have : hetWeights S n co sp none = hetWeights S n co sp (some m) := by
    unfold hetWeights
    rw [if_pos hv, if_pos hv, normPath_eq h hsp]
    rcases raiseIf (S.script = false) PyErr.unboundLocal with e | u
    · rfl
    · simp only [bind, Except.bind, Option.elim_none, Option.elim_some, npMax_largest hm]
  unfold noisyStrainPath
  rw [this]

theorem noisySample_normalizer (S : NoisySetup) (a : Option ℝ) (n : ℕ) (co : List Comp) (M : RcModel n σ)
    (features : List (String × ℕ)) (x : ResponsePath) (draws : ℕ → NoiseDraws) (k j : ℕ)
    (norm : Option ℝ) :
    noisySample { S with normalizer := a } n co M features x draws k j norm
      = noisySample S n co M features x draws k j norm := by
  induction k generalizing j norm with
  | zero => rfl
  | succ k ih =>
    simp only [noisySample, ih]
    rfl

/-- **C109 is violated for the normalizer.** Without a normalizer, the largest strain norm of each path
is documented to be used.  That of the first path is used for all of them: the data set is the one with
this normalizer given, and a path with larger strains has weights larger than one. -/
theorem C109_normalizer_violated {S : NoisySetup} {co : List Comp} (h : CompleteSym n co)
    (hv : S.variability = "heteroscedastic") (hs : S.script = true) (M : RcModel n σ)
    (features : List (String × ℕ)) {x : ResponsePath} (hx : ∀ r ∈ x.strain, co.length ≤ r.length) {m : ℝ}
    (hm : IsLargestNorm n co x.strain m) (l : List ResponsePath) (draws : ℕ → NoiseDraws) :
    generateNoisyDataset { S with normalizer := none } n co M features (x :: l) draws
      = generateNoisyDataset { S with normalizer := some m } n co M features (x :: l) draws ∧
    ∀ y : ResponsePath, (∀ r ∈ y.strain, co.length ≤ r.length) → ∀ m', IsLargestNorm n co y.strain m' →
      0 < m → m < m' →
      ∃ ws norm, hetWeights S n co y.strain (some m) = .ok (some ws, norm) ∧ ∃ w ∈ ws, 1 < w := by
  constructor
  · unfold generateNoisyDataset
    simp only [noisySample_normalizer, List.foldlM_cons]
    have : noisySample S n co M features x draws 10 0 none
        = noisySample S n co M features x draws 10 0 (some m) := by
      simp only [noisySample, noisyStrainPath_first h hx hm hv]
    rw [this]
  · intro y hy m' hm' h0 hlt
    have hw := hetWeights_eq (S := S) h hy (m := m) (norm := some m) (.inr ⟨hv, hs, h0, .inl rfl⟩)
    refine ⟨y.strain.map fun r => strainNorm n co r / m, normAfter S m (some m), ?_, ?_⟩
    · rw [hw]
      unfold weightsOf
      rw [if_neg (by rw [hv]; exact het_ne_hom)]
    · obtain ⟨⟨r, hr, rfl⟩, -⟩ := hm'
      exact ⟨_, List.mem_map.mpr ⟨r, hr, rfl⟩, (one_lt_div h0).mpr hlt⟩

/-- **C109 is violated for imported modules.** With heteroscedastic noise the method uses global names
that are defined only if the module is run as a script: imported from it, the generator raises
`NameError`. -/
theorem C109_import_violated {S : NoisySetup} (hv : S.variability = "heteroscedastic")
    (hs : S.script = false) (co : List Comp) (M : RcModel n σ) (features : List (String × ℕ))
    (x : ResponsePath) (l : List ResponsePath) (draws : ℕ → NoiseDraws) :
    generateNoisyDataset S n co M features (x :: l) draws = .error .unboundLocal := by
  have hr : raiseIf (S.script = false) PyErr.unboundLocal = .error .unboundLocal := by
    unfold raiseIf
    rw [if_pos hs]
  have hw : hetWeights S n co x.strain S.normalizer = .error .unboundLocal := by
    unfold hetWeights
    rw [if_pos hv, hr]
    rfl
  unfold generateNoisyDataset
  rw [List.foldlM_cons]
  dsimp only
  rw [noisySample]
  unfold noisyStrainPath
  rw [hw]
  rfl

/-- **C109 is violated for denoising in single precision.** The noise is in double precision, and so is
the noisy strain; the kernel of the moving average is of the default type.  With the default type of
torch, which the script does not change, denoising raises `RuntimeError` for every data set. -/
theorem C109_precision_violated {S : NoisySetup} {co : List Comp} {features : List (String × ℕ)}
    {M : RcModel n σ} (h : CompleteSym n co) (hco : co ≠ []) (hg : ReadyNoise S.gen)
    (hsc : ScalerFits co.length S.scaler) (hv : S.variability = "homoscedastic")
    (hden : S.denoise = true) (hdd : S.dd = .float32) {x : ResponsePath}
    (hx : NoiselessPath co.length x) (l : List ResponsePath) (draws : ℕ → NoiseDraws) :
    generateNoisyDataset S n co M features (x :: l) draws = .error .runtimeError := by
  obtain ⟨base, -, -, hp⟩ := noisyStrainPath_pre (m := 0) (norm := S.normalizer) h hg hsc hx.nonempty
    hx.strain (.inl hv) (draws 0)
  have hd : ∀ a b, denoiseStrain S co.length a (arrayOf x.strain.length co.length b)
      = .error .runtimeError := by
    intro a b
    unfold denoiseStrain
    rw [if_pos hden]
    have hm := movingAverage_eq S.dd 5 (seriesOf co.length (arrayOf x.strain.length co.length b))
      (by norm_num) (by
        simp only [seriesOf, arrayOf_length]
        exact List.length_pos_iff.2 hx.nonempty) (List.length_pos_iff.2 hco)
    rw [if_neg (by rw [hdd]; simp [seriesOf])] at hm
    simp only [Hooke.denoise, checkSeries, raiseIf, List.mem_cons, true_or, not_true_eq_false, if_false,
      bind, Except.bind, applyDenoiser, if_true, show (1 : ℤ).toNat = 1 from rfl, List.range_one,
      List.foldlM_cons, hm]
  unfold generateNoisyDataset
  rw [List.foldlM_cons]
  dsimp only
  rw [noisySample, hp, hd]
  rfl

theorem noisySample_strain {S : NoisySetup} {co : List Comp} {features : List (String × ℕ)}
    {M : RcModel n σ} {x : ResponsePath} {draws : ℕ → NoiseDraws} {k j j' : ℕ} {norm norm' : Option ℝ}
    {y : NoisySample} (h : noisySample S n co M features x draws k j norm = .ok (y, j', norm')) :
    ∃ i nm p, noisyStrainPath S n co x.strain nm (draws i) = .ok p ∧ y.response.strain = p.2.1 := by
  induction k generalizing j norm with
  | zero =>
    obtain ⟨a, -, h⟩ := bind_ok h
    obtain ⟨b, -, h⟩ := bind_ok h
    cases h
  | succ k ih =>
    rw [noisySample] at h
    obtain ⟨p, hp, h⟩ := bind_ok h
    obtain ⟨r, hr, h⟩ := bind_ok h
    obtain ⟨z, hz, h⟩ := bind_ok h
    split at h
    · exact ih h
    · cases h
      refine ⟨j, norm, p, hp, ?_⟩
      obtain ⟨a, -, hr⟩ := bind_ok hr
      cases hr
      rfl

/-- **C109 is violated for denoising with a scaler.** To keep the initial strain, that of the noiseless
path is assigned; but this path was replaced by its transform.  The initial strain of the sample is the
normalized one. -/
theorem C109_denoise_scaled_violated {S : NoisySetup} {co : List Comp} {features : List (String × ℕ)}
    {M : RcModel n σ} (h : CompleteSym n co) (hco : co ≠ []) (hg : ReadyNoise S.gen) {s : StrainScaler}
    (hs : S.scaler = some s) (hsc : ScalerFits co.length S.scaler) (hv : S.variability = "homoscedastic")
    (hden : S.denoise = true) (hdd : S.dd = .float64) {x : ResponsePath}
    (hx : NoiselessPath co.length x) (draws : ℕ → NoiseDraws) {r : List NoisySample}
    (hr : generateNoisyDataset S n co M features [x] draws = .ok r) :
    ∀ y ∈ r, ∀ c < co.length, valueAt y.response.strain 0 c = s.to c (valueAt x.strain 0 c) := by
  unfold generateNoisyDataset at hr
  obtain ⟨a, ha, hr⟩ := bind_ok hr
  obtain ⟨u, -, hr⟩ := bind_ok hr
  cases hr
  rw [List.foldlM_cons] at ha
  obtain ⟨b, hb, ha⟩ := bind_ok ha
  rw [List.foldlM_nil] at ha
  cases ha
  obtain ⟨⟨y, j', nm⟩, hy, hb⟩ := bind_ok hb
  cases hb
  intro y' hy' c hc
  obtain rfl : y' = y := by simpa using hy'
  obtain ⟨i, nm', p, hp, he⟩ := noisySample_strain hy
  have hT := List.length_pos_iff.2 hx.nonempty
  obtain ⟨base, h1, -, h2⟩ := noisyStrainPath_pre (m := 0) (norm := nm') h hg hsc hx.nonempty
    hx.strain (.inl hv) (draws i)
  rw [h2, denoiseStrain_eq hT (List.length_pos_iff.2 hco) hden hdd] at hp
  cases hp
  rw [he]
  dsimp only
  rw [valueAt_arrayOf _ hT hc, if_pos rfl, h1 s hs]

/-- **C109 is violated for missing state variables.** They are documented to be ignored.  The variable is
removed at every time: from three times on, `compute_stress_path` raises `KeyError`. -/
theorem C109_missing_features_violated (p : PType) {d : Props} {E v : ℝ} (hE : d .E = some E)
    (hv : d .v = some v) {a b c : List ℝ} {sp : List (List ℝ)}
    (hsp : ∀ r ∈ a :: b :: c :: sp, (symOrder p.dim).length ≤ r.length) :
    noisyStressPath p.dim (symOrder p.dim) (elasticRc p d) [("acc_p_strain", 1)]
      (a :: b :: c :: sp).length (a :: b :: c :: sp) = .error .keyError := by
  have hstep : ∀ (acc : GenAcc (ElasticState p)) t, t ≤ 1 → acc.fail = false →
      (∀ o, acc.feats = [(("acc_p_strain", 1), some o)] →
        ∃ s' st, noisyStep p.dim (symOrder p.dim) (elasticRc p d) (a :: b :: c :: sp) acc (t + 1) =
          .ok ⟨s', st, [(("acc_p_strain", 1), none)], false⟩) ∧
      (acc.feats = [(("acc_p_strain", 1), none)] →
        noisyStep p.dim (symOrder p.dim) (elasticRc p d) (a :: b :: c :: sp) acc (t + 1) =
          .error .keyError) := by
    intro acc t ht hf
    obtain ⟨s', h1, h2⟩ := elastic_update_ok p hE hv (symTensor p.dim (symOrder p.dim)
      (rowAt (a :: b :: c :: sp) (t + 1)) - symTensor p.dim (symOrder p.dim)
        (rowAt (a :: b :: c :: sp) t)) acc.state
    obtain ⟨m, h3, -⟩ := lkelvinComps (symOrder_complete p)
      ((elasticNet_compatible p d false).sized.stress s')
    have h3' : getTensorFromMf ((elasticRc p d).stressMf s') p.dim (symOrder p.dim) = .ok m := h3
    have h4 : (elasticRc p d).var "acc_p_strain" s' = none := by simp [elasticRc]
    constructor
    · intro o ho
      refine ⟨s', acc.stress ++ [storeTensorComps (symOrder p.dim) m], ?_⟩
      simp only [noisyStep, hf, Bool.false_eq_true, if_false,
        genIncrement_eq (symOrder_complete p) (show t + 1 < (a :: b :: c :: sp).length by simp; omega) hsp,
        h1, h2, h3', ho, List.mapM_cons, List.mapM_nil, noisyFeature, h4, bind, Except.bind, pure,
        Except.pure]
    · intro ho
      simp only [noisyStep, hf, Bool.false_eq_true, if_false,
        genIncrement_eq (symOrder_complete p) (show t + 1 < (a :: b :: c :: sp).length by simp; omega) hsp,
        h1, h2, h3', ho, List.mapM_cons, List.mapM_nil, noisyFeature, h4, bind, Except.bind, pure,
        Except.pure]
  have hrange : List.range' 1 ((a :: b :: c :: sp).length - 1) = 1 :: 2 :: List.range' 3 sp.length := by
    simp [List.range'_succ]
  obtain ⟨s', st, h1⟩ := (hstep ⟨(elasticRc p d).init, [List.replicate (symOrder p.dim).length 0],
    [(("acc_p_strain", 1), some [List.replicate 1 0])], false⟩ 0 (by omega) rfl).1 _ rfl
  have h2 := (hstep ⟨s', st, [(("acc_p_strain", 1), none)], false⟩ 1 le_rfl rfl).2 rfl
  unfold noisyStressPath
  rw [hrange, List.foldlM_cons, if_neg (by simp), List.map_singleton, if_neg (by simp)]
  rw [zero_add] at h1
  rw [h1]
  simp only [bind, Except.bind, List.foldlM_cons]
  rw [show (1 + 1 : ℕ) = 2 from rfl] at h2
  rw [h2]

/-- **C109 is violated for empty data sets.** The average time per path is a division by zero. -/
theorem C109_empty_violated (S : NoisySetup) (co : List Comp) (M : RcModel n σ)
    (features : List (String × ℕ)) (draws : ℕ → NoiseDraws) :
    generateNoisyDataset S n co M features [] draws = .error .zeroDivision := rfl

end Hooke
