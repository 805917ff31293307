import Verif.Spec.Noise
import Verif.Lemmas.Py
import Verif.Lemmas.MapM
import Verif.Lemmas.PyDict
import Verif.Lemmas.StrainPath

/-!
# C108: noise of paths
-/

noncomputable section

namespace Hooke

open Spec

theorem pathOfShape_shape (T F : ℕ) (f : ℕ → ℕ → ℝ) : HasShape T F (pathOfShape T F f) := by
  refine ⟨by simp [pathOfShape], fun r hr => ?_⟩
  obtain ⟨t, -, rfl⟩ := List.mem_map.mp hr
  simp

theorem pathOfShape_value {T F : ℕ} (f : ℕ → ℕ → ℝ) {t c : ℕ} (ht : t < T) (hc : c < F) :
    valueAt (pathOfShape T F f) t c = f t c := by
  simp [valueAt, pathOfShape, ht, hc]

theorem addPaths_pathOfShape (T F : ℕ) (f g : ℕ → ℕ → ℝ) :
    addPaths (pathOfShape T F f) (pathOfShape T F g) = pathOfShape T F fun t c => f t c + g t c := by
  unfold addPaths pathOfShape
  rw [List.zipWith_map, List.zipWith_self]
  refine List.map_congr_left fun t _ => ?_
  rw [List.zipWith_map, List.zipWith_self]

theorem hetNoise_eq {g : NoiseGen} {T F : ℕ} {weights : Option (List ℝ)} {d : NoiseDraws}
    {f : ℕ → ℕ → ℝ} (hw : ∀ ws, weights = some ws → T ≤ ws.length)
    (h : ∀ t < T, hetRow g F d (weightAt "heteroscedastic" weights t) t
      = .ok ((List.range F).map fun c => f t c)) :
    hetNoise g T F weights d = .ok (some (pathOfShape T F f)) := by
  unfold hetNoise
  have h1 : (List.range T).mapM (fun t => do
      let w ← orRaise (weights.getD (List.replicate T 1))[t]? PyErr.indexError
      hetRow g F d w t) = .ok (pathOfShape T F f) := by
    refine mapM_of_forall fun t ht => ?_
    have ht' := List.mem_range.mp ht
    have hget : (weights.getD (List.replicate T 1))[t]?
        = some (weightAt "heteroscedastic" weights t) := by
      unfold weightAt
      rw [if_neg (by decide)]
      cases weights with
      | none => simp [ht']
      | some ws =>
        have := hw ws rfl
        simp [List.getElem?_eq_getElem (show t < ws.length by omega)]
    rw [hget]
    exact h t ht'
  dsimp only
  rw [h1]
  rfl

/-- The parameters of a uniform noise. -/
theorem uniform_base {g : NoiseGen} {T F : ℕ} {v : String} {weights : Option (List ℝ)} {amp : ℝ}
    (hg : g.dist = some .uniform) (ha : g.param "amp" = .ok amp) (hv : Variability v weights T)
    (d : NoiseDraws) :
    baseNoise g T F v weights d = .ok (some (pathOfShape T F fun t c =>
      |amp| * (d.unit t c - 1 / 2) + weightAt v weights t * (|amp| * (d.unit' t c - 1 / 2)))) := by
  unfold baseNoise
  rcases hv with rfl | ⟨rfl, hw⟩
  · rw [if_pos rfl]
    unfold homNoise
    rw [hg]
    dsimp only
    rw [ha]
    simp only [bind, Except.bind, pure, Except.pure, weightAt, if_true, npUniform]
    congr 4
    funext t c
    ring
  · rw [if_neg (by decide), if_pos rfl]
    refine hetNoise_eq hw fun t _ => ?_
    unfold hetRow
    rw [hg]
    dsimp only
    rw [ha]
    simp only [bind, Except.bind, pure, Except.pure, npUniform]
    congr 2
    funext c
    ring

theorem gaussian_base {g : NoiseGen} {T F : ℕ} {v : String} {weights : Option (List ℝ)} {std : ℝ}
    (hg : g.dist = some .gaussian ∨ g.dist = some .spiked) (ha : g.param "std" = .ok std)
    (hs : 0 ≤ std) (hv : Variability v weights T) (hw0 : ∀ t < T, 0 ≤ weightAt v weights t)
    (d : NoiseDraws) :
    baseNoise g T F v weights d = .ok (some (pathOfShape T F fun t c =>
      std * (d.normal t c + weightAt v weights t * d.normal' t c))) := by
  unfold baseNoise
  have r1 : raiseIf (std < 0) PyErr.valueError = .ok () := raiseIf_ok.mpr (not_lt.mpr hs)
  rcases hv with rfl | ⟨rfl, hw⟩
  · rw [if_pos rfl]
    unfold homNoise
    rcases hg with hg | hg <;>
    · rw [hg]
      dsimp only
      rw [ha]
      simp only [bind, Except.bind, pure, Except.pure, r1, weightAt, if_true, zero_mul, add_zero]
  · rw [if_neg (by decide), if_pos rfl]
    refine hetNoise_eq hw fun t ht => ?_
    have r2 : raiseIf (std * weightAt "heteroscedastic" weights t < 0) PyErr.valueError = .ok () :=
      raiseIf_ok.mpr (not_lt.mpr (mul_nonneg hs (hw0 t ht)))
    unfold hetRow
    rcases hg with hg | hg <;>
    · rw [hg]
      dsimp only
      rw [ha]
      simp only [bind, Except.bind, pure, Except.pure, r1, r2]
      congr 2
      funext c
      ring

/-- **C108 (uniform noise).** The noise of a path with amplitude `amp` is uniform noise of the
interval of this length around zero, plus another one scaled by the weight of the time: it is never
larger than half the amplitude times one plus the weight. -/
theorem C108_uniform {g : NoiseGen} {T F : ℕ} {v : String} {weights : Option (List ℝ)} {amp : ℝ}
    (hg : g.dist = some .uniform) (ha : g.param "amp" = .ok amp) (hv : Variability v weights T)
    {d : NoiseDraws} (hd : UnitDraws d) :
    ∃ p, generateNoise g T F v weights d = .ok p ∧ HasShape T F p ∧ ∀ t < T, ∀ c < F,
      valueAt p t c = |amp| * (d.unit t c - 1 / 2)
        + weightAt v weights t * (|amp| * (d.unit' t c - 1 / 2)) ∧
      |valueAt p t c| ≤ |amp| / 2 * (1 + |weightAt v weights t|) := by
  have hs : spikeNoise g T F d = .ok (pathOfShape T F fun _ _ => 0) := by
    unfold spikeNoise
    rw [if_neg (by simp [hg])]
  refine ⟨addPaths (pathOfShape T F fun t c => |amp| * (d.unit t c - 1 / 2)
    + weightAt v weights t * (|amp| * (d.unit' t c - 1 / 2))) (pathOfShape T F fun _ _ => 0), ?_, ?_⟩
  · unfold generateNoise
    rw [uniform_base hg ha hv d, hs]
    simp only [bind, Except.bind, pure, Except.pure, orRaise]
  rw [addPaths_pathOfShape]
  refine ⟨pathOfShape_shape _ _ _, fun t ht c hc => ?_⟩
  rw [pathOfShape_value _ ht hc, add_zero]
  refine ⟨rfl, ?_⟩
  obtain ⟨h1, h2, h3, h4⟩ := hd t c
  have e1 : |(|amp| * (d.unit t c - 1 / 2))| ≤ |amp| / 2 := by
    rw [abs_mul, abs_abs]
    have : |d.unit t c - 1 / 2| ≤ 1 / 2 := abs_le.mpr ⟨by linarith, by linarith⟩
    nlinarith [abs_nonneg amp]
  have e2 : |(|amp| * (d.unit' t c - 1 / 2))| ≤ |amp| / 2 := by
    rw [abs_mul, abs_abs]
    have : |d.unit' t c - 1 / 2| ≤ 1 / 2 := abs_le.mpr ⟨by linarith, by linarith⟩
    nlinarith [abs_nonneg amp]
  calc _ ≤ _ := abs_add_le _ _
    _ ≤ |amp| / 2 + |weightAt v weights t| * (|amp| / 2) := by
        rw [abs_mul (weightAt v weights t)]
        exact add_le_add e1 (mul_le_mul_of_nonneg_left e2 (abs_nonneg _))
    _ = _ := by ring

/-- **C108 (Gaussian noise).** With a deviation that is not negative, and weights that are not, the
noise of a path is the deviation times a standard normal number, plus another one scaled by the weight
of the time; for the distribution with spikes, plus the height of the spike where there is one. -/
theorem C108_gaussian {g : NoiseGen} {T F : ℕ} {v : String} {weights : Option (List ℝ)} {std : ℝ}
    (ha : g.param "std" = .ok std) (hs : 0 ≤ std) (hv : Variability v weights T)
    (hw0 : ∀ t < T, 0 ≤ weightAt v weights t) (d : NoiseDraws) :
    (g.dist = some .gaussian → ∃ p, generateNoise g T F v weights d = .ok p ∧ HasShape T F p ∧
      ∀ t < T, ∀ c < F, valueAt p t c
        = std * (d.normal t c + weightAt v weights t * d.normal' t c)) ∧
    ∀ spike prob, g.dist = some .spiked → g.param "spike" = .ok spike →
      g.param "p_spike" = .ok prob → 0 ≤ prob → prob ≤ 1 →
      ∃ p, generateNoise g T F v weights d = .ok p ∧ HasShape T F p ∧
        ∀ t < T, ∀ c < F, valueAt p t c
          = std * (d.normal t c + weightAt v weights t * d.normal' t c)
            + if d.spike t c then spike else 0 := by
  refine ⟨fun hg => ?_, fun spike prob hg h1 h2 h3 h4 => ?_⟩
  · have hsp : spikeNoise g T F d = .ok (pathOfShape T F fun _ _ => 0) := by
      unfold spikeNoise
      rw [if_neg (by simp [hg])]
    refine ⟨addPaths (pathOfShape T F fun t c =>
      std * (d.normal t c + weightAt v weights t * d.normal' t c)) (pathOfShape T F fun _ _ => 0),
      ?_, ?_⟩
    · unfold generateNoise
      rw [gaussian_base (.inl hg) ha hs hv hw0 d, hsp]
      simp only [bind, Except.bind, pure, Except.pure, orRaise]
    rw [addPaths_pathOfShape]
    refine ⟨pathOfShape_shape _ _ _, fun t ht c hc => ?_⟩
    rw [pathOfShape_value _ ht hc, add_zero]
  · have hsp : spikeNoise g T F d
        = .ok (pathOfShape T F fun t c => if d.spike t c then spike else 0) := by
      unfold spikeNoise
      have r : raiseIf (prob < 0 ∨ 1 < prob) PyErr.valueError = .ok () :=
        raiseIf_ok.mpr (by rintro (h | h) <;> linarith)
      rw [if_pos hg, h1, h2]
      simp only [bind, Except.bind, pure, Except.pure, r]
    refine ⟨addPaths (pathOfShape T F fun t c =>
      std * (d.normal t c + weightAt v weights t * d.normal' t c))
      (pathOfShape T F fun t c => if d.spike t c then spike else 0), ?_, ?_⟩
    · unfold generateNoise
      rw [gaussian_base (.inr hg) ha hs hv hw0 d, hsp]
      simp only [bind, Except.bind, pure, Except.pure, orRaise]
    rw [addPaths_pathOfShape]
    refine ⟨pathOfShape_shape _ _ _, fun t ht c hc => ?_⟩
    rw [pathOfShape_value _ ht hc]

/-- The parameters that a distribution needs. -/
def Spec.neededParameters : String → Option (List String)
  | "uniform" => some ["amp"]
  | "gaussian" => some ["std"]
  | "spiked_gaussian" => some ["std", "spike", "p_spike"]
  | _ => none

/-- **C108 (set up).** A new generator accepts exactly the three distributions, and then exactly the
parameters among which are those the distribution needs; they are the parameters used. -/
theorem C108_setup (name : String) (ps : KDict String ℝ) :
    ((∃ g, (NoiseGen.new.setDistribution name >>= fun g => g.setParameters ps) = .ok g) ↔
      ∃ req, neededParameters name = some req ∧ ∀ p ∈ req, ∃ x, ps.get? p = some x) ∧
    ∀ g, (NoiseGen.new.setDistribution name >>= fun g => g.setParameters ps) = .ok g →
      g.dist = noiseDist? name ∧ ∀ p x, ps.get? p = some x → g.param p = .ok x := by
  have hkey : ∀ (dist : NoiseDist) (req : List String), noiseDist? name = some dist →
      requiredParameters (some dist) = .ok req → ∀ g,
      (NoiseGen.new.setDistribution name >>= fun g => g.setParameters ps) = .ok g ↔
        (∀ p ∈ req, ∃ x, ps.get? p = some x) ∧ g = ⟨some dist, some ps⟩ := by
    intro dist req hn hr g
    have h1 : NoiseGen.new.setDistribution name = .ok ⟨some dist, none⟩ := by
      unfold NoiseGen.setDistribution
      rw [hn]
      rfl
    rw [h1]
    simp only [bind, Except.bind, NoiseGen.setParameters, hr]
    by_cases hall : (req.all fun p => ps.has p) = true
    · rw [raiseIf_ok (u := ()).mpr (by simp [hall])]
      simp only [pure, Except.pure, Except.ok.injEq]
      have : ∀ p ∈ req, ∃ x, ps.get? p = some x := by
        intro p hp
        have := List.all_eq_true.mp hall p hp
        exact Option.isSome_iff_exists.mp this
      constructor
      · rintro rfl; exact ⟨this, rfl⟩
      · rintro ⟨-, rfl⟩; rfl
    · have : raiseIf ((req.all fun p => ps.has p) = false) PyErr.runtimeError
          = .error .runtimeError := by
        unfold raiseIf
        rw [if_pos (by simpa using hall)]
      rw [this]
      refine ⟨fun h => (by cases h), ?_⟩
      rintro ⟨h, -⟩
      exact absurd (List.all_eq_true.mpr fun p hp => Option.isSome_iff_exists.mpr (h p hp)) hall
  have hfin : ∀ (dist : NoiseDist) (req : List String), noiseDist? name = some dist →
      neededParameters name = some req → requiredParameters (some dist) = .ok req →
      ((∃ g, (NoiseGen.new.setDistribution name >>= fun g => g.setParameters ps) = .ok g) ↔
      ∃ req, neededParameters name = some req ∧ ∀ p ∈ req, ∃ x, ps.get? p = some x) ∧
      ∀ g, (NoiseGen.new.setDistribution name >>= fun g => g.setParameters ps) = .ok g →
        g.dist = noiseDist? name ∧ ∀ p x, ps.get? p = some x → g.param p = .ok x := by
    intro dist req h1 h2 h3
    refine ⟨⟨?_, ?_⟩, ?_⟩
    · rintro ⟨g, hg⟩
      exact ⟨req, h2, ((hkey dist req h1 h3 g).mp hg).1⟩
    · rintro ⟨req', h4, h5⟩
      rw [h2] at h4
      cases h4
      exact ⟨_, (hkey dist req h1 h3 _).mpr ⟨h5, rfl⟩⟩
    · intro g hg
      obtain ⟨-, rfl⟩ := (hkey dist req h1 h3 g).mp hg
      refine ⟨h1.symm, fun p x hp => ?_⟩
      unfold NoiseGen.param
      simp only [orRaise, bind, Except.bind, hp]
  by_cases e1 : name = "uniform"
  · subst e1; exact hfin .uniform _ rfl rfl rfl
  by_cases e2 : name = "gaussian"
  · subst e2; exact hfin .gaussian _ rfl rfl rfl
  by_cases e3 : name = "spiked_gaussian"
  · subst e3; exact hfin .spiked _ rfl rfl rfl
  have hn : noiseDist? name = none := by
    unfold noiseDist?
    split <;> simp_all
  have hq : neededParameters name = none := by
    unfold neededParameters
    split <;> simp_all
  have hd : NoiseGen.new.setDistribution name = .error .runtimeError := by
    unfold NoiseGen.setDistribution
    rw [hn]
    rfl
  rw [hd, hq]
  refine ⟨⟨?_, ?_⟩, ?_⟩
  · rintro ⟨g, hg⟩; cases hg
  · rintro ⟨req, hr, -⟩; cases hr
  · intro g hg; cases hg

/-! ## Examples -/

/-- The generator of uniform noise. -/
def exUniformNoise (amp : ℝ) : NoiseGen := ⟨some .uniform, some [("amp", amp)]⟩

/-- The generator of Gaussian noise. -/
def exGaussianNoise (std : ℝ) : NoiseGen := ⟨some .gaussian, some [("std", std)]⟩

/-- Constant draws. -/
def exNoiseDraws (u z : ℝ) : NoiseDraws :=
  ⟨fun _ _ => u, fun _ _ => u, fun _ _ => z, fun _ _ => z, fun t c => t == c⟩

/-- The hypotheses of the theorems on uniform noise are met, also with weights. -/
example : (exUniformNoise 2).dist = some .uniform ∧ (exUniformNoise 2).param "amp" = .ok 2 ∧
    Variability "homoscedastic" none 3 ∧ Variability "heteroscedastic" (some [1, 0, 2]) 3 ∧
    Variability "heteroscedastic" none 3 ∧ UnitDraws (exNoiseDraws (3 / 4) 1) := by
  refine ⟨rfl, rfl, .inl rfl, .inr ⟨rfl, ?_⟩, .inr ⟨rfl, by simp⟩, fun t c => ?_⟩
  · rintro ws ⟨⟩; decide
  · norm_num [exNoiseDraws]

/-- Those of the theorem on Gaussian noise are met, also with spikes. -/
example : (exGaussianNoise 2).param "std" = .ok 2 ∧
    (∀ t < 2, 0 ≤ weightAt "heteroscedastic" (some [1, 3]) t) ∧
    (⟨some .spiked, some [("p_spike", 1 / 2), ("std", 1), ("spike", -5)]⟩ : NoiseGen).param "spike"
      = .ok (-5) := by
  refine ⟨rfl, fun t ht => ?_, rfl⟩
  unfold weightAt
  rw [if_neg (by decide)]
  interval_cases t <;> norm_num

/-- A generator is set up with the parameters its distribution needs, and perhaps others. -/
example : ∃ g, (NoiseGen.new.setDistribution "spiked_gaussian" >>= fun g => g.setParameters
    [("p_spike", 1 / 2), ("std", 1), ("amp", 2), ("spike", -5)]) = .ok g :=
  (C108_setup _ _).1.mpr ⟨_, rfl, by
    intro p hp
    simp only [List.mem_cons, List.not_mem_nil, or_false] at hp
    rcases hp with rfl | rfl | rfl
    · exact ⟨1, rfl⟩
    · exact ⟨-5, rfl⟩
    · exact ⟨1 / 2, rfl⟩⟩

/-! ## Violations -/

/-- **C108 is violated for the default weights.** They are ones, which the documentation calls
homoscedastic noise.  The noise has both parts then, and values that homoscedastic noise of the same
amplitude never has. -/
theorem C108_default_weights_violated {g : NoiseGen} {T F : ℕ} {amp : ℝ}
    (hg : g.dist = some .uniform) (ha : g.param "amp" = .ok amp) (hne : amp ≠ 0) {t c : ℕ} (ht : t < T)
    (hc : c < F) :
    (∃ d p, UnitDraws d ∧ generateNoise g T F "heteroscedastic" none d = .ok p ∧
      |amp| / 2 < valueAt p t c) ∧
    ∀ d p, UnitDraws d → generateNoise g T F "homoscedastic" none d = .ok p →
      |valueAt p t c| ≤ |amp| / 2 := by
  have hpos : 0 < |amp| := abs_pos.mpr hne
  constructor
  · have hd : UnitDraws (exNoiseDraws (7 / 8) 0) := fun t c => by norm_num [exNoiseDraws]
    obtain ⟨p, h1, -, h2⟩ := C108_uniform (F := F) (weights := none) hg ha
      (v := "heteroscedastic") (T := T) (.inr ⟨rfl, by simp⟩) hd
    refine ⟨_, p, hd, h1, ?_⟩
    rw [(h2 t ht c hc).1]
    simp only [weightAt, if_neg (show ¬ "heteroscedastic" = "homoscedastic" by decide), exNoiseDraws]
    linarith
  · intro d p hd h
    obtain ⟨p', h1, -, h2⟩ := C108_uniform (F := F) (weights := none) hg ha
      (v := "homoscedastic") (T := T) (.inl rfl) hd
    rw [h] at h1
    cases h1
    have := (h2 t ht c hc).2
    simpa [weightAt] using this

/-- **C108 is violated for the weight zero.** The weights are documented as scaling the variance of
the noise at each data point; where the weight is zero, the noise is still there, and is as large as
homoscedastic noise. -/
theorem C108_zero_weight_violated {g : NoiseGen} {T F : ℕ} {amp : ℝ} {ws : List ℝ}
    (hg : g.dist = some .uniform) (ha : g.param "amp" = .ok amp) (hw : T ≤ ws.length) {t c : ℕ}
    (ht : t < T) (hc : c < F) (h0 : ws.getD t 0 = 0) {d : NoiseDraws} (hd : UnitDraws d) :
    ∃ p, generateNoise g T F "heteroscedastic" (some ws) d = .ok p ∧
      valueAt p t c = |amp| * (d.unit t c - 1 / 2) := by
  obtain ⟨p, h1, -, h2⟩ := C108_uniform (F := F) (weights := some ws) hg ha
    (v := "heteroscedastic") (T := T) (.inr ⟨rfl, by rintro _ ⟨⟩; exact hw⟩) hd
  refine ⟨p, h1, ?_⟩
  rw [(h2 t ht c hc).1]
  simp only [weightAt, if_neg (show ¬ "heteroscedastic" = "homoscedastic" by decide), h0, zero_mul,
    add_zero]

/-- **C108 is violated for a change of the distribution.** The parameters of the former one are
kept: `set_noise_distribution` accepts the change, and the next noise raises `KeyError`. -/
theorem C108_change_violated (amp : ℝ) {T F : ℕ} (d : NoiseDraws) :
    ∃ g, (exUniformNoise amp).setDistribution "gaussian" = .ok g ∧
      generateNoise g T F "homoscedastic" none d = .error .keyError :=
  ⟨_, rfl, rfl⟩

/-- **C108 is violated for an unknown variability.** Unlike an unknown distribution, it is not
refused: the noise is never assigned, which is `UnboundLocalError`. -/
theorem C108_variability_violated {g : NoiseGen} {T F : ℕ} {v : String} {weights : Option (List ℝ)}
    (hg : g.dist ≠ some .spiked) (h1 : v ≠ "homoscedastic") (h2 : v ≠ "heteroscedastic")
    (d : NoiseDraws) : generateNoise g T F v weights d = .error .unboundLocal := by
  unfold generateNoise baseNoise spikeNoise
  rw [if_neg h1, if_neg h2, if_neg hg]
  rfl

/-- **C108 is violated for a negative deviation.** `set_noise_parameters` accepts it, while the sign
of an amplitude does not matter; every noise then raises `ValueError`. -/
theorem C108_negative_violated {std : ℝ} (h : std < 0) {T F : ℕ} (d : NoiseDraws) :
    (NoiseGen.new.setDistribution "gaussian" >>= fun g => g.setParameters [("std", std)])
      = .ok (exGaussianNoise std) ∧
    generateNoise (exGaussianNoise std) T F "homoscedastic" none d = .error .valueError := by
  refine ⟨rfl, ?_⟩
  have : raiseIf (std < 0) PyErr.valueError = .error .valueError := by
    unfold raiseIf
    rw [if_pos h]
  unfold generateNoise baseNoise homNoise
  rw [if_pos rfl]
  show ((do
    let std ← (exGaussianNoise std).param "std"
    raiseIf (std < 0) .valueError
    pure (some (pathOfShape T F fun t c => std * d.normal t c))) >>= _) = _
  rw [show (exGaussianNoise std).param "std" = .ok std from rfl]
  simp only [bind, Except.bind, this]

/-- **C108 is violated for too few weights.** The number of weights is not checked: with fewer
weights than times, `IndexError`. -/
theorem C108_few_weights_violated {g : NoiseGen} {T F : ℕ} {amp : ℝ} {ws : List ℝ}
    (hg : g.dist = some .uniform) (ha : g.param "amp" = .ok amp) (hw : ws.length < T)
    (d : NoiseDraws) :
    generateNoise g T F "heteroscedastic" (some ws) d = .error .indexError := by
  unfold generateNoise baseNoise hetNoise
  rw [if_neg (by decide), if_pos rfl]
  dsimp only [Option.getD_some]
  have : (List.range T).mapM (fun t => do
      let w ← orRaise ws[t]? PyErr.indexError
      hetRow g F d w t) = .error .indexError := by
    refine mapM_error (x := ws.length) (List.mem_range.mpr hw) ?_ fun t _ => ?_
    · rw [List.getElem?_eq_none le_rfl]
      rfl
    · rcases lt_or_ge t ws.length with ht | ht
      · have hh : ∃ r, hetRow g F d ws[t] t = .ok r := by
          unfold hetRow
          rw [hg]
          dsimp only
          rw [ha]
          exact ⟨_, rfl⟩
        obtain ⟨r, hr⟩ := hh
        refine .inr ⟨r, ?_⟩
        rw [List.getElem?_eq_getElem ht]
        exact hr
      · rw [List.getElem?_eq_none ht]
        exact .inl rfl
  rw [this]
  rfl

/-- **C108 (order).** Without a distribution, no parameters are accepted. -/
theorem C108_order (ps : KDict String ℝ) : NoiseGen.new.setParameters ps = .error .runtimeError := rfl

/-- **C108 is violated for a negative weight.** With the uniform distribution the sign of a weight does
not matter; with the others a single negative weight is `ValueError`. -/
theorem C108_negative_weight_violated {g : NoiseGen} {T F : ℕ} {std : ℝ} {ws : List ℝ}
    (hg : g.dist = some .gaussian ∨ g.dist = some .spiked) (ha : g.param "std" = .ok std) (hs : 0 < std)
    (hw : T ≤ ws.length) {t : ℕ} (ht : t < T) (hneg : ws.getD t 0 < 0) (d : NoiseDraws) :
    generateNoise g T F "heteroscedastic" (some ws) d = .error .valueError := by
  have hrow : ∀ (w : ℝ) (t : ℕ), hetRow g F d w t = (do
      raiseIf (std * w < 0) .valueError
      return (List.range F).map fun c => std * d.normal t c + std * w * d.normal' t c) := by
    intro w t
    have h0 : raiseIf (std < 0) PyErr.valueError = .ok () := by
      unfold raiseIf
      rw [if_neg (by linarith)]
    unfold hetRow
    rcases hg with h | h <;> rw [h] <;> dsimp only <;> rw [ha] <;> simp only [bind, Except.bind, h0]
  unfold generateNoise baseNoise hetNoise
  rw [if_neg (by decide), if_pos rfl]
  dsimp only [Option.getD_some]
  have : (List.range T).mapM (fun t => do
      let w ← orRaise ws[t]? PyErr.indexError
      hetRow g F d w t) = .error .valueError := by
    refine mapM_error (x := t) (List.mem_range.mpr ht) ?_ fun t' ht' => ?_
    · have hlt : t < ws.length := by omega
      rw [List.getD_eq_getElem?_getD, List.getElem?_eq_getElem hlt, Option.getD_some] at hneg
      rw [List.getElem?_eq_getElem hlt]
      show hetRow g F d ws[t] t = _
      rw [hrow]
      unfold raiseIf
      rw [if_pos (by nlinarith)]
      rfl
    · have hlt : t' < ws.length := by have := List.mem_range.mp ht'; omega
      rw [List.getElem?_eq_getElem hlt]
      show hetRow g F d ws[t'] t' = _ ∨ ∃ b, hetRow g F d ws[t'] t' = .ok b
      rw [hrow]
      unfold raiseIf
      split_ifs
      · exact .inl rfl
      · exact .inr ⟨_, rfl⟩
  rw [this]
  rfl

/-- A generator with a negative weight. -/
example (d : NoiseDraws) :
    generateNoise (exGaussianNoise 1) 2 1 "heteroscedastic" (some [1, -1]) d = .error .valueError :=
  C108_negative_weight_violated (.inl rfl) (std := 1) rfl one_pos (by simp) (t := 1) (by norm_num)
    (by norm_num) d

end Hooke
