import Verif.Model.NoiselessDataset
import Verif.Props.NoisyDatasetCases

/-!
# C155: noiseless data sets of the noisy data set generator
-/

noncomputable section

namespace Hooke

open Spec

variable {n : ℕ} {σ : Type}

theorem noiselessSample_eq {co : List Comp} {features : List (String × ℕ)} {M : RcModel n σ}
    (h : GoodSetting co features M) (draws : ℕ → List (List ℝ)) (k j : ℕ) :
    noiselessSample n co M features draws k j = genSample n co M features draws k j := by
  induction k generalizing j with
  | zero => simp only [noiselessSample, genSample, noisyStressPath_eq h]
  | succ k ih => simp only [noiselessSample, genSample, noisyStressPath_eq h, ih]

theorem noiseless_eq {co : List Comp} {features : List (String × ℕ)} {M : RcModel n σ}
    (h : GoodSetting co features M) {pathType : String}
    (ht : pathType = "random" ∨ pathType = "proportional") (draws : ℕ → List (List ℝ)) (nPath : ℕ) :
    generateNoiselessDataset n co M features pathType draws nPath
      = generateResponseDataset n co M features draws nPath := by
  have hc : ¬ (pathType ≠ "random" ∧ pathType ≠ "proportional") := by tauto
  simp only [generateNoiselessDataset, generateResponseDataset, noiselessSample_eq h, raiseIf, if_neg hc]
  rfl

/-- **C155 (samples).** The generation returns exactly if the type of the strain paths is known, there is
a path to generate, and every sample, in turn, has a path without failure among the next ten strain
paths; the samples are the responses of these paths, in order. -/
theorem C155_samples {co : List Comp} {features : List (String × ℕ)} {M : RcModel n σ}
    (h : GoodSetting co features M) {pathType : String} {draws : ℕ → List (List ℝ)}
    (hne : ∀ j, draws j ≠ []) (hd : ∀ j, ∀ r ∈ draws j, co.length ≤ r.length) {nPath : ℕ}
    {l : List ResponsePath} :
    generateNoiselessDataset n co M features pathType draws nPath = .ok l ↔
      (pathType = "random" ∨ pathType = "proportional") ∧ nPath ≠ 0 ∧ l.length = nPath ∧
      ∃ used : ℕ → ℕ, used 0 = 0 ∧
        ∀ i (hi : i < l.length), Sampled co features M draws (used i) (used (i + 1)) l[i] := by
  by_cases ht : pathType = "random" ∨ pathType = "proportional"
  · rw [noiseless_eq h ht, C102_samples h hne hd, and_iff_right ht]
  · refine iff_of_false (fun h' => ?_) fun h' => ht h'.1
    simp only [generateNoiselessDataset, bind_ok_iff, raiseIf_ok] at h'
    obtain ⟨-, h1, -⟩ := h'
    tauto

/-- **C155 (unknown type).** An unknown type of strain paths is refused before any path is drawn. -/
theorem C155_unknown_type (co : List Comp) (features : List (String × ℕ)) (M : RcModel n σ)
    {pathType : String} (ht : pathType ≠ "random" ∧ pathType ≠ "proportional")
    (draws : ℕ → List (List ℝ)) (nPath : ℕ) :
    generateNoiselessDataset n co M features pathType draws nPath = .error .runtimeError := by
  simp only [generateNoiselessDataset, raiseIf, if_pos ht]
  rfl

/-- **C155 (responses).** Every sample of a generated data set is the response of its own strain path,
one of the drawn ones, along which no state update failed, and its arrays have one column for each
component. -/
theorem C155_responses {co : List Comp} {features : List (String × ℕ)} {M : RcModel n σ}
    (h : GoodSetting co features M) {pathType : String} {draws : ℕ → List (List ℝ)}
    (hne : ∀ j, draws j ≠ []) (hd : ∀ j, ∀ r ∈ draws j, r.length = co.length) {nPath : ℕ}
    {l : List ResponsePath}
    (hg : generateNoiselessDataset n co M features pathType draws nPath = .ok l) :
    ∀ x ∈ l, NoiselessPath co.length x ∧ (∃ j, x.strain = draws j) ∧
      ∃ st, Succeeds co M x.strain st ∧ x = responseOf co features M x.strain st := by
  obtain ⟨-, -, -, used, -, h1⟩ := (C155_samples h hne fun j r hr => (hd j r hr).ge).1 hg
  intro x hx
  obtain ⟨i, hi, rfl⟩ := List.getElem_of_mem hx
  obtain ⟨-, -, ⟨st, h2, h3⟩, -⟩ := h1 i hi
  generalize l[i] = x at h3
  generalize used (i + 1) - 1 = j at h2 h3
  subst h3
  refine ⟨⟨hne _, ⟨rfl, fun r hr => hd _ r hr⟩, by simp [responseOf], fun r hr => ?_⟩, ⟨_, rfl⟩, st, h2, rfl⟩
  simp only [responseOf, List.mem_map] at hr
  obtain ⟨t, -, rfl⟩ := hr
  split
  · simp
  · simp [kelvinComps]

/-- **C155 (no noise).** The two steps fit together: noise of amplitude zero gives the generated
noiseless data set back, with noise arrays of zeros. -/
theorem C155_zero_noise {S : NoisySetup} {co : List Comp} {features : List (String × ℕ)}
    {M : RcModel n σ} (hS : GoodNoise S n co features M) {pathType : String}
    {paths : ℕ → List (List ℝ)} (hne : ∀ j, paths j ≠ [])
    (hd : ∀ j, ∀ r ∈ paths j, r.length = co.length) {nPath : ℕ} {l : List ResponsePath}
    (hg : generateNoiselessDataset n co M features pathType paths nPath = .ok l)
    {m : ℝ} (hm : UsedVariability S n co l m) (draws : ℕ → NoiseDraws)
    (hu : S.gen.dist = some .uniform) (ha : S.gen.param "amp" = .ok 0) (hden : S.denoise = false) :
    generateNoisyDataset S n co M features l draws = .ok (l.map fun x =>
      ⟨x, arrayOf x.strain.length co.length fun _ _ => 0,
        arrayOf x.strain.length co.length fun _ _ => 0⟩) := by
  have hr := C155_responses hS.setting hne hd hg
  refine C109_zero hS ?_ (fun x hx => (hr x hx).1) (fun x hx => (hr x hx).2.2) hm draws hu ha hden
  rintro rfl
  obtain ⟨-, h1, h2, -⟩ := (C155_samples hS.setting hne fun j r hr => (hd j r hr).ge).1 hg
  exact h1 h2.symm

/-- **C155 (noisy responses).** Whatever the noise: every sample of the noisy data set is the response of
its own noisy strain path, along which no state update failed, and there is one for each noiseless
sample. -/
theorem C155_noisy_responses {S : NoisySetup} {co : List Comp} {features : List (String × ℕ)}
    {M : RcModel n σ} (hS : GoodNoise S n co features M) {pathType : String}
    {paths : ℕ → List (List ℝ)} (hne : ∀ j, paths j ≠ [])
    (hd : ∀ j, ∀ r ∈ paths j, r.length = co.length) {nPath : ℕ} {l : List ResponsePath}
    (hg : generateNoiselessDataset n co M features pathType paths nPath = .ok l)
    {m : ℝ} (hm : UsedVariability S n co l m) {draws : ℕ → NoiseDraws} {r : List NoisySample}
    (hr : generateNoisyDataset S n co M features l draws = .ok r) :
    r.length = nPath ∧ ∀ y ∈ r, ∃ st, Succeeds co M y.response.strain st ∧
      y.response = responseOf co features M y.response.strain st := by
  have hx := C155_responses hS.setting hne hd hg
  obtain ⟨-, -, h0, -⟩ := (C155_samples hS.setting hne fun j r hr => (hd j r hr).ge).1 hg
  obtain ⟨-, h1, used, -, h2⟩ := (C109_dataset hS (fun x h => (hx x h).1) hm).1 hr
  refine ⟨h1.trans h0, fun y hy => ?_⟩
  obtain ⟨i, hi, rfl⟩ := List.getElem_of_mem hy
  obtain ⟨-, -, ⟨st, h3, h4⟩, -⟩ := (h2 i (h1 ▸ hi) hi).sampled
  rw [h4]
  exact ⟨st, h3, rfl⟩

/-- Two samples, the first after one failed path. -/
theorem slider_noiseless : generateNoiselessDataset 1 sliderNet.co sliderNet.model sliderNet.features
    "proportional" (fun j => if j = 0 then [[0], [6]] else [[0], [1]]) 2 =
      .ok (List.replicate 2 (responseOf sliderNet.co sliderNet.features sliderNet.model [[0], [1]]
        fun t => if t = 0 then (0, 0) else (1, |1|))) := by
  rw [C155_samples slider_good (by intro j; split <;> simp)
    (by intro j; split; exacts [slider_rows 6, slider_rows 1])]
  refine ⟨.inr rfl, by norm_num, by simp, fun i => if i = 0 then 0 else i + 1, rfl, fun i hi => ?_⟩
  have hs : Succeeds sliderNet.co sliderNet.model [[0], [1]] fun t => if t = 0 then (0, 0) else (1, |1|) :=
    ⟨slider_trajectory 1, fun t h1 _ => by simp [sliderNet, h1.ne']⟩
  simp only [List.length_replicate] at hi
  simp only [List.getElem_replicate]
  interval_cases i
  · refine ⟨by norm_num, by norm_num, ⟨_, hs, rfl⟩, fun j h1 h2 => ?_⟩
    obtain rfl : j = 0 := by simp at h2; omega
    refine ⟨fun t => if t = 0 then (0, 0) else (6, |6|), 1, by norm_num, by norm_num,
      slider_trajectory 6, ?_, fun s h3 h4 => by omega⟩
    simp [sliderNet]; norm_num
  · refine ⟨by norm_num, by norm_num, ⟨_, hs, rfl⟩, fun j h1 h2 => ?_⟩
    simp at h1 h2
    omega

/-- The hypotheses of `C155_responses`, `C155_zero_noise` and `C155_noisy_responses` can be met: the
noisy data set of these two samples without noise. -/
example : ∃ l r, generateNoiselessDataset 1 sliderNet.co sliderNet.model sliderNet.features
      "proportional" (fun j => if j = 0 then [[0], [6]] else [[0], [1]]) 2 = .ok l ∧
    generateNoisyDataset ⟨.float32, false, exUniformNoise 0, "homoscedastic", none, none, false⟩ 1
      sliderNet.co sliderNet.model sliderNet.features l (fun _ => exNoiseDraws (3 / 4) 0) = .ok r ∧
    r.map NoisySample.response = l := by
  refine ⟨_, _, slider_noiseless, C155_zero_noise (pathType := "proportional")
    (S := ⟨.float32, false, exUniformNoise 0, "homoscedastic", none, none, false⟩)
    ⟨slider_good, by simp [sliderNet], .uniform rfl rfl, trivial, by simp⟩ (by intro j; split <;> simp) ?_
    slider_noiseless (m := 1) (.inl rfl) _ rfl rfl rfl, by simp⟩
  intro j r hr
  split at hr <;> simp only [List.mem_cons, List.not_mem_nil, or_false] at hr <;>
    rcases hr with rfl | rfl <;> simp [sliderNet]

/-- **C155 is violated for a path found in the last trial.** If ten paths fail and the next one does not,
the generation raises the error that the number of trials was reached without success. -/
theorem C155_last_trial_violated : ∃ (draws : ℕ → List (List ℝ)) (r : ResponsePath),
    GoodSetting sliderNet.co sliderNet.features sliderNet.model ∧ (∀ j, (draws j).length = 2) ∧
    noisyStressPath 1 sliderNet.co sliderNet.model sliderNet.features (draws 10).length (draws 10) =
      .ok (r, false) ∧
    generateNoiselessDataset 1 sliderNet.co sliderNet.model sliderNet.features "random" draws 1 =
      .error .runtimeError := by
  obtain ⟨draws, r, h1, h2, h3, h4⟩ := C102_last_trial_violated
  exact ⟨draws, r, h1, h2, by rw [noisyStressPath_eq h1, h3], by rw [noiseless_eq h1 (.inl rfl), h4]⟩

/-- **C155 is violated for an empty data set.** No samples requested: the average time per path is a
division by zero. -/
theorem C155_empty_violated (co : List Comp) (features : List (String × ℕ)) (M : RcModel n σ)
    (draws : ℕ → List (List ℝ)) :
    generateNoiselessDataset n co M features "random" draws 0 = .error .zeroDivision := rfl

end Hooke
