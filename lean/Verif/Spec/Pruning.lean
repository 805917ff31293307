import Verif.Model.Pruning

/-!
# Specification vocabulary for the pruning of a data set
-/

namespace Hooke.Spec

variable {M : Type}

/-- Random permutations are permutations, and a listing of a directory has every file once. -/
structure Shuffles (env : PruneEnv M) : Prop where
  step : ∀ k n, (env.stepPerm k n).Perm (List.range n)
  iter : ∀ k n, (env.iterPerm k n).Perm (List.range n)
  listdir : ∀ k n, (env.listdir k n).Perm (List.range n)

/-- The subsets have their documented names. -/
structure NamedSubsets (p : PruneParams) : Prop where
  step : (p.stepSizes.map Prod.fst).Perm ["training", "validation", "testing"]
  iter : (p.iterSizes.map Prod.fst).Perm ["training", "validation"]

/-- The pruning scheduler asks for `n` samples of `nDev`: a fixed number, or a proportion rounded
towards zero. -/
def Scheduled (p : PruneParams) (nDev : ℕ) (n : ℤ) : Prop :=
  (p.scheduler = "constant" ∧ p.nPrunSample = some n) ∨
    (p.scheduler = "proportional" ∧ ∃ r : ℝ, p.prunRatio = some r ∧
      (0 ≤ r → n = ⌊r * nDev⌋) ∧ (r ≤ 0 → n = ⌈r * nDev⌉))

/-- Size `t` of the subset `name` of `n` samples, for fractions which add to one: the fraction
rounded down, and one more for the first subsets if samples are left over. -/
def SubsetSize (sizes : List (String × ℝ)) (name : String) (n t : ℕ) : Prop :=
  (sizes.map Prod.snd).sum = 1 → ∀ k f, sizes[k]? = some (name, f) →
    t = ⌊(n : ℝ) * f⌋₊ + if k < n - (sizes.map fun p => ⌊(n : ℝ) * p.2⌋₊).sum then 1 else 0

/-- A pruning step from the development and unused samples `dev`, `unused` to `dev'`, `unused'`:
the development samples are divided into training, validation and testing samples; with a model
trained on the training and validation samples (the testing samples take the place of the
validation samples if they are as many), testing samples of the smallest losses, as many as
scheduled, are moved from the development samples to the unused samples. -/
def PruningStep (env : PruneEnv M) (p : PruneParams) (k : ℕ) (dev unused dev' unused' : List ℕ) :
    Prop :=
  ∃ (train val test gone kept : List ℕ) (m : M) (n : ℤ),
    (train ++ val ++ test).Perm dev ∧ train ≠ [] ∧ val ≠ [] ∧ test ≠ [] ∧
    env.trainStep k train (if val.length = test.length then test else val) = .ok m ∧
    (gone ++ kept).Perm test ∧ (∀ a ∈ gone, ∀ b ∈ kept, env.loss m a ≤ env.loss m b) ∧
    Scheduled p dev.length n ∧ (0 ≤ n → gone.length = min n.toNat test.length) ∧
    dev'.Sublist dev ∧ (gone ++ dev').Perm dev ∧ unused' = unused ++ gone ∧
    (n : ℝ) / test.length ≤ p.prunTestRatioMax ∧
    SubsetSize p.stepSizes "training" dev.length train.length ∧
    SubsetSize p.stepSizes "validation" dev.length val.length ∧
    SubsetSize p.stepSizes "testing" dev.length test.length

/-- Why the pruning ends before a step from `nDev` development samples. -/
def StopReason (p : PruneParams) (nFull nDev : ℕ) (status : String) : Prop :=
  ((nDev : ℝ) ≤ p.nDevMin ∧ status = "Minimum development data set size reached.") ∨
    ((nDev : ℝ) / nFull < p.ratioDevMin ∧
      status = "Minimum pruning testing data set size ratio reached.") ∨
    ((nDev : ℝ) < p.nPrunTestMin ∧ status = "Minimum pruning testing data set size reached.") ∨
    (∃ (n : ℤ) (nTest : ℕ), Scheduled p nDev n ∧ 0 < nTest ∧ nTest ≤ nDev ∧
      SubsetSize p.stepSizes "testing" nDev nTest ∧ p.prunTestRatioMax < (n : ℝ) / nTest ∧
      status = "Maximum pruned samples testing ratio reached.")

/-- Development sets which may be pruned. -/
def PruneAdmissible (p : PruneParams) (nFull nDev : ℕ) : Prop :=
  p.nDevMin < nDev ∧ p.ratioDevMin ≤ (nDev : ℝ) / nFull ∧ p.nPrunTestMin ≤ nDev

/-- Mean loss of a model. -/
noncomputable def meanLoss (env : PruneEnv M) (m : M) (l : List ℕ) : ℝ :=
  (l.map (env.loss m)).sum / l.length

/-- The samples of a testing type. -/
def testSamples (cfg : PruneCfg) (unused : List ℕ) (t : String) : List ℕ :=
  if t = "unused_data" then unused else (cfg.external t).getD []

/-- Evaluation of the development samples `dev` in iteration `k`: they are divided into training
and validation samples; a model is trained on them and tested on every testing type; `d` are the
recorded sizes and losses. -/
structure PruningIteration (env : PruneEnv M) (cfg : PruneCfg) (nFull k : ℕ)
    (dev unused train val : List ℕ) (m : M) (d : IterData) : Prop where
  partition : (train ++ val).Perm dev
  train_ne : train ≠ []
  val_ne : val ≠ []
  trained : env.trainIter k train val = .ok m
  nFull : d.nFull = nFull
  iter : d.iter = k
  nDev : d.nDev = dev.length
  nTrain : d.nTrain = train.length
  nValid : d.nValid = val.length
  nUnused : d.nUnused = unused.length
  trainSize : SubsetSize cfg.params.iterSizes "training" dev.length train.length
  validSize : SubsetSize cfg.params.iterSizes "validation" dev.length val.length
  losses : d.losses = cfg.testing.map fun t =>
    (t, if t = "unused_data" ∧ unused = [] then none
      else some (meanLoss env m (testSamples cfg unused t)))

/-- The data sets and the model of an iteration are on disk. -/
def Stored (fs : PFs M) (removed : Bool) (train val : List ℕ) (m : M) : Prop :=
  fs.load (datasetPath ["n" ++ toString train.length, "1_training_dataset"] train.length) =
      .ok train ∧
    fs.load (datasetPath ["n" ++ toString train.length, "2_validation_dataset"] val.length) =
      .ok val ∧
    (removed = false → fs.loadModel ["n" ++ toString train.length, "3_model"] = .ok m)

/-- The iterations of a pruning of the samples `full`: `tr k` are the development and the unused
samples of iteration `k`, `data` are the records of the iterations and `fs` are the files. An
iteration is on disk unless a later one has as many training samples. -/
structure PruningRun (env : PruneEnv M) (cfg : PruneCfg) (full : List ℕ) (data : List IterData)
    (fs : PFs M) (tr : ℕ → List ℕ × List ℕ) : Prop where
  start : tr 0 = (full, [])
  iteration : ∀ k d, data[k]? = some d → ∃ train val m,
    PruningIteration env cfg full.length k (tr k).1 (tr k).2 train val m d ∧
    ((∀ j d', k < j → data[j]? = some d' → d'.nTrain ≠ d.nTrain) →
      Stored fs cfg.removeModels train val m)
  step : ∀ k, k + 1 < data.length →
    PruningStep env cfg.params (k + 1) (tr k).1 (tr k).2 (tr (k + 1)).1 (tr (k + 1)).2 ∧
    PruneAdmissible cfg.params full.length (tr k).1.length

/-- What a pruning needs: every training succeeds, the testing data sets exist and are not empty,
the fractions add to one, and there is a number `L` of development samples, at most the size of the
full data set, which is enough for every subset to get a sample and below which no step of a larger
development set goes. -/
structure Completable (env : PruneEnv M) (cfg : PruneCfg) (nFull L : ℕ) : Prop where
  trainStep : ∀ k a b, ∃ m, env.trainStep k a b = .ok m
  trainIter : ∀ k a b, ∃ m, env.trainIter k a b = .ok m
  testing : ∀ t ∈ cfg.testing, t = "unused_data" ∨
    ((t = "in_distribution" ∨ t = "out_distribution") ∧ ∃ l, cfg.external t = some l ∧ l ≠ [])
  stepSum : (cfg.params.stepSizes.map Prod.snd).sum = 1
  iterSum : (cfg.params.iterSizes.map Prod.snd).sum = 1
  enough : ∀ q ∈ cfg.params.stepSizes ++ cfg.params.iterSizes, 0 ≤ q.2 ∧ 1 ≤ (L : ℝ) * q.2
  start : L ≤ nFull
  schedule : ∀ n : ℕ, L ≤ n → ∃ c : ℤ, Scheduled cfg.params n c ∧ 0 ≤ c ∧
    (cfg.params.nDevMin < n → (L : ℤ) + c ≤ n)

/-- Why the preview ends before a step from `nDev` development samples. -/
def PreviewStop (p : PruneParams) (nFull : ℕ) (nDev : ℤ) (status : String) : Prop :=
  ((nDev : ℝ) ≤ p.nDevMin ∧ status = "Minimum development data set size reached.") ∨
    ((nDev : ℝ) / nFull ≤ p.ratioDevMin ∧
      status = "Minimum development data set size ratio reached.") ∨
    ∃ (ft fv : ℝ) (c nTest : ℤ), p.stepSizes.lookup "training" = some ft ∧
      p.stepSizes.lookup "validation" = some fv ∧ Scheduled p nDev.toNat c ∧
      nTest = nDev - ⌊ft * nDev⌋ - ⌊fv * nDev⌋ ∧
      (((nTest : ℝ) < p.nPrunTestMin ∧ status = "Minimum pruning testing data set size reached.") ∨
        (p.prunTestRatioMax < (c : ℝ) / nTest ∧
          status = "Maximum pruned samples testing ratio reached."))

/-- The lines of a preview for `nFull` samples: the first line has all samples as development
samples, every other line has the scheduled number of samples less than the line before, and the
training samples are the fraction of the development samples rounded down. -/
structure Preview (p : PruneParams) (nFull : ℕ) (lines : List PreviewLine) : Prop where
  start : ∀ l : PreviewLine, lines[0]? = some l → l.nDev = nFull
  line : ∀ (k : ℕ) (l : PreviewLine), lines[k]? = some l → l.iter = k ∧ l.nDev + l.nUnused = nFull ∧
    l.nTrain + l.nValid = l.nDev ∧
    ∃ f : ℝ, p.iterSizes.lookup "training" = some f ∧ l.nTrain = ⌊f * l.nDev⌋
  step : ∀ (k : ℕ) (l l' : PreviewLine), lines[k]? = some l → lines[k + 1]? = some l' →
    ∃ c, Scheduled p l.nDev.toNat c ∧ l'.nDev = l.nDev - c ∧ p.nDevMin < l.nDev ∧
      p.ratioDevMin < (l.nDev : ℝ) / nFull

end Hooke.Spec
