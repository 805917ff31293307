import Mathlib.Data.Real.Basic
import Mathlib.Algebra.BigOperators.Group.Finset.Basic
import Verif.Model.PyDict

/-!
# Strain and stress features of a data set

`model_architectures/materials/stress_features.py` and `strain_features.py`.  A component such as
`'12'` is the pair of its digits; a one-dimensional tensor is a list.
-/

namespace Hooke

noncomputable section

/-- `itertools.product(range(n_dim), repeat=2)` in row-major order, as components
(stress_features.py:202-203, strain_features.py:199-200). -/
def rowMajorComps (n : ℕ) : List (ℕ × ℕ) := (List.range (n * n)).map fun m => (m / n + 1, m % n + 1)

/-- Entry of `index_map` (stress_features.py:206-208, strain_features.py:203-205). -/
def compIndex (order : List (ℕ × ℕ)) (x : ℕ × ℕ) : Py ℕ :=
  if x ∈ order then .ok (order.idxOf x)
  else if x.swap ∈ order then .ok (order.idxOf x.swap)
  else .error .valueError

/-- `build_stress_from_comps` (stress_features.py:177-213) and `build_strain_from_comps`
(strain_features.py:174-210): the entries of the tensor in row-major order. -/
def buildFromComps (n : ℕ) (order : List (ℕ × ℕ)) (comps : List ℝ) : Py (List ℝ) :=
  (rowMajorComps n).mapM fun x => do
    let k ← compIndex order x
    orRaise comps[k]? .indexError

/-- `.view(n_dim, n_dim)`. -/
def viewSq (n : ℕ) (l : List ℝ) (i j : ℕ) : ℝ := l.getD (i * n + j) 0

/-- Index `int(x) - 1` of a digit; zero gives the last index. -/
def digitIndex (n x : ℕ) : Py ℕ := if x ≤ n then .ok (if x = 0 then n - 1 else x - 1) else .error .indexError

/-- `store_stress_comps` (stress_features.py:215-243). -/
def storeComps (n : ℕ) (order : List (ℕ × ℕ)) (S : ℕ → ℕ → ℝ) : Py (List ℝ) :=
  order.mapM fun x => do
    let i ← digitIndex n x.1
    let j ← digitIndex n x.2
    pure (S i j)

/-- `torch.trace`. -/
def traceSq (n : ℕ) (S : ℕ → ℕ → ℝ) : ℝ := ∑ i ∈ Finset.range n, S i i

/-- `torch.matmul` of square matrices. -/
def matmulSq (n : ℕ) (S T : ℕ → ℕ → ℝ) (i j : ℕ) : ℝ := ∑ k ∈ Finset.range n, S i k * T k j

/-- `compute_stress_feature` (stress_features.py:117-175). -/
def stressFeature (comps : List ℝ) (label : String) (n : ℕ) (order : List (ℕ × ℕ)) : Py (List ℝ) := do
  let flat ← buildFromComps n order comps
  let S := viewSq n flat
  if label = "vol_stress" then
    if n ≠ 3 then .error .runtimeError else .ok [traceSq n S]
  else if label = "dev_stress" then
    if n ≠ 3 then .error .runtimeError
    else storeComps n order fun i j => S i j - traceSq n S * (if i = j then 1 else 0)
  else .error .runtimeError

/-- `compute_strain_feature` (strain_features.py:117-172). -/
def strainFeature (comps : List ℝ) (label : String) (n : ℕ) (order : List (ℕ × ℕ)) : Py (List ℝ) := do
  let flat ← buildFromComps n order comps
  let S := viewSq n flat
  if label = "i1_strain" then
    if n ≠ 3 then .error .runtimeError else .ok [traceSq n S]
  else if label = "i2_strain" then
    if n ≠ 3 then .error .runtimeError
    else .ok [1 / 2 * (traceSq n S ^ 2 - traceSq n (matmulSq n S S))]
  else .error .runtimeError

/-- A sample: its component order, if stored, and its features (paths of component values). -/
structure FeatSample where
  order : Option (List (ℕ × ℕ))
  feats : PyDict (List (List ℝ))

/-- `torch.vmap` of a feature computation over the path: raising at one time point is raising. -/
def featurePath (f : List ℝ → Py (List ℝ)) (path : List (List ℝ)) : Py (List (List ℝ)) := path.mapM f

/-- Body of the loop over the samples (stress_features.py:91-113, strain_features.py:91-113): the
component order is the one of the first sample. -/
def addFeature (pathKey label : String) (f : List ℝ → Py (List ℝ)) (s : FeatSample) : Py FeatSample := do
  let path ← orRaise (s.feats.get? pathKey) .keyError
  let new ← featurePath f path
  pure { s with feats := s.feats.put label new }

/-- Number of dimensions (stress_features.py:77-80, strain_features.py:77-80). -/
def orderDim (order : List (ℕ × ℕ)) : ℕ := if order.length = 3 ∨ order.length = 4 then 2 else 3

/-- `add_stress_features` (stress_features.py:32-115) for a data set given by its list of samples; the
returned data set holds the changed samples (in memory: the same objects). -/
def addStressFeatures (ds : List FeatSample) (label : String) : Py (List FeatSample) := do
  let s ← orRaise ds.head? .indexError
  raiseIf (s.feats.get? "stress_path" = none) .runtimeError
  let order ← orRaise s.order .runtimeError
  raiseIf (label ≠ "vol_stress" ∧ label ≠ "dev_stress") .runtimeError
  ds.mapM (addFeature "stress_path" label fun c => stressFeature c label (orderDim order) order)

/-- `add_strain_features` (strain_features.py:32-115). -/
def addStrainFeatures (ds : List FeatSample) (label : String) : Py (List FeatSample) := do
  let s ← orRaise ds.head? .indexError
  raiseIf (s.feats.get? "strain_path" = none) .runtimeError
  let order ← orRaise s.order .runtimeError
  raiseIf (label ≠ "i1_strain" ∧ label ≠ "i2_strain") .runtimeError
  ds.mapM (addFeature "strain_path" label fun c => strainFeature c label (orderDim order) order)

end

end Hooke
