import Verif.Model.Hybrid
import Verif.Model.Elastic
import Mathlib.Data.List.OfFn

/-!
# Layers of hybrid models (`src/hookeai/model_architectures/hybrid_base_model/model/`)

`hybridized_layers.py` and `transfer_learning.py`.  A features tensor is the list of the feature vectors
of all its positions (the time and batch dimensions are flattened by the layers themselves); `nf` is the
size of its last dimension.  The choice of the device is not modelled.
-/

noncomputable section

namespace Hooke

/-! ## `PolynomialLinearRegressor` (transfer_learning.py:30-377) -/

/-- `PolynomialLinearRegressor`: numbers of features, degree, bias flag and the weights of the linear
layers, one for each feature (transfer_learning.py:109-133). -/
structure PolyRegressor where
  nIn : ℕ
  degree : ℕ
  bias : Bool
  weights : List (List ℝ)

/-- `_n_poly_coeff` (transfer_learning.py:121-124). -/
def PolyRegressor.nCoeff (m : PolyRegressor) : ℕ := if m.bias then m.degree + 1 else m.degree

/-- `ini_deg` (transfer_learning.py:220-223). -/
def PolyRegressor.iniDeg (m : PolyRegressor) : ℕ := if m.nCoeff = m.degree then 1 else 0

/-- The body of the loop over the features (transfer_learning.py:230-242): the output feature `i` at all
positions. `torch.stack` of no tensors raises. -/
def PolyRegressor.column (m : PolyRegressor) (nf : ℕ) (x : FeatTensor) (i : ℕ) : Py (List ℝ) := do
  raiseIf (nf ≤ i) .indexError
  raiseIf (m.nCoeff = 0) .runtimeError
  .ok (x.map fun r => (List.zipWith (· * ·) (m.weights.getD i [])
    ((List.range' m.iniDeg m.nCoeff).map fun deg => r.getD i 0 ^ deg)).sum)

/-- `PolynomialLinearRegressor.forward` (transfer_learning.py:179-256). -/
def PolyRegressor.forward (m : PolyRegressor) (nf : ℕ) (x : FeatTensor) : Py FeatTensor := do
  let cols ← (List.range m.nIn).mapM (m.column nf x)
  raiseIf (cols = []) .runtimeError
  raiseIf (x.length * m.nIn ≠ x.length * nf) .runtimeError
  .ok ((List.range x.length).map fun b => cols.map fun c => c.getD b 0)

/-! ## `BatchedElasticModel` -/

/-- The two classes with this name: hybridized_layers.py:28-256 and transfer_learning.py:379-605. -/
inductive ElasticClass
  | hybridizedLayers | transferLearning

/-- `_comp_order_sym` (matrixops.py:70-80), components counted from 0. -/
def layerOrder : (p : PType) → Fin p.len → ℕ × ℕ
  | .plane => ![(0, 0), (1, 1), (0, 1)]
  | .solid => ![(0, 0), (1, 1), (2, 2), (0, 1), (1, 2), (0, 2)]

/-- `_kelvin_matrix` (hybridized_layers.py:138-141, transfer_learning.py:489-492). -/
def kelvinMatrix (p : PType) (i : Fin p.len) : ℝ :=
  if (layerOrder p i).1 ≠ (layerOrder p i).2 then √2 else 1

/-- `BatchedElasticModel.__init__` (hybridized_layers.py:114-141, transfer_learning.py:465-492): the
elastic tangent. The argument `elastic_symmetry` is stored but not used. -/
def batchedElasticInit (p : PType) (d : Props) (_s : ElSym) : Py (Fin p.len → Fin p.len → ℝ) :=
  (elasticTangentModulus d .isotropic).map (to2DM p)

/-- Elastic strain (hybridized_layers.py:216-230, transfer_learning.py:568-582). -/
def elasticStrainOf (c : ElasticClass) (n nf : ℕ) (x : FeatTensor) : Py FeatTensor :=
  if nf = n then .ok x
  else if nf = 2 * n then
    .ok (x.map fun r => match c with
      | .hybridizedLayers => List.zipWith (· - ·) (r.drop n) (r.take n)
      | .transferLearning => List.zipWith (· - ·) (r.take n) (r.drop n))
  else .error .runtimeError

/-- `BatchedElasticModel.forward` (hybridized_layers.py:175-256, transfer_learning.py:526-605). -/
def batchedElasticForward (c : ElasticClass) (p : PType) (D : Fin p.len → Fin p.len → ℝ) (nf : ℕ)
    (x : FeatTensor) : Py FeatTensor := do
  let e ← elasticStrainOf c p.len nf x
  .ok (e.map fun r => List.ofFn fun i => 1 / kelvinMatrix p i *
    ∑ j, D i j * (kelvinMatrix p j * r.getD j 0))

/-! ## `VolDevCompositionModel` (hybridized_layers.py:258-414) -/

/-- The loop over the components (hybridized_layers.py:393-400) on one feature vector. `features_out` is
a view of `features_in`, so the input itself is modified. -/
def volDevRow (r : List ℝ) : List ℝ :=
  (List.finRange 6).foldl (fun r i =>
    if (layerOrder .solid i).1 = (layerOrder .solid i).2 then r.modify (i + 1) (· + r.getD 0 0) else r) r

/-- `VolDevCompositionModel.forward` (hybridized_layers.py:336-414). Returns the output and the contents
of the tensor `features_in` after the call: it is modified in place. (`features_in` is contiguous and not
a leaf which requires gradients; otherwise torch raises.) -/
def volDevForward (nf : ℕ) (x : FeatTensor) : Py (FeatTensor × FeatTensor) :=
  if nf ≠ 1 + 6 then .error .runtimeError
  else .ok ((x.map volDevRow).map (·.drop 1), x.map volDevRow)

end Hooke
