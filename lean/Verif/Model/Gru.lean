import Verif.Model.PyUtil
import Mathlib.Analysis.SpecialFunctions.Sigmoid
import Mathlib.Analysis.Complex.Trigonometric
import Mathlib.Algebra.BigOperators.Intervals
import Mathlib.Data.Real.Sqrt

/-!
# Gated recurrent unit model

Models `src/hookeai/model_architectures/rnn_base_model/custom/gru_vmap.py` and the
forward propagation of
`src/hookeai/model_architectures/rnn_base_model/model/gru_model.py`.

Floats are reals.  Devices and gradients are left out; `reset_parameters` (lines
118-129 of `gru_vmap.py`) is random, so that the weights are arbitrary reals.
-/

namespace Hooke

open Finset

noncomputable section

/-- A two-dimensional `torch.Tensor`. -/
structure Mat where
  rows : ℕ
  cols : ℕ
  val : ℕ → ℕ → ℝ

/-- `torch.mm(x, w.t())` for a weight tensor of shape `(r, c)` (gru_vmap.py:170-172):
`RuntimeError` unless the inner sizes agree. -/
def mmT (x : Mat) (r c : ℕ) (w : ℕ → ℕ → ℝ) : Py Mat := do
  raiseIf (x.cols ≠ c) .runtimeError
  .ok ⟨x.rows, r, fun p i => ∑ j ∈ range c, x.val p j * w i j⟩

/-- Addition of a bias tensor of the size of a row (gru_vmap.py:170-172). -/
def addBias (m : Mat) (b : ℕ → ℝ) : Mat := ⟨m.rows, m.cols, fun p i => m.val p i + b i⟩

/-- `torch.chunk(m, chunks=3, dim=1)[k]` of a tensor whose number of columns is a multiple
of three (gru_vmap.py:174-175). -/
def chunk3 (m : Mat) (k : ℕ) : Mat :=
  ⟨m.rows, m.cols / 3, fun p j => m.val p (k * (m.cols / 3) + j)⟩

/-- Broadcast size of a dimension: the sizes are equal or one of them is 1. -/
def bcSize (a b : ℕ) : Py ℕ :=
  if a = b then .ok a else if a = 1 then .ok b else if b = 1 then .ok a else .error .runtimeError

/-- Index into a dimension of size `n` after broadcasting. -/
def bcIndex (n i : ℕ) : ℕ := if n = 1 then 0 else i

/-- Elementwise binary operation of two-dimensional tensors, with broadcasting. -/
def mapMat₂ (f : ℝ → ℝ → ℝ) (a b : Mat) : Py Mat := do
  let r ← bcSize a.rows b.rows
  let c ← bcSize a.cols b.cols
  .ok ⟨r, c, fun p j =>
    f (a.val (bcIndex a.rows p) (bcIndex a.cols j)) (b.val (bcIndex b.rows p) (bcIndex b.cols j))⟩

/-- Elementwise unary operation. -/
def mapMat (f : ℝ → ℝ) (a : Mat) : Mat := ⟨a.rows, a.cols, fun p j => f (a.val p j)⟩

/-- `GRUCell` (gru_vmap.py:62-116): sizes, weight tensors of shape
`(3*hidden_size, input_size)` and `(3*hidden_size, hidden_size)` and bias tensors of size
`3*hidden_size`.  Without bias, the bias tensors are zeros (lines 107-113). -/
structure GruCell where
  inputSize : ℕ
  hiddenSize : ℕ
  wIh : ℕ → ℕ → ℝ
  wHh : ℕ → ℕ → ℝ
  bIh : ℕ → ℝ
  bHh : ℕ → ℝ

/-- `GRUCell.forward(input, hx)` for a two-dimensional input (gru_vmap.py:170-193; lines
154-168 and 190-191, for one-dimensional inputs, are not used by `GRU` and left out). -/
def GruCell.forward (c : GruCell) (input hx : Mat) : Py Mat := do
  let gi ← mmT input (3 * c.hiddenSize) c.inputSize c.wIh
  let gi := addBias gi c.bIh
  let gh ← mmT hx (3 * c.hiddenSize) c.hiddenSize c.wHh
  let gh := addBias gh c.bHh
  let update ← mapMat₂ (· + ·) (chunk3 gi 1) (chunk3 gh 1)
  let update := mapMat Real.sigmoid update
  let reset ← mapMat₂ (· + ·) (chunk3 gi 0) (chunk3 gh 0)
  let reset := mapMat Real.sigmoid reset
  let new ← mapMat₂ (· * ·) reset (chunk3 gh 2)
  let new ← mapMat₂ (· + ·) (chunk3 gi 2) new
  let new := mapMat Real.tanh new
  let out ← mapMat₂ (· - ·) hx new
  let out ← mapMat₂ (· * ·) update out
  mapMat₂ (· + ·) out new

/-- `GRU` (gru_vmap.py:224-266). -/
structure Gru where
  hiddenSize : ℕ
  numLayers : ℕ
  cells : List GruCell

/-- The weights of one layer, as drawn by `reset_parameters`. -/
structure CellWeights where
  wIh : ℕ → ℕ → ℝ
  wHh : ℕ → ℕ → ℝ
  bIh : ℕ → ℝ
  bHh : ℕ → ℝ

/-- `GRU.__init__` (gru_vmap.py:246-266): one cell for the first layer, which is always
created, and one cell for each further layer, whose input is the hidden state. -/
def gruInit (inputSize hiddenSize numLayers : ℕ) (w : ℕ → CellWeights) : Gru :=
  ⟨hiddenSize, numLayers,
    ⟨inputSize, hiddenSize, (w 0).wIh, (w 0).wHh, (w 0).bIh, (w 0).bHh⟩ ::
      (List.range (numLayers - 1)).map fun l =>
        ⟨hiddenSize, hiddenSize, (w (l + 1)).wIh, (w (l + 1)).wHh, (w (l + 1)).bIh,
          (w (l + 1)).bHh⟩⟩

/-- `t.unsqueeze(1)`. -/
def unsqueeze1 (t : Tensor) : Tensor :=
  ⟨t.shape.insertIdx 1 1, fun idx => t.val (idx.eraseIdx 1)⟩

/-- `t.squeeze(1)`: the dimension is removed if its size is 1. -/
def squeeze1 (t : Tensor) : Tensor :=
  if t.shape[1]? = some 1 then ⟨t.shape.eraseIdx 1, fun idx => t.val (idx.insertIdx 1 0)⟩ else t

/-- `t[i, :, :]` as a matrix.  `IndexError` if `t` has fewer than three dimensions or `i` is
out of range; with more dimensions the product with the weights raises `RuntimeError`. -/
def matAt (t : Tensor) (i : ℕ) : Py Mat :=
  match t.shape with
  | [n, r, c] => if i < n then .ok ⟨r, c, fun p q => t.val [i, p, q]⟩ else .error .indexError
  | _ :: _ :: _ :: _ :: _ => .error .runtimeError
  | _ => .error .indexError

/-- `torch.stack(l, dim=0)` (gru_vmap.py:346-348): `RuntimeError` without tensors or with
tensors of different shapes. -/
def stackMats (l : List Mat) : Py Tensor :=
  match l with
  | [] => .error .runtimeError
  | m :: rest =>
    if ∀ u ∈ rest, u.rows = m.rows ∧ u.cols = m.cols then
      .ok ⟨[rest.length + 1, m.rows, m.cols],
        fun idx => ((m :: rest)[idx.getD 0 0]?.getD m).val (idx.getD 1 0) (idx.getD 2 0)⟩
    else .error .runtimeError

/-- The input of layer `l` (gru_vmap.py:333-336). -/
def layerInput (x : Mat) (hs : List Mat) (l : ℕ) : Py Mat :=
  if l = 0 then .ok x else orRaise hs[l - 1]? .indexError

/-- Body of the loop over the layers (gru_vmap.py:331-340).  The state is the list
`h_layers` and the variable `h_updated`, unbound at the beginning. -/
def layerStep (cells : List GruCell) (x : Mat) (s : List Mat × Option Mat) (l : ℕ) :
    Py (List Mat × Option Mat) := do
  let input ← layerInput x s.1 l
  let cell ← orRaise cells[l]? .indexError
  let h ← orRaise s.1[l]? .indexError
  let h' ← cell.forward input h
  .ok (s.1.set l h', some h')

/-- Body of the loop over the time steps (gru_vmap.py:329-343).  The state is the list
`h_layers`, the variable `h_updated` and the list `output_times`.  Without layers,
`h_updated` is unbound. -/
def timeStep (g : Gru) (input : Tensor) (s : List Mat × Option Mat × List Mat) (t : ℕ) :
    Py (List Mat × Option Mat × List Mat) := do
  let x ← matAt input t
  let r ← (List.range g.numLayers).foldlM (layerStep g.cells x) (s.1, s.2.1)
  let h ← orRaise r.2 .unboundLocal
  .ok (r.1, some h, s.2.2 ++ [h])

/-- `GRU.forward(input, hx)` (gru_vmap.py:268-355). -/
def Gru.forward (g : Gru) (input : Tensor) (hx : Option Tensor) : Py (Tensor × Tensor) := do
  let nTime ← orRaise input.shape[0]? .indexError
  let batched : Bool := input.shape.length == 3
  let x := if batched then input else unsqueeze1 input
  let batch ← orRaise x.shape[1]? .indexError
  let h0 := match hx with
    | none => Tensor.zeros [g.numLayers, batch, g.hiddenSize]
    | some h => if batched then h else unsqueeze1 h
  let hs ← (List.range g.numLayers).mapM (matAt h0)
  let r ← (List.range nTime).foldlM (timeStep g x) (hs, none, [])
  let output ← stackMats r.2.2
  let hn ← stackMats r.1
  if batched then .ok (output, hn) else .ok (squeeze1 output, squeeze1 hn)

/-- `torch.nn.Linear`: the last dimension of the tensor is multiplied by the weight and the
bias is added; `RuntimeError` if its size is not the number of input features. -/
def linearLayer (nIn nOut : ℕ) (w : ℕ → ℕ → ℝ) (b : ℕ → ℝ) (t : Tensor) : Py Tensor := do
  raiseIf (t.shape.getLast? ≠ some nIn) .runtimeError
  .ok ⟨t.shape.dropLast ++ [nOut], fun idx =>
    (∑ j ∈ range nIn, t.val (idx.dropLast ++ [j]) * w (idx.getLastD 0) j) + b (idx.getLastD 0)⟩

/-- `GRURNNModel` with `gru_model_source='custom'` (gru_model.py:96-208). -/
structure GruModel where
  nFeaturesIn : ℕ
  nFeaturesOut : ℕ
  hiddenLayerSize : ℕ
  nRecurrentLayers : ℕ
  gruWeights : ℕ → CellWeights
  linW : ℕ → ℕ → ℝ
  linB : ℕ → ℝ

/-- The recurrent part (gru_model.py:178-184). -/
def GruModel.gru (m : GruModel) : Gru :=
  gruInit m.nFeaturesIn m.hiddenLayerSize m.nRecurrentLayers m.gruWeights

/-- The initial hidden state of `forward` (gru_model.py:362-371). -/
def GruModel.initialHidden (m : GruModel) (x : Tensor) (hidden : Option Tensor) : Py Tensor :=
  match hidden with
  | some h => .ok h
  | none =>
    if x.shape.length = 2 then .ok (Tensor.zeros [m.nRecurrentLayers, m.hiddenLayerSize])
    else (orRaise x.shape[1]? .indexError).map fun b =>
      Tensor.zeros [m.nRecurrentLayers, b, m.hiddenLayerSize]

/-- `GRURNNModel.forward(features_in, hidden_features_in)` (gru_model.py:324-383) on
tensors. -/
def GruModel.forward (m : GruModel) (x : Tensor) (hidden : Option Tensor) :
    Py (Tensor × Tensor) := do
  let h0 ← m.initialHidden x hidden
  let r ← m.gru.forward x (some h0)
  let out ← linearLayer m.hiddenLayerSize m.nFeaturesOut m.linW m.linB r.1
  .ok (out, r.2)

end

end Hooke
