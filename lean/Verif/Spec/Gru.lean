import Mathlib.Analysis.SpecialFunctions.Sigmoid
import Mathlib.Analysis.Complex.Trigonometric
import Mathlib.Algebra.BigOperators.Intervals

/-!
# What a stacked gated recurrent unit computes

The equations of the documentation of `torch.nn.GRU`, for one sequence.  Vectors are
functions of the component index.
-/

namespace Hooke.Spec

open Finset

noncomputable section

/-- An affine function of the input and of the hidden state. -/
structure Gate where
  W : ℕ → ℕ → ℝ
  b : ℕ → ℝ
  U : ℕ → ℕ → ℝ
  c : ℕ → ℝ

/-- One layer: numbers of input and hidden components, reset, update and new gates. -/
structure GruLayer where
  nIn : ℕ
  nHid : ℕ
  reset : Gate
  update : Gate
  new : Gate

/-- `W x + b`. -/
def affineOf (n : ℕ) (W : ℕ → ℕ → ℝ) (b : ℕ → ℝ) (x : ℕ → ℝ) (i : ℕ) : ℝ :=
  (∑ j ∈ range n, W i j * x j) + b i

/-- One step:
`r = σ(W_r x + b_r + U_r h + c_r)`, `z = σ(W_z x + b_z + U_z h + c_z)`,
`n = tanh(W_n x + b_n + r (U_n h + c_n))`, `h' = (1 - z) n + z h`. -/
def GruLayer.step (g : GruLayer) (h x : ℕ → ℝ) (i : ℕ) : ℝ :=
  let pre (q : Gate) := affineOf g.nIn q.W q.b x i + affineOf g.nHid q.U q.c h i
  let r := Real.sigmoid (pre g.reset)
  let z := Real.sigmoid (pre g.update)
  let n := Real.tanh (affineOf g.nIn g.new.W g.new.b x i + r * affineOf g.nHid g.new.U g.new.c h i)
  (1 - z) * n + z * h i

/-- The hidden states of a layer after each element of the sequence. -/
def GruLayer.run (g : GruLayer) : (ℕ → ℝ) → List (ℕ → ℝ) → List (ℕ → ℝ)
  | _, [] => []
  | h, x :: xs => g.step h x :: g.run (g.step h x) xs

/-- Layer after layer: each layer reads the whole sequence of hidden states of the previous
one.  The result is the list of the sequences of hidden states of all layers. -/
def stackedRun : List (GruLayer × (ℕ → ℝ)) → List (ℕ → ℝ) → List (List (ℕ → ℝ))
  | [], _ => []
  | (g, h) :: rest, xs => g.run h xs :: stackedRun rest (g.run h xs)

/-- The layer with the weight and bias tensors of `torch.nn.GRU`: `weight_ih` has the rows
of the reset, update and new gates, in this order; so have `weight_hh` and the biases. -/
def torchLayer (nIn H : ℕ) (wIh wHh : ℕ → ℕ → ℝ) (bIh bHh : ℕ → ℝ) : GruLayer :=
  let gate (k : ℕ) : Gate :=
    ⟨fun i j => wIh (k * H + i) j, fun i => bIh (k * H + i),
     fun i j => wHh (k * H + i) j, fun i => bHh (k * H + i)⟩
  ⟨nIn, H, gate 0, gate 1, gate 2⟩

/-- Component `j` of the hidden state of layer `l` after step `t` (from 0) of a stacked
network. -/
def hiddenAfter (layers : List (GruLayer × (ℕ → ℝ))) (xs : List (ℕ → ℝ)) (l t j : ℕ) : ℝ :=
  ((stackedRun layers xs).getD l []).getD t 0 j

end

end Hooke.Spec
