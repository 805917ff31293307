import Verif.Model.Float
import Mathlib.Data.Sign.Basic

/-!
# Loss functions (`src/hookeai/utilities/loss_functions.py`)

Input and target have the same shape and finite entries; they are lists of pairs (input, target).
-/

namespace Hooke

noncomputable section

/-- Strategies of `MeanRelativeErrorLoss` (loss_functions.py 97-101). -/
inductive ZeroHandling
  | clip | absolute | regularizer
  deriving DecidableEq

/-- `MeanRelativeErrorLoss.__init__` (loss_functions.py 73-103): unknown strategies raise. -/
def mreInit (zeroHandling : String) : Py ZeroHandling :=
  if zeroHandling = "clip" then .ok .clip
  else if zeroHandling = "absolute" then .ok .absolute
  else if zeroHandling = "regularizer" then .ok .regularizer
  else .error .runtimeError

/-- `get_pytorch_loss` (loss_functions.py 22-56): `true` is the mean square error of PyTorch,
`false` the mean relative error. -/
def getPytorchLoss (lossType : String) : Py Bool :=
  if lossType = "mse" then .ok true
  else if lossType = "mre" then .ok false
  else .error .runtimeError

/-- Relative error of one entry (loss_functions.py 124-150). -/
def relError (mode : ZeroHandling) (small : ℝ) (x t : ℝ) : Fl :=
  let absErr := Fl.fin |x - t|
  match mode with
  | .absolute => if |t| < small then absErr else absErr.div (Fl.fin |t|)
  | .clip => absErr.div (Fl.fin (max |t| small))
  | .regularizer => absErr.div (Fl.fin (|t| + small))

/-- `MeanRelativeErrorLoss.forward` (loss_functions.py 105-155). -/
def mreForward (mode : ZeroHandling) (small : ℝ) (xs : List (ℝ × ℝ)) : Fl :=
  Fl.mean (xs.map fun p => relError mode small p.1 p.2)

/-- Gradient of the loss with respect to one entry of the input, as accumulated by reverse-mode
differentiation of `forward`: `mean` passes `1/N`; `torch.where` passes it to the selected branch
and zero to the other one; the division passes `grad / denominator`; `abs` multiplies by the sign. -/
def mreBackward (mode : ZeroHandling) (small : ℝ) (n : ℕ) (x t : ℝ) : Fl :=
  let g := (Fl.fin 1).div (Fl.fin n)
  let gAbs :=
    match mode with
    | .absolute =>
      let gWhere := if |t| < small then g else Fl.fin 0
      let gRel := if |t| < small then Fl.fin 0 else g
      gWhere.add (gRel.div (Fl.fin |t|))
    | .clip => g.div (Fl.fin (max |t| small))
    | .regularizer => g.div (Fl.fin (|t| + small))
  gAbs.mul (Fl.fin (SignType.sign (x - t)))

end

end Hooke
