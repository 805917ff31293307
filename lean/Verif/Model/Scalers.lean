import Verif.Model.Float

/-!
# Data scalers (`src/hookeai/utilities/data_scalers.py`)

Devices are not modelled.
-/

namespace Hooke

noncomputable section

/-- `_check_tensor` (data_scalers.py 384-403 and 746-764): the tensor must have two or three
dimensions and the last one must be the number of features. -/
def checkTensor (n : ℕ) : AnyTensor Fl → Py (FT Fl n)
  | .feat k t => if h : k = n then .ok (h ▸ t) else .error .runtimeError
  | .otherDim => .error .runtimeError
  | .notTensor => .error .runtimeError

/-- Rows of the two-dimensional tensor on which `transform` works, mapped entry by entry and
reshaped back (data_scalers.py 230-256, 296-321, 603-625, 666-684). -/
def onRows {n : ℕ} (f : Fin n → Fl → Fl) : FT Fl n → FT Fl n
  | .d2 m x => .d2 m fun i j => f j (x i j)
  | .d3 l m x => .d3 l m (FT.unflat fun r j => f j (FT.flat x r j))

/-- `torch.any(torch.isnan(tensor))`. -/
def anyNan {n : ℕ} : FT Fl n → Prop
  | .d2 _ x => ∃ i j, (x i j).IsNan
  | .d3 _ _ x => ∃ t i j, (x t i j).IsNan

/-! ## Min-max scaler -/

/-- State of `TorchMinMaxScaler` (data_scalers.py 69-105). `minimum` and `maximum` are `None`
before they are set; their length is checked to be `n_features` (332-382). -/
structure MinMaxScaler (n : ℕ) where
  minimum : Option (Fin n → Fl)
  maximum : Option (Fin n → Fl)
  normMin : ℝ := -1
  normMax : ℝ := 1

/-- One entry of the transformed tensor (data_scalers.py 247-251). -/
def minMaxEntry (lo hi : ℝ) (mn mx x : Fl) : Fl :=
  (Fl.fin lo).add (((Fl.fin (hi - lo)).div (mx.sub mn)).mul (x.sub mn))

/-- One entry of the inverse transformed tensor (data_scalers.py 313-317). -/
def minMaxInvEntry (lo hi : ℝ) (mn mx x : Fl) : Fl :=
  mn.add (((mx.sub mn).div (Fl.fin (hi - lo))).mul (x.sub (Fl.fin lo)))

open Classical in
/-- `transform` (data_scalers.py 203-267). `torch.tile(None, ...)` raises TypeError. -/
def MinMaxScaler.transform {n : ℕ} (s : MinMaxScaler n) (t : AnyTensor Fl) (check : Bool) :
    Py (FT Fl n) := do
  let x ← checkTensor n t
  let mn ← orRaise s.minimum .typeError
  let mx ← orRaise s.maximum .typeError
  let y := onRows (fun j v => minMaxEntry s.normMin s.normMax (mn j) (mx j) v) x
  raiseIf (check = true ∧ anyNan y) .runtimeError
  pure y

/-- `inverse_transform` (data_scalers.py 269-330). The shape check with `is_check_data` never
fails. -/
def MinMaxScaler.inverse {n : ℕ} (s : MinMaxScaler n) (t : AnyTensor Fl) : Py (FT Fl n) := do
  let x ← checkTensor n t
  let mn ← orRaise s.minimum .typeError
  let mx ← orRaise s.maximum .typeError
  pure (onRows (fun j v => minMaxInvEntry s.normMin s.normMax (mn j) (mx j) v) x)

/-- Two-dimensional tensor as the list of its rows (data_scalers.py 196-197, 568-569). -/
def fitRows {n : ℕ} : FT Fl n → List (Fin n → Fl)
  | .d2 _ x => List.ofFn x
  | .d3 _ _ x => List.ofFn (FT.flat x)

/-- `torch.min(column)` of a nonempty column. -/
def colMin : List Fl → Option Fl
  | [] => none
  | a :: l => some (l.foldl Fl.min a)

/-- `torch.max(column)` of a nonempty column. -/
def colMax : List Fl → Option Fl
  | [] => none
  | a :: l => some (l.foldl Fl.max a)

/-- Column `j` of the rows. -/
def column {n : ℕ} (rows : List (Fin n → Fl)) (j : Fin n) : List Fl := rows.map fun r => r j

/-- `fit` (data_scalers.py 178-201). Reducing over zero rows raises IndexError. -/
def MinMaxScaler.fit {n : ℕ} (s : MinMaxScaler n) (t : AnyTensor Fl) : Py (MinMaxScaler n) := do
  let x ← checkTensor n t
  raiseIf (fitRows x = []) .indexError
  pure { s with
    minimum := some fun j => (colMin (column (fitRows x) j)).getD .nan
    maximum := some fun j => (colMax (column (fitRows x) j)).getD .nan }

/-! ## Standard scaler -/

/-- State of `TorchStandardScaler` (data_scalers.py 446-474). -/
structure StandardScaler (n : ℕ) where
  mean : Option (Fin n → Fl)
  std : Option (Fin n → Fl)

open Classical in
/-- One entry of the transformed tensor (data_scalers.py 617-621): the division is skipped where
the standard deviation is zero. -/
def stdEntry (mean std x : Fl) : Fl :=
  if std ≠ Fl.fin 0 then (x.sub mean).div std else x.sub mean

open Classical in
/-- `transform` (data_scalers.py 576-637). -/
def StandardScaler.transform {n : ℕ} (s : StandardScaler n) (t : AnyTensor Fl) (check : Bool) :
    Py (FT Fl n) := do
  let x ← checkTensor n t
  let mean ← orRaise s.mean .typeError
  let std ← orRaise s.std .typeError
  let y := onRows (fun j v => stdEntry (mean j) (std j) v) x
  raiseIf (check = true ∧ anyNan y) .runtimeError
  pure y

/-- `inverse_transform` (data_scalers.py 639-693). -/
def StandardScaler.inverse {n : ℕ} (s : StandardScaler n) (t : AnyTensor Fl) : Py (FT Fl n) := do
  let x ← checkTensor n t
  let mean ← orRaise s.mean .typeError
  let std ← orRaise s.std .typeError
  pure (onRows (fun j v => (v.mul (std j)).add (mean j)) x)

/-- `torch.std(column, correction=c)`: the square root of the sum of squared deviations divided by
`max(0, N - c)`. -/
def colStd (c : ℕ) (l : List Fl) : Fl :=
  ((Fl.sum (l.map fun x => (x.sub (Fl.mean l)).mul (x.sub (Fl.mean l)))).div
    (Fl.fin ((l.length - c : ℕ) : ℝ))).sqrt

/-- `fit` (data_scalers.py 547-574). -/
def StandardScaler.fit {n : ℕ} (_s : StandardScaler n) (t : AnyTensor Fl) (bessel : Bool) :
    Py (StandardScaler n) := do
  let x ← checkTensor n t
  pure { mean := some fun j => Fl.mean (column (fitRows x) j)
         std := some fun j => colStd bessel.toNat (column (fitRows x) j) }

end

end Hooke
