import Verif.Model.PyUtil
import Mathlib.Data.Real.Basic
import Mathlib.Data.Sign.Basic
import Mathlib.Analysis.SpecialFunctions.Pow.Real

/-!
# Model of `simulators/fetorch/material/models/standard/hardening.py`

A hardening law maps an accumulated plastic strain to a pair (yield stress,
hardening slope).
-/

noncomputable section

namespace Hooke

/-- Evaluated hardening law: accumulated plastic strain to (yield stress, slope). -/
abbrev HardLaw := ℝ → ℝ × ℝ

/-- `torch.relu`. -/
def relu (x : ℝ) : ℝ := max x 0

/-- `x.sign()`. -/
def sgn (x : ℝ) : ℝ := SignType.sign x

/-- `torch.sum(torch.ge(x, xp)) - 1` clamped to `[0, len(xp) - 2]`, hardening.py:264-266,
426-428 (`len(m) = len(xp) - 1`). -/
def segIndex (xp : List ℝ) (x : ℝ) : ℕ := min (xp.countP (· ≤ x) - 1) (xp.length - 2)

/-- `torch_interp`, hardening.py:380-442, at one point and with `left`, `right` given; at
least two data points (with a single one the gather on line 431 raises `IndexError`). -/
def torchInterp (x : ℝ) (xp fp : List ℝ) (left right : ℝ) : ℝ :=
  let i := segIndex xp x
  let m := (fp.getD (i + 1) 0 - fp.getD i 0) / (xp.getD (i + 1) 0 - xp.getD i 0)
  let b := fp.getD i 0 - m * xp.getD i 0
  let y := m * x + b
  let y := if x < xp.getD 0 0 then left else y
  if x > xp.getD (xp.length - 1) 0 then right else y

/-- `PiecewiseLinearIHL._hardening_slope`, hardening.py:243-283. -/
def hardeningSlope (x : ℝ) (a b : List ℝ) : ℝ :=
  let i := segIndex a x
  let slope := (b.getD (i + 1) 0 - b.getD i 0) / (a.getD (i + 1) 0 - a.getD i 0)
  let lower := sgn (relu (x - a.getD 0 0))
  let upper := sgn (relu (a.getD (a.length - 1) 0 - x))
  slope * (lower * upper)

/-- `PiecewiseLinearIHL.hardening_law`, hardening.py:179-241, without data checks (the
default); `pts` are the rows of `hardening_points`. -/
def piecewiseLinear (pts : List (ℝ × ℝ)) : HardLaw := fun acc =>
  let a := pts.map Prod.fst
  let b := pts.map Prod.snd
  let acc := relu acc
  let y := torchInterp acc a b (b.getD 0 0) (b.getD (b.length - 1) 0)
  let slope := if acc < a.getD 0 0 then 0
    else if acc ≥ a.getD (a.length - 1) 0 then 0
    else hardeningSlope acc a b
  (y, slope)

/-- Data checks of `PiecewiseLinearIHL.hardening_law`, hardening.py:208-223
(`is_check_data=True`). -/
def piecewiseLinearChecked (pts : List (ℝ × ℝ)) (acc : ℝ) : Py (ℝ × ℝ) :=
  let a := pts.map Prod.fst
  if ¬ (∀ i < a.length - 1, a.getD (i + 1) 0 - a.getD i 0 > 0) then .error .runtimeError
  else if ¬ (∀ x ∈ a, x ≥ 0) then .error .runtimeError
  else if acc < 0 then .error .runtimeError
  else .ok (piecewiseLinear pts acc)

/-- `LinearIHL.hardening_law`, hardening.py:293-328. -/
def linearHardening (s0 a : ℝ) : HardLaw := fun acc => (s0 + a * relu acc, a)

/-- `NadaiLudwikIHL.hardening_law`, hardening.py:338-378; `**` of tensors is the real power
for a nonnegative base.  `ep0` is added on line 370 and again on lines 373 and 375. -/
def nadaiLudwik (s0 a b ep0 : ℝ) : HardLaw := fun acc =>
  let acc := relu acc + ep0
  (s0 + a * (acc + ep0) ^ b, a * b * (acc + ep0) ^ (b - 1))

/-- Types of hardening law, hardening.py:102. -/
inductive HardType | piecewise (pts : List (ℝ × ℝ)) | linear (s0 a : ℝ)
  | nadai (s0 a b ep0 : ℝ) | unknown

/-- `get_hardening_law`, hardening.py:106-136, applied to its parameters. -/
def getHardeningLaw : HardType → Py HardLaw
  | .piecewise pts => .ok (piecewiseLinear pts)
  | .linear s0 a => .ok (linearHardening s0 a)
  | .nadai s0 a b ep0 => .ok (nadaiLudwik s0 a b ep0)
  | .unknown => .error .runtimeError

end Hooke
