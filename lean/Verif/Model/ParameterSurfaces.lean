import Verif.Model.LmuParameters
import Verif.Model.PyUtil
import Mathlib.Algebra.Order.Floor.Ring
import Mathlib.Data.Real.Archimedean

/-!
# Surfaces of material parameters

`plot_model_parameters` of `user_scripts/complete_pipelines/local_model_update.py:942-1033`: the values of the
plotted surfaces for temperatures (rows) and compositions (columns).
-/

noncomputable section

open Classical

namespace Hooke

/-- Storing a number in an array like the one of the temperatures (local_model_update.py:983, 995-1010): one
of integers drops its fraction. -/
def storeLike (isInt : Bool) (x : ℝ) : ℝ := if isInt then (if 0 ≤ x then (⌊x⌋ : ℝ) else (⌈x⌉ : ℝ)) else x

/-- The value of a parameter (local_model_update.py:993-1010). -/
def surfaceValue (param : String) (p : TcParams) : Py ℝ :=
  if param = "E" then .ok (p.young * (1 / 10 ^ 3))
  else if param = "v" then .ok p.poisson
  else do
    let first ← orRaise p.points.head? .indexError
    let last ← orRaise p.points.getLast? .indexError
    if param = "s0" then .ok first.2
    else .ok ((last.2 - first.2) / (last.1 - first.1))

/-- The surface of a parameter (local_model_update.py:983-1010); `isInt` if all the temperatures are given as
integers. -/
def parameterSurface (isInt : Bool) (name : String) (temps comps : List ℝ) (param : String) :
    Py (List (List ℝ)) :=
  temps.mapM fun T => comps.mapM fun C => do
    let p ← tcParameters name T C
    let v ← surfaceValue param p
    return storeLike isInt v

/-- `plot_model_parameters` (local_model_update.py:964-1033): the surfaces in order. -/
def parameterSurfaces (isInt : Bool) (name : String) (temps comps : List ℝ) :
    Py (List (String × List (List ℝ))) := do
  raiseIf (name ≠ "von_mises") .runtimeError
  raiseIf (temps = [] ∨ comps = []) .runtimeError
  ["E", "v", "s0", "s1"].mapM fun param => do
    let s ← parameterSurface isInt name temps comps param
    return (param, s)

end Hooke
