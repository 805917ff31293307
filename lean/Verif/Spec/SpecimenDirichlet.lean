import Mathlib.Data.Real.Basic
import Mathlib.Tactic.NormNum

/-!
# Specification of the boundary conditions of specimens

A specimen is pulled along the second direction: symmetry planes at `x = 0` and `z = 0`, the base at
`y = 0`, the top at a given `y`, all up to 1e-8.
-/

namespace Hooke.Spec

/-- On a plane, up to 1e-8. -/
def OnPlane (x v : ℝ) : Prop := |x - v| < 1e-8

open Classical in
/-- The prescribed directions of a node. -/
noncomputable def specimenCode (top x y z : ℝ) : List ℤ :=
  [if OnPlane x 0 then 1 else 0, if OnPlane y 0 ∨ OnPlane y top then 1 else 0,
    if OnPlane z 0 then 1 else 0]

open Classical in
/-- The displacements of a node: the top is moved along the second direction. -/
noncomputable def specimenDisps (top disp y : ℝ) : List ℝ :=
  [0, if OnPlane y top ∧ ¬ OnPlane y 0 then disp else 0, 0]

/-- The prescribed directions (from 1) of a code and their displacements. -/
noncomputable def prescribedOf (rd : ℝ → ℝ) (code : List ℤ) (disps : List ℝ) : List (ℕ × ℝ) :=
  ((code.zip disps).zipIdx 1).filterMap fun p =>
    if p.1.1 = 1 then some (p.2, rd p.1.2) else none

end Hooke.Spec
