import Verif.Model.Lou

/-!
# Model of the numerical derivatives of `simulators/fetorch/material/models/standard/lou.py`

`get_numerical_jacobian` and the values printed by `compute_num_derivatives`.  Floating-point numbers are
reals; a column computed from a residual which is not finite is `none`.  The verbose output itself
(1367-1379) is not modelled.
-/

noncomputable section

namespace Hooke

/-- Perturbation of a variable, lou.py:1302, 1318-1319, 1324-1325, 1330-1331 (also 1506, 1516-1517). -/
def louPert (x : ℝ) : ℝ := 1e-6 * max |x| 1e-6

/-- Perturbed variables and perturbation of the column `i`, lou.py:1309-1338. -/
def louPerturbed (x : LouPoint) : LouIx → LouPoint × ℝ
  | .inl k => (⟨unkel6 (Function.update (kel6 x.e) k (kel6 x.e k + louPert (kel6 x.e k))), x.acc, x.inc⟩,
      louPert (kel6 x.e k))
  | .inr 0 => (⟨unkel6 (kel6 x.e), x.acc + louPert x.acc, x.inc⟩, louPert x.acc)
  | .inr 1 => (⟨unkel6 (kel6 x.e), x.acc, x.inc + louPert x.inc⟩, louPert x.inc)

/-- One column, lou.py:1341-1364. -/
def louNumColumn (m : LouParams) (eTrial : T2 3) (accOld : ℝ) (x : LouPoint) (base : Option LouEval)
    (i : LouIx) : Py (Option (LouIx → ℝ)) :=
  (louEval m eTrial accOld (louPerturbed x i).1).map fun r =>
    base.bind fun b => r.map fun r' => fun j => (r'.residual j - b.residual j) / (louPerturbed x i).2

/-- Order of the columns, lou.py:1307-1333. -/
def louIxs : List LouIx := [.inl 0, .inl 1, .inl 2, .inl 3, .inl 4, .inl 5, .inr 0, .inr 1]

/-- Position of a column, lou.py:1316-1328. -/
def louPos : LouIx → ℕ
  | .inl k => k
  | .inr k => 6 + k

/-- `get_numerical_jacobian`, lou.py:1204-1381, by columns. -/
def louNumJacobian (m : LouParams) (eTrial : T2 3) (accOld : ℝ) (x : LouPoint) :
    Py (LouIx → Option (LouIx → ℝ)) := do
  let base ← louEval m eTrial accOld x
  let cols ← louIxs.mapM (louNumColumn m eTrial accOld x base)
  return fun i => cols.getD (louPos i) none

/-- One column of the numerical second derivatives of the invariants `J2` and `J3` with respect to the stress
`s`, `compute_num_derivatives`, lou.py:1488-1548 (the option of line 1410). -/
def louNumSecond (s : T2 3) (k : Fin 6) : Py (V6 × V6) := do
  let base ← louDerivatives s
  let pert := louPert (kel6 s k)
  let g ← louDerivatives (unkel6 (Function.update (kel6 s) k (kel6 s k + pert)))
  return (fun j => (kel6 g.dj2 j - kel6 base.dj2 j) / pert, fun j => (kel6 g.dj3 j - kel6 base.dj3 j) / pert)

end Hooke
