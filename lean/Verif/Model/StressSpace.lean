import Verif.Model.RecurrentForward
import Mathlib.LinearAlgebra.Matrix.Determinant.Basic
import Mathlib.Data.List.Sort
import Mathlib.Analysis.SpecialFunctions.Pow.Real

/-!
# Stress paths in the principal stress space

Model of `plot_stress_space_metrics` and `compute_stress_invariants`
(user_scripts/synthetic_data/gen_response_dataset.py:1132-1590) for infinitesimal strains and lists of
paths: the data given to the plots.  A NaN is `none`.  The eigenvalues of `np.linalg.eig` are an
argument, and so are the random permutations.  The drawing itself is not modelled.
-/

namespace Hooke

noncomputable section

/-- The two arrays of `compute_stress_invariants`. -/
structure SpaceInvariants where
  i1 : ℝ
  i2 : ℝ
  i3 : ℝ
  j1 : ℝ
  j2 : ℝ
  j3 : ℝ

/-- `compute_stress_invariants`, gen_response_dataset.py:1558-1590. -/
def spaceInvariants (s : T2 3) : SpaceInvariants :=
  let i1 := ∑ i, s i i
  let i2 := 1 / 2 * ((∑ i, s i i) ^ 2 - ∑ i, ∑ k, s i k * s k i)
  let i3 := Matrix.det (Matrix.of s)
  ⟨i1, i2, i3, 0, 1 / 3 * i1 ^ 2 - i2, 2 / 27 * i1 ^ 3 - 1 / 3 * i1 * i2 + i3⟩

open Classical in
/-- Stress triaxiality, gen_response_dataset.py:1424-1433. -/
def triaxialityOf (v : SpaceInvariants) : Option ℝ :=
  if v.j2 < 1 / 10 ^ 8 then none else some ((1 / 3 * v.i1) / √(3 * v.j2))

open Classical in
/-- Lode parameter, gen_response_dataset.py:1424-1434. -/
def lodeOf (v : SpaceInvariants) : Option ℝ :=
  if v.j2 < 1 / 10 ^ 8 then none else some (3 * √3 / 2 * (v.j3 / v.j2 ^ (3 / 2 : ℝ)))

/-- `np.sort(eigenvalues)[::-1]`, gen_response_dataset.py:1249-1254. -/
def principalOf (eig : T2 3 → List ℝ) (s : T2 3) : List ℝ :=
  ((eig s).insertionSort (· ≤ ·)).reverse

/-- Rotation to the space of the π-plane, gen_response_dataset.py:1290-1293. -/
def planeRotation : List (List ℝ) :=
  [[√(2 / 3), -√(1 / 6), -√(1 / 6)], [0, √(1 / 2), -√(1 / 2)], [√(1 / 3), √(1 / 3), √(1 / 3)]]

/-- Permuted principal stresses in the space of the π-plane, gen_response_dataset.py:1301-1311. -/
def piStress (perm : List ℕ) (p : List ℝ) : List ℝ :=
  let q := perm.map fun j => p.getD j 0
  planeRotation.map fun r => ((List.range 3).map fun j => r.getD j 0 * q.getD j 0).sum

/-- Stress tensors of a path, gen_response_dataset.py:1243-1247 and 1357-1361. -/
def spaceTensors (co : List Comp) (times : List ℝ) (path : List (List ℝ)) : Py (List (T2 3)) :=
  (List.range times.length).mapM fun i => do
    let row ← orRaise path[i]? .indexError
    let t ← npBuildTensor 3 co row
    return fun a b => t.val [a, b]

/-- An array of `m` rows of zeros of which the first ones are written. -/
def padTo {α : Type} (m : ℕ) (z : α) (l : List α) : List α := l ++ List.replicate (m - l.length) z

/-- A table with a block of columns for each path, gen_response_dataset.py:1268-1271, 1326-1331,
1443-1446 and 1461-1464: each block has the rows of the longest path, and is written to as many rows
as its path has. -/
def blockTable {α : Type} (m : ℕ) (times : List (List ℝ)) (blocks : List (List (List α))) :
    Py (List (List α)) := do
  raiseIf (∃ t ∈ times, t.length ≠ m) .valueError
  return (List.range m).map fun t => blocks.flatMap fun b => b.getD t []

/-- Requested plots. -/
structure SpaceFlags where
  principal : Bool
  piPairs : Bool
  triaxPath : Bool

/-- Data of the plots. -/
structure SpaceData where
  /-- Principal stresses, a block of three columns for each path. -/
  principal : Option (List (List ℝ))
  /-- Pairs of coordinates of the π-plane, a block of two columns for each path. -/
  piPairs : Option (List (List (List ℝ)))
  /-- Invariants of all paths, one after the other. -/
  invariants : List SpaceInvariants
  /-- Triaxialities over the time, a block of two columns for each path. -/
  triax : Option (List (List (Option ℝ)))
  /-- Lode parameters over the time, a block of two columns for each path. -/
  lode : Option (List (List (Option ℝ)))
  /-- Triaxialities and Lode parameters of all paths without NaNs. -/
  points : List (ℝ × ℝ)

/-- A table that is built if it is requested. -/
def ifRequested {α : Type} (b : Bool) (x : Py α) : Py (Option α) :=
  if b then x.map some else .ok none

/-- A path over its time: the two columns of a path of values. -/
def timeBlock (m : ℕ) (times : List ℝ) (v : List (Option ℝ)) : List (List (Option ℝ)) :=
  (List.range m).map fun t => [times[t]?, v.getD t none]

/-- A pair of a triaxiality and a Lode parameter if both are numbers. -/
def bothNumbers (p : Option ℝ × Option ℝ) : Option (ℝ × ℝ) := p.1.bind fun a => p.2.map fun b => (a, b)

/-- `plot_stress_space_metrics`, gen_response_dataset.py:1132-1555, for lists of paths; `perm k` is the
permutation drawn for path `k` (the plots of the invariants and points draw the data whatever their
number). -/
def stressSpace (eig : T2 3 → List ℝ) (perm : ℕ → List ℕ) (co : List Comp) (flags : SpaceFlags)
    (times : List (List ℝ)) (paths : List (List (List ℝ))) : Py SpaceData := do
  raiseIf (co.length ≠ 6 ∧ co.length ≠ 9) .runtimeError
  raiseIf (times.length ≠ paths.length) .runtimeError
  raiseIf (times = []) .valueError
  raiseIf (∃ t ∈ times, t = []) .indexError
  let m := (times.map List.length).foldr max 0
  let tensors ← (times.zip paths).mapM fun p => spaceTensors co p.1 p.2
  let prin := tensors.map fun l => padTo m [0, 0, 0] (l.map (principalOf eig))
  let principal ← ifRequested flags.principal (blockTable m times prin)
  let pi := tensors.zipIdx.map fun l =>
    padTo m [0, 0, 0] (l.1.map fun s => piStress (perm l.2) (principalOf eig s))
  let pairs ← ifRequested flags.piPairs ([(0, 1), (0, 2), (1, 2)].mapM fun ab : ℕ × ℕ =>
    blockTable m times (pi.map fun l => l.map fun r => [r.getD ab.1 0, r.getD ab.2 0]))
  let inv := tensors.map fun l => padTo m ⟨0, 0, 0, 0, 0, 0⟩ (l.map spaceInvariants)
  let tl := (times.zip inv).map fun p =>
    padTo m (some 0, some 0) ((p.2.take p.1.length).map fun v => (triaxialityOf v, lodeOf v))
  let triax ← ifRequested flags.triaxPath (blockTable m times ((times.zip tl).map fun p =>
    timeBlock m p.1 (p.2.map Prod.fst)))
  let lode ← ifRequested flags.triaxPath (blockTable m times ((times.zip tl).map fun p =>
    timeBlock m p.1 (p.2.map Prod.snd)))
  return ⟨principal, pairs, inv.flatten, triax, lode, tl.flatten.filterMap bothNumbers⟩

end

end Hooke
