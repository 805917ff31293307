import Mathlib.Algebra.BigOperators.Group.Finset.Basic
import Verif.Model.Float
import Verif.Model.PyDict

/-!
# Strain loading path generators

`data_generation/strain_paths/interface.py`, `proportional_path.py` and `random_path.py`.
NumPy arrays of one dimension are lists, a strain state is the list of its components and a strain
path is the list of its states.  Values are of type `Fl`, since a vanishing increment and some bounds
give NaN and infinite components.  Random draws are arguments of the model.
-/

namespace Hooke

noncomputable section

/-- A strain component, e.g. `'12'`, as its list of digits. -/
abbrev SComp := List ℕ

/-- `StrainPathGenerator.__init__`, `_comp_order_sym` (interface.py:73-77). -/
def symOrder (nDim : ℕ) : List SComp :=
  if nDim = 2 then [[1, 1], [2, 2], [1, 2]]
  else [[1, 1], [2, 2], [3, 3], [1, 2], [2, 3], [1, 3]]

/-- `StrainPathGenerator.__init__`, `_comp_order_nsym` (interface.py:75-79). -/
def nsymOrder (nDim : ℕ) : List SComp :=
  if nDim = 2 then [[1, 1], [2, 1], [1, 2], [2, 2]]
  else [[1, 1], [2, 1], [3, 1], [1, 2], [2, 2], [3, 2], [1, 3], [2, 3], [3, 3]]

/-- A square array. -/
abbrev FlMat := ℕ → ℕ → Fl

/-- `strain[i, j] = v` (item assignment). -/
def FlMat.put (S : FlMat) (i j : ℕ) (v : Fl) : FlMat :=
  fun a b => if a = i ∧ b = j then v else S a b

/-- Loop body of `build_strain_tensor` (interface.py:151-158). -/
def buildStep (comps : List Fl) (sym : Bool) (S : FlMat) (kc : SComp × ℕ) : Py FlMat :=
  match kc.1 with
  | [a, b] => do
    let v ← orRaise comps[kc.2]? .indexError
    let S := S.put (a - 1) (b - 1) v
    pure (if sym ∧ a - 1 ≠ b - 1 then S.put (b - 1) (a - 1) v else S)
  | _ => .error .valueError

/-- `StrainPathGenerator.build_strain_tensor` (interface.py:97-160).  The components are given as a
one-dimensional array, and the characters of the order are digits.  Building the message of the
exception for a wrong number of components under symmetry calls an `int`, so that a `TypeError` is
raised (line 140). -/
def buildStrain (nDim : ℕ) (comps : List Fl) (order : List SComp) (sym : Bool) : Py FlMat := do
  raiseIf (∃ c ∈ order, ∃ x ∈ c, ¬ (1 ≤ x ∧ x ≤ nDim)) .runtimeError
  raiseIf (∃ c ∈ order, c.length ≠ 2) .runtimeError
  raiseIf (¬ order.Nodup) .runtimeError
  raiseIf (sym = true ∧ 2 * order.length ≠ nDim * (nDim + 1)) .typeError
  raiseIf (sym = false ∧ order.length ≠ nDim ^ 2) .runtimeError
  order.zipIdx.foldlM (buildStep comps sym) fun _ _ => .fin 0

/-- `np.linalg.norm` of a square array (Frobenius norm). -/
def flNorm (nDim : ℕ) (S : FlMat) : Fl :=
  Fl.sqrt (Fl.sum ((List.range nDim).flatMap fun i => (List.range nDim).map fun j =>
    Fl.mul (S i j) (S i j)))

/-- `np.linspace(a, b, n)`. -/
def npLinspace (a b : ℝ) (n : ℕ) : List ℝ :=
  (List.range n).map fun i : ℕ => a + (i : ℝ) * ((b - a) / ((n : ℝ) - 1))

/-- `np.isclose(a, b)` with the default tolerances. -/
def npIsClose (a b : ℝ) : Prop := |a - b| ≤ 1 / 10 ^ 8 + 1 / 10 ^ 5 * |b|

/-- A strain formulation and the arguments shared by both generators.  `nCycle = 0` stands for `None`,
`False`, zero and negative numbers. -/
structure PathArgs where
  nDim : ℕ
  infinitesimal : Bool
  bounds : KDict SComp (ℝ × ℝ)
  nTime : ℕ
  timeInit : ℝ
  timeEnd : ℝ
  incNorm : Option ℝ
  noiseStd : Option ℝ
  nCycle : ℕ

/-- The strain components order (proportional_path.py:97-100, random_path.py:108-111). -/
def PathArgs.order (a : PathArgs) : List SComp :=
  if a.infinitesimal then symOrder a.nDim else nsymOrder a.nDim

/-- Checks of the bounds (proportional_path.py:103-111, random_path.py:114-122). -/
def PathArgs.checkBounds (a : PathArgs) : Py Unit := do
  raiseIf (¬ ((∀ k ∈ a.bounds.keys, k ∈ a.order) ∧ ∀ k ∈ a.order, k ∈ a.bounds.keys)) .runtimeError
  raiseIf (∃ e ∈ a.bounds, e.2.1 > e.2.2) .runtimeError

/-- Number of time points of the loading path (proportional_path.py:118-133, random_path.py:138-153);
the rounding of the floating point division is not modelled. -/
def PathArgs.nForward (a : PathArgs) : Py ℕ :=
  if 0 < a.nCycle then
    if a.nTime < 2 * a.nCycle + 1 then .error .runtimeError
    else .ok ((a.nTime - 1) / (2 * a.nCycle) + 1)
  else .ok a.nTime

/-- A strain state: the values of the components in order. -/
abbrev SState := List Fl

/-- Enforcement of the incremental strain norm (proportional_path.py:176-199, random_path.py:275-298). -/
def normPart (a : PathArgs) (prev row : SState) : Py SState :=
  match a.incNorm with
  | none => .ok row
  | some s => do
    raiseIf (s ≤ 0) .runtimeError
    let S ← buildStrain a.nDim row a.order a.infinitesimal
    let S0 ← buildStrain a.nDim prev a.order a.infinitesimal
    raiseIf (a.infinitesimal = false) .runtimeError
    let inc : FlMat := fun i j => Fl.sub (S i j) (S0 i j)
    let dir : FlMat := fun i j => Fl.div (inc i j) (flNorm a.nDim inc)
    let S : FlMat := fun i j => Fl.add (S0 i j) (Fl.mul (.fin s) (dir i j))
    pure (a.order.map fun c => S (c.getD 0 0 - 1) (c.getD 1 0 - 1))

/-- Addition of noise (proportional_path.py:202-212, random_path.py:301-311); `noise` are the values
drawn from the normal distribution. -/
def noisePart (a : PathArgs) (noise : List ℝ) (row : SState) : Py SState :=
  match a.noiseStd with
  | none => .ok row
  | some d => do
    raiseIf (d < 0) .runtimeError
    pure (List.zipWith Fl.add row (noise.map .fin))

/-- Loop over the time points `i, i + 1, …` after the state `prev` (proportional_path.py:174-212,
random_path.py:273-311). -/
def adjustFrom (a : PathArgs) (noise : ℕ → List ℝ) : ℕ → SState → List SState → Py (List SState)
  | _, _, [] => .ok []
  | i, prev, row :: rest => do
    let r ← normPart a prev row
    let r ← noisePart a (noise i) r
    let rs ← adjustFrom a noise (i + 1) r rest
    pure (r :: rs)

/-- The whole loop: the first state is kept. -/
def adjustPath (a : PathArgs) (noise : ℕ → List ℝ) : List SState → Py (List SState)
  | [] => .ok []
  | r :: rest => do
    let rs ← adjustFrom a noise 1 r rest
    pure (r :: rs)

/-- `path[-2:0:-1, :]`. -/
def backward {α : Type} (path : List α) : List α := (path.drop 1).dropLast.reverse

/-- Assembly of the cycles and padding with the initial strain (proportional_path.py:215-237,
random_path.py:314-336). -/
def cyclicPath {α : Type} (nTime nCycle : ℕ) (path : List α) : Py (List α) := do
  let init ← orRaise path.head? .indexError
  let p := (List.range (nCycle - 1)).foldl (fun acc _ => acc ++ path ++ backward path)
    (path ++ backward path)
  let p := p ++ [init]
  pure ((List.range (nTime - p.length)).foldl (fun acc _ => acc ++ [init]) p)

/-- Assembly of the path from the loading branch: cycles only for a positive number of them
(proportional_path.py:215, random_path.py:314). -/
def finishPath {α : Type} (nTime nCycle : ℕ) (path : List α) : Py (List α) :=
  if 0 < nCycle then cyclicPath nTime nCycle path else .ok path

/-- Common part of both generators: `hist j lbound ubound n` is the history of the `j`-th component
(proportional_path.py:92-239, random_path.py:103-338). -/
def generatePath (a : PathArgs) (hist : ℕ → ℝ → ℝ → ℕ → Py (List Fl)) (noise : ℕ → List ℝ) :
    Py (List SComp × List ℝ × List SState) := do
  let n ← a.nForward
  let cols ← a.order.zipIdx.mapM fun c => do
    let b ← orRaise (a.bounds.get? c.1) .keyError
    hist c.2 b.1 b.2 n
  let path ← adjustPath a noise
    ((List.range n).map fun i => cols.map fun col => col.getD i .nan)
  let path ← finishPath a.nTime a.nCycle path
  pure (a.order, npLinspace a.timeInit a.timeEnd a.nTime, path)

/-- The strain history of a normalised one (proportional_path.py:164-166, random_path.py:234-236). -/
def denormalize (lb ub : ℝ) (l : List ℝ) : List ℝ :=
  l.map fun x => lb + 1 / 2 * (ub - lb) * (x + 1)

open Classical in
/-- Component history of a proportional path (proportional_path.py:138-168); `u` is the value drawn
from the uniform distribution on `[-1, 1)`. -/
def propHist (u lb ub : ℝ) (n : ℕ) : List ℝ :=
  if npIsClose lb ub then npLinspace lb lb n
  else denormalize lb ub (npLinspace (-(ub + lb) / (ub - lb)) u n)

/-- `ProportionalStrainPathGenerator.generate_strain_path` (proportional_path.py:48-239); `u j` is the
value drawn for the `j`-th component. -/
def proportionalPath (a : PathArgs) (u : ℕ → ℝ) (noise : ℕ → List ℝ) :
    Py (List SComp × List ℝ × List SState) := do
  a.checkBounds
  generatePath a (fun j lb ub n => .ok ((propHist (u j) lb ub n).map .fin)) noise

/-- Value at `x` of the polynomial of degree below `n` through the points `(t k, y k)`, `k < n`:
`np.polyfit` with degree `n - 1` and `np.poly1d`. -/
def interpolant (n : ℕ) (t y : ℕ → ℝ) (x : ℝ) : ℝ :=
  ∑ k ∈ Finset.range n, y k * ∏ m ∈ Finset.range n, if m = k then 1 else (x - t m) / (t k - t m)

/-- `generative_type`. -/
inductive GenType
  | polynomial
  | gaussianProcess
  | other

/-- The values drawn by the random generator: number of control points and normalised strains of each
component.  `gp` is the mean of scikit-learn's Gaussian process regression for given numbers of control
points, control times and control values. -/
structure RandomDraws where
  nControl : ℕ → ℤ
  strain : ℕ → ℕ → ℝ
  gp : ℕ → (ℕ → ℝ) → (ℕ → ℝ) → ℝ → ℝ

/-- Regression (random_path.py:190-231). -/
def regression (g : GenType) (d : RandomDraws) (n : ℕ) (t y : ℕ → ℝ) : Py (ℝ → ℝ) :=
  match g with
  | .polynomial => .ok (interpolant n t y)
  | .gaussianProcess => .ok (d.gp n t y)
  | .other => .error .unboundLocal

/-- `np.max` of a nonempty one-dimensional array. -/
def npMax : List ℝ → Py ℝ
  | [] => .error .valueError
  | x :: l => .ok (l.foldl max x)

/-- `np.min` of a nonempty one-dimensional array. -/
def npMin : List ℝ → Py ℝ
  | [] => .error .valueError
  | x :: l => .ok (l.foldl min x)

/-- The factor of the strict bound scaling for the smallest and largest strain
(random_path.py:249-262). -/
def scaleFactor (lb ub mn mx : ℝ) : Fl :=
  let lDist := if mn < lb then |lb - mn| else 0
  let uDist := if mx > ub then |ub - mx| else 0
  if lDist > uDist then Fl.abs (Fl.div (.fin lb) (.fin mn))
  else Fl.abs (Fl.div (.fin ub) (.fin mx))

/-- Strict bound scaling (random_path.py:239-264). -/
def boundScaling (lb ub : ℝ) (h : List ℝ) : Py (List Fl) := do
  let mAbs ← npMax (h.map abs)
  if 0 < mAbs then do
    let mn ← npMin h
    let mx ← npMax h
    pure (if mn < lb ∨ mx > ub then h.map fun x => Fl.mul (scaleFactor lb ub mn mx) (.fin x)
      else h.map .fin)
  else pure (h.map .fin)

open Classical in
/-- Control points (random_path.py:174-187) and normalised history (random_path.py:190-231). -/
def randomNormalized (g : GenType) (d : RandomDraws) (j : ℕ) (lb ub : ℝ) (n : ℕ) : Py (List ℝ) := do
  raiseIf (d.nControl j < 0) .valueError
  raiseIf (d.nControl j = 0) .indexError
  let nc := (d.nControl j).toNat
  let f ← regression g d nc (fun k => (npLinspace (-1) 1 nc).getD k 0)
    (fun k => if k = 0 then -(ub + lb) / (ub - lb) else d.strain j k)
  pure ((npLinspace (-1) 1 n).map f)

open Classical in
/-- Component history of a random path (random_path.py:163-267). -/
def randomHist (g : GenType) (nControl : ℤ × ℤ) (d : RandomDraws) (j : ℕ) (lb ub : ℝ) (n : ℕ) :
    Py (List Fl) :=
  if npIsClose lb ub then boundScaling lb ub (npLinspace lb lb n)
  else do
    raiseIf (nControl.2 < nControl.1) .valueError
    let x ← randomNormalized g d j lb ub n
    boundScaling lb ub (denormalize lb ub x)

/-- `RandomStrainPathGenerator.generate_strain_path` (random_path.py:51-338).  `nControl = none` is an
argument which is neither an `int` nor a pair; an `int` is the pair of equal bounds. -/
def randomPath (a : PathArgs) (g : GenType) (nControl : Option (ℤ × ℤ)) (d : RandomDraws)
    (noise : ℕ → List ℝ) : Py (List SComp × List ℝ × List SState) := do
  a.checkBounds
  let nc ← orRaise nControl .runtimeError
  generatePath a (randomHist g nc d) noise

end

end Hooke
