import Verif.Model.Py
import Mathlib.Analysis.SpecialFunctions.Sqrt

/-!
# Model of `simulators/fetorch/math/matrixops.py`

Component strings such as `'12'` are modelled by their list of digits `[1, 2]`
(a non-digit character raises `ValueError` in `int()`; such strings are outside
the model).  Everything else follows the code branch by branch.
-/

namespace Hooke

/-- A strain/stress component label, e.g. `'12'` is `[1, 2]`. -/
abbrev Comp := List ℕ

/-- First index of a component, `int(comp[0]) - 1`. -/
def Comp.i (c : Comp) : ℕ := c.getD 0 0 - 1
/-- Second index of a component, `int(comp[1]) - 1`. -/
def Comp.j (c : Comp) : ℕ := c.getD 1 0 - 1

/-- `get_problem_type_parameters`, matrixops.py:50-82. -/
def getProblemTypeParameters (problemType : ℕ) : Py (ℕ × List Comp × List Comp) :=
  if problemType = 1 then
    .ok (2, [[1,1],[2,2],[1,2]], [[1,1],[2,1],[1,2],[2,2]])
  else if problemType = 4 then
    .ok (3, [[1,1],[2,2],[3,3],[1,2],[2,3],[1,3]],
      [[1,1],[2,1],[3,1],[1,2],[2,2],[3,2],[1,3],[2,3],[3,3]])
  else
    .error .runtimeError

/-- `any([int(x) not in range(1, n_dim + 1) for x in list(''.join(comp_order))])`,
matrixops.py:134-135 and 370-371. -/
def badDigit (n : ℕ) (co : List Comp) : Bool :=
  co.flatten.any (fun x => ¬ (1 ≤ x ∧ x < n + 1))

/-- `any([len(comp) != 2 for comp in comp_order])`, matrixops.py:140, 374. -/
def badLength (co : List Comp) : Bool := co.any (fun c => c.length ≠ 2)

/-- `len(list(dict.fromkeys(comp_order))) != len(comp_order)`,
matrixops.py:143, 377.  `List.dedup` keeps one copy of each component; only the
length is used. -/
def hasDuplicate (co : List Comp) : Bool := co.dedup.length ≠ co.length

/-- The Kelvin notation flag, matrixops.py:148-154, 261-267, 382-388, 514-520:
off for a full component list, as requested for a symmetric one, otherwise an
error. -/
def kelvinFlag (n : ℕ) (co : List Comp) (kelvin : Bool) : Py Bool :=
  if co.length = n ^ 2 then .ok false
  else if co.length = (List.range (n + 1)).sum then .ok kelvin
  else .error .runtimeError

/-- `factor` of a single component, matrixops.py:175-177, 409-411. -/
noncomputable def kFactor (kelvin : Bool) (c : Comp) : ℝ :=
  if kelvin && !(c.i == c.j) then Real.sqrt 2 else 1

/-- `factor` of a pair of components, matrixops.py:203-209, 437-443. -/
noncomputable def kFactor4 (kelvin : Bool) (a b : Comp) : ℝ :=
  if kelvin && !(a.i == a.j && b.i == b.j) then
    let factor : ℝ := 1
    let factor := if a.i ≠ a.j then factor * Real.sqrt 2 else factor
    let factor := if b.i ≠ b.j then factor * Real.sqrt 2 else factor
    factor
  else 1

/-- `get_tensor_mf`, matrixops.py:86-212.  The two index lists built in a first
loop (158-163, 182-190) are inlined in the storage loop; complex dtype is not
modelled. -/
noncomputable def getTensorMf (t : Tensor) (n : ℕ) (co : List Comp)
    (kelvin : Bool := true) : Py Tensor := do
  let order := t.shape.length
  if ¬ (order = 2 ∨ order = 4) then throw .runtimeError
  else if badDigit n co then throw .runtimeError
  else if t.shape.any (fun d => d ≠ n) then throw .runtimeError
  else if badLength co then throw .runtimeError
  else if hasDuplicate co then throw .runtimeError
  else
    let kelvin ← kelvinFlag n co kelvin
    if order = 2 then
      return co.foldl (fun mf c =>
          mf.set [co.idxOf c] (kFactor kelvin c * t.val [c.i, c.j]))
        (Tensor.zeros [co.length])
    else
      return (co ×ˢ co).foldl (fun mf ab =>
          mf.set [co.idxOf ab.1, co.idxOf ab.2]
            (kFactor4 kelvin ab.1 ab.2 * t.val [ab.1.i, ab.1.j, ab.2.i, ab.2.j]))
        (Tensor.zeros [co.length, co.length])

/-- Body of the second-order storage loop of `get_tensor_from_mf`,
matrixops.py:406-413: the transposed entry is written first, then the entry. -/
noncomputable def fromMfStep (mf : Tensor) (co : List Comp) (kelvin : Bool)
    (t : Tensor) (c : Comp) : Tensor :=
  let v := (1 / kFactor kelvin c) * mf.val [co.idxOf c]
  let t := if kelvin && !(c.i == c.j) then t.set [c.j, c.i] v else t
  t.set [c.i, c.j] v

/-- Body of the fourth-order storage loop of `get_tensor_from_mf`,
matrixops.py:434-457. -/
noncomputable def fromMfStep4 (mf : Tensor) (co : List Comp) (kelvin : Bool)
    (t : Tensor) (ab : Comp × Comp) : Tensor :=
  let a := ab.1
  let b := ab.2
  let v := (1 / kFactor4 kelvin a b) * mf.val [co.idxOf a, co.idxOf b]
  let t :=
    if kelvin && !(a.i == a.j && b.i == b.j) then
      if a.i ≠ a.j ∧ b.i ≠ b.j then
        let t := t.set [a.j, a.i, b.i, b.j] v
        let t := t.set [a.i, a.j, b.j, b.i] v
        t.set [a.j, a.i, b.j, b.i] v
      else if a.i ≠ a.j then t.set [a.j, a.i, b.i, b.j] v
      else if b.i ≠ b.j then t.set [a.i, a.j, b.j, b.i] v
      else t
    else t
  t.set [a.i, a.j, b.i, b.j] v

/-- Shape check of `get_tensor_from_mf`, matrixops.py:350-367; returns the
tensor order. -/
def mfOrder (mf : Tensor) (n : ℕ) : Py ℕ :=
  match mf.shape with
  | [m] => if m ≠ n ^ 2 ∧ m ≠ (List.range (n + 1)).sum then .error .runtimeError else .ok 2
  | [m, m'] =>
      if m ≠ m' then .error .runtimeError
      else if m ≠ n ^ 2 ∧ m ≠ (List.range (n + 1)).sum then .error .runtimeError
      else .ok 4
  | _ => .error .runtimeError

/-- `get_tensor_from_mf`, matrixops.py:308-459. A matricial form shorter than the
component list raises `IndexError` when it is read. -/
noncomputable def getTensorFromMf (mf : Tensor) (n : ℕ) (co : List Comp)
    (kelvin : Bool := true) : Py Tensor := do
  let order ← mfOrder mf n
  if badDigit n co then throw .runtimeError
  else if badLength co then throw .runtimeError
  else if hasDuplicate co then throw .runtimeError
  else
    let kelvin ← kelvinFlag n co kelvin
    if mf.shape.any (fun m => m < co.length) then throw .indexError
    else if order = 2 then
      return co.foldl (fromMfStep mf co kelvin) (Tensor.zeros [n, n])
    else
      return (co ×ˢ co).foldl (fromMfStep4 mf co kelvin) (Tensor.zeros [n, n, n, n])

/-- `x[0]`, `x[1]` of a component string used as tensor indexes by the vectorised
functions: a string shorter than two raises `IndexError`, and so does an index
outside the tensor.  (The digit 0 would index from the end in Python; it is
treated as an error here, which only removes behaviour.) -/
def vIndexOk (n : ℕ) (c : Comp) : Bool :=
  2 ≤ c.length ∧ 1 ≤ c.getD 0 0 ∧ c.getD 0 0 ≤ n ∧ 1 ≤ c.getD 1 0 ∧ c.getD 1 0 ≤ n

/-- `math.sqrt(2) if x[0] != x[1] else 1.0`, matrixops.py:278-283, 295-301. -/
noncomputable def vKelvin (kelvin : Bool) (c : Comp) : ℝ :=
  if kelvin then (if c.getD 0 0 ≠ c.getD 1 0 then Real.sqrt 2 else 1) else 1

/-- `1.0/math.sqrt(2) if x[0] != x[1] else 1.0`, matrixops.py:538-543, 553-560. -/
noncomputable def vKelvinInv (kelvin : Bool) (c : Comp) : ℝ :=
  if kelvin then (if c.getD 0 0 ≠ c.getD 1 0 then 1 / Real.sqrt 2 else 1) else 1

/-- `vget_tensor_mf`, matrixops.py:214-306: gather by index lists and multiply
by the Kelvin factors.  A tensor of another order leaves `tensor_mf` unbound. -/
noncomputable def vgetTensorMf (t : Tensor) (n : ℕ) (co : List Comp)
    (kelvin : Bool := true) : Py Tensor := do
  let kelvin ← kelvinFlag n co kelvin
  match t.shape with
  | [m, m'] =>
      if co.any (fun c => !(vIndexOk (min m m') c)) then throw .indexError
      else return ⟨[co.length], fun idx =>
        let c := co.getD (idx.getD 0 0) []
        t.val [c.i, c.j] * vKelvin kelvin c⟩
  | [m, m', m'', m'''] =>
      if co.any (fun c => !(vIndexOk (min (min m m') (min m'' m''')) c)) then
        throw .indexError
      else return ⟨[co.length, co.length], fun idx =>
        let a := co.getD (idx.getD 0 0) []
        let b := co.getD (idx.getD 1 0) []
        t.val [a.i, a.j, b.i, b.j] * (vKelvin kelvin a * vKelvin kelvin b)⟩
  | _ => throw .unboundLocal

/-- `comp_order.index(x) if x in comp_order else comp_order.index(x[::-1])` for
`x` the component of (zero-based) indexes `i, j`, matrixops.py:545-546,
562-567; `ValueError` if neither is listed. -/
def gatherIndex (co : List Comp) (i j : ℕ) : Option ℕ :=
  if [i + 1, j + 1] ∈ co then some (co.idxOf [i + 1, j + 1])
  else if [j + 1, i + 1] ∈ co then some (co.idxOf [j + 1, i + 1])
  else none

/-- `vget_tensor_from_mf`, matrixops.py:461-572.  The row-major `view` is entry
`(i, j)` (or `(i, j, k, l)`) of the gathered list.  Multiplying by the factors
requires the matricial form to have one entry per component (broadcasting of
length-one forms is not modelled). -/
noncomputable def vgetTensorFromMf (mf : Tensor) (n : ℕ) (co : List Comp)
    (kelvin : Bool := true) : Py Tensor := do
  match mf.shape with
  | [m] =>
      let kelvin ← kelvinFlag n co kelvin
      if co.any (fun c => c.length < 2) then throw .indexError
      else if m ≠ co.length then throw .runtimeError
      else if (List.range n ×ˢ List.range n).any
          (fun p => (gatherIndex co p.1 p.2).isNone) then throw .valueError
      else return ⟨[n, n], fun idx =>
        let k := (gatherIndex co (idx.getD 0 0) (idx.getD 1 0)).getD 0
        mf.val [k] * vKelvinInv kelvin (co.getD k [])⟩
  | [m, m'] =>
      let kelvin ← kelvinFlag n co kelvin
      if co.any (fun c => c.length < 2) then throw .indexError
      else if m ≠ co.length ∨ m' ≠ co.length then throw .runtimeError
      else if (List.range n ×ˢ List.range n).any
          (fun p => (gatherIndex co p.1 p.2).isNone) then throw .valueError
      else return ⟨[n, n, n, n], fun idx =>
        let k := (gatherIndex co (idx.getD 0 0) (idx.getD 1 0)).getD 0
        let l := (gatherIndex co (idx.getD 2 0) (idx.getD 3 0)).getD 0
        mf.val [k, l] * (vKelvinInv kelvin (co.getD k []) * vKelvinInv kelvin (co.getD l []))⟩
  | _ => throw .runtimeError

/-- `kelvin_factor` for a single component index, matrixops.py:574-627 (branch
608-614); an index outside the list raises `IndexError`. -/
noncomputable def kelvinFactor1 (idx : ℕ) (co : List Comp) : Py ℝ :=
  if co.length = 4 ∨ co.length = 9 then .ok 1
  else match co[idx]? with
    | none => .error .indexError
    | some c => if c.getD 0 0 = c.getD 1 0 then .ok 1 else .ok (Real.sqrt 2)

/-- `kelvin_factor` for a list of component indexes, matrixops.py:616-625: a list
of length two is processed by a loop, any other list is rejected. -/
noncomputable def kelvinFactor2 (idx : List ℕ) (co : List Comp) : Py ℝ :=
  if co.length = 4 ∨ co.length = 9 then .ok 1
  else if idx.length = 2 then
    idx.foldlM (fun factor i => match co[i]? with
      | none => .error .indexError
      | some c => if c.getD 0 0 ≠ c.getD 1 0 then .ok (factor * Real.sqrt 2) else .ok factor) 1
  else .error .runtimeError

/-! ### 2D - 3D matricial forms (component orders of problem types 1 and 4) -/

/-- Symmetric 2D order, matrixops.py:72. -/
def sym2d : List Comp := [[1,1],[2,2],[1,2]]
/-- Nonsymmetric 2D order, matrixops.py:73. -/
def nsym2d : List Comp := [[1,1],[2,1],[1,2],[2,2]]
/-- Symmetric 3D order, matrixops.py:76. -/
def sym3d : List Comp := [[1,1],[2,2],[3,3],[1,2],[2,3],[1,3]]
/-- Nonsymmetric 3D order, matrixops.py:77-78. -/
def nsym3d : List Comp := [[1,1],[2,1],[3,1],[1,2],[2,2],[3,2],[1,3],[2,3],[3,3]]

/-- Orders selected from the length of the given matricial form,
matrixops.py:664-669, 717-722. -/
def ordersFrom2d (len : ℕ) : List Comp × List Comp :=
  if len = sym2d.length then (sym2d, sym3d) else (nsym2d, nsym3d)

/-- Orders selected from the length of the 3D form, matrixops.py:765-770, 814-819. -/
def ordersFrom3d (len : ℕ) : List Comp × List Comp :=
  if len = sym3d.length then (sym2d, sym3d) else (nsym2d, nsym3d)

/-- `get_state_3Dmf_from_2Dmf`, matrixops.py:631-683.  1D forms are lists; reading
past the end of `mf_2d` raises `IndexError`. -/
noncomputable def getState3DmfFrom2Dmf (problemType : ℕ) (mf2d : List ℝ) (comp33 : ℝ) :
    Py (List ℝ) :=
  let (co2, co3) := ordersFrom2d mf2d.length
  let mf3d := List.replicate co3.length (0 : ℝ)
  if problemType = 3 ∨ problemType = 4 then .error .runtimeError
  else if mf2d.length < co2.length then .error .indexError
  else
    let mf3d := (List.range co2.length).foldl (fun acc i =>
      acc.set (co3.idxOf (co2.getD i [])) (mf2d.getD i 0)) mf3d
    .ok (mf3d.set (co3.idxOf [3,3]) comp33)

/-- `vget_state_3Dmf_from_2Dmf`, matrixops.py:685-732: concatenation plus
`comp_33` times a row of the identity. -/
noncomputable def vgetState3DmfFrom2Dmf (mf2d : List ℝ) (comp33 : ℝ) : Py (List ℝ) :=
  let (co2, co3) := ordersFrom2d mf2d.length
  if mf2d.length < co2.length then .error .indexError
  else
    .ok (co3.map (fun x =>
      (if x ∈ co2 then mf2d.getD (co2.idxOf x) 0 else 0)
        + comp33 * (if co3.idxOf x = co3.idxOf [3,3] then 1 else 0)))

/-- `get_state_2Dmf_from_3Dmf` for a 1D form, matrixops.py:734-777, 786. -/
noncomputable def getState2DmfFrom3Dmf (mf3d : List ℝ) : Py (List ℝ) :=
  let (co2, co3) := ordersFrom3d mf3d.length
  if mf3d.length < co3.length then .error .indexError
  else
    .ok ((List.range co2.length).foldl (fun acc i =>
      acc.set i (mf3d.getD (co3.idxOf (co2.getD i [])) 0))
      (List.replicate co2.length 0))

/-- `vget_state_2Dmf_from_3Dmf` for a 1D form, matrixops.py:788-826. -/
noncomputable def vgetState2DmfFrom3Dmf (mf3d : List ℝ) : Py (List ℝ) :=
  let (co2, co3) := ordersFrom3d mf3d.length
  if mf3d.length < co3.length then .error .indexError
  else .ok (co2.map (fun x => mf3d.getD (co3.idxOf x) 0))

/-- `get_state_2Dmf_from_3Dmf` for a 2D form (tangent), matrixops.py:778-786. -/
noncomputable def getState2DmfFrom3Dmf2 (mf3d : Tensor) : Py Tensor :=
  match mf3d.shape with
  | [m, m'] =>
    let (co2, co3) := ordersFrom3d m
    if m < co3.length ∨ m' < co3.length then .error .indexError
    else .ok ((List.range co2.length).foldl (fun acc j =>
      (List.range co2.length).foldl (fun acc i =>
        acc.set [i, j] (mf3d.val [co3.idxOf (co2.getD i []), co3.idxOf (co2.getD j [])])) acc)
      (Tensor.zeros [co2.length, co2.length]))
  | _ => .error .runtimeError

/-- `vget_state_2Dmf_from_3Dmf` for a 2D form, matrixops.py:822, 827-829: the pair
`(i, j)` of the row-major product of the index map. -/
noncomputable def vgetState2DmfFrom3Dmf2 (mf3d : Tensor) : Py Tensor :=
  match mf3d.shape with
  | [m, m'] =>
    let (co2, co3) := ordersFrom3d m
    if m < co3.length ∨ m' < co3.length then .error .indexError
    else
      let indexMap := co2.map (fun x => co3.idxOf x)
      .ok ⟨[co2.length, co2.length], fun idx =>
        mf3d.val [indexMap.getD (idx.getD 0 0) 0, indexMap.getD (idx.getD 1 0) 0]⟩
  | _ => .error .runtimeError

end Hooke
