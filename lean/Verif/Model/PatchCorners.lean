import Verif.Model.PyDict
import Mathlib.Data.Real.Basic
import Mathlib.Data.Real.Archimedean

/-!
# Corner displacements of the deformed material patches

`data_generation/spdg/patch_generator.py`: specification of boundary conditions, displacement ranges
and deformation orders, and the random displacements of the corners, in two and three dimensions.

A value drawn from the uniform distribution on `[low, high)` is `low + u (high - low)`, where `u` is
an argument of the model.  An array of displacements is a function of corner and dimension.  A value
given by the user that is not of the required type is `none`.
-/

noncomputable section

namespace Hooke

/-- An argument that is `None`, a dictionary, or something else. -/
inductive DictArg (α : Type) where
  | none
  | dict (d : PyDict α)
  | other

/-- `edges_lab_def_order`: `None`, an integer, a dictionary or something else. -/
inductive OrderArg where
  | none
  | int (z : ℤ)
  | dict (d : PyDict (Option ℤ))
  | other

/-- `_n_corners` (patch_generator.py:154-161). -/
def nCorners (nDim : ℕ) : ℕ := if nDim = 2 then 4 else 8

/-- `_edges_per_dim` (patch_generator.py:783-784 and 795-800). -/
def edgesPerDim (nDim : ℕ) : List (List (ℕ × ℕ)) :=
  if nDim = 2 then [[(0, 1), (3, 2)], [(0, 3), (1, 2)]]
  else [[(0, 1), (3, 2), (4, 5), (7, 6), (0, 1), (4, 5), (3, 2), (7, 6)],
        [(0, 3), (1, 2), (4, 7), (5, 6), (0, 3), (4, 7), (1, 2), (5, 6)],
        [(0, 4), (3, 7), (1, 5), (2, 6), (0, 4), (1, 5), (3, 7), (2, 6)]]

/-- `_edges_mapping` (patch_generator.py:791-792 and 811-817): dimension and index of the edges with
labels `1`, `2`, … -/
def edgesMapping (nDim : ℕ) : List (ℕ × ℕ) :=
  if nDim = 2 then [(0, 0), (0, 1), (1, 0), (1, 1)]
  else [(0, 0), (0, 1), (1, 0), (1, 1), (0, 2), (0, 3), (1, 2), (1, 3), (1, 4), (1, 5), (2, 0), (2, 1),
        (1, 6), (1, 7), (2, 2), (2, 3), (0, 4), (0, 5), (2, 4), (2, 5), (0, 6), (0, 7), (2, 6), (2, 7)]

/-- `_corners_mapping` (patch_generator.py:752): the labels are `1`, `2`, … -/
def cornerIndex (nDim : ℕ) (label : String) : Py ℕ :=
  orRaise ((List.range (nCorners nDim)).find? fun i => decide (toString (i + 1) = label)) .keyError

/-- One corner of `_build_corners_bc` (patch_generator.py:522-535). -/
def setCornerBc (nDim : ℕ) (bc : ℕ → List ℤ) (item : String × Option (List ℤ)) : Py (ℕ → List ℤ) := do
  let c ← cornerIndex nDim item.1
  let v ← orRaise item.2 .runtimeError
  raiseIf (v.length ≠ nDim) .runtimeError
  pure (Function.update bc c v)

/-- `_build_corners_bc` without random conditions (patch_generator.py:518-537); an argument that is
not a dictionary is ignored. -/
def buildCornersBc (nDim : ℕ) : DictArg (Option (List ℤ)) → Py (ℕ → List ℤ)
  | .dict d => d.foldlM (setCornerBc nDim) fun _ => List.replicate nDim 0
  | _ => .ok fun _ => List.replicate nDim 0

/-- The range of one dimension (patch_generator.py:592-603). -/
def rangeOf (r : Option (List ℝ)) : Py (ℝ × ℝ) := do
  let l ← orRaise r .runtimeError
  match l with
  | [a, b] => pure (a, b)
  | _ => .error .runtimeError

/-- The ranges of one corner (patch_generator.py:578-603); corners without an entry keep the range
zero. -/
def cornerRanges (nDim : ℕ) (d : PyDict (Option (List (Option (List ℝ))))) (c : ℕ) :
    Py (List (ℝ × ℝ)) :=
  match d.get? (toString (c + 1)) with
  | none => .ok (List.replicate nDim (0, 0))
  | some none => .error .runtimeError
  | some (some l) => if l.length ≠ nDim then .error .runtimeError else l.mapM rangeOf

/-- `_build_corners_disp_range` (patch_generator.py:563-615). -/
def buildCornersRange (nDim : ℕ) (lab : DictArg (Option (List (Option (List ℝ)))))
    (bc : ℕ → List ℤ) : Py (ℕ → ℕ → ℝ × ℝ) := do
  let ranges ← (match lab with
    | .none => .ok (List.replicate (nCorners nDim) (List.replicate nDim (0, 0)))
    | .dict d => (List.range (nCorners nDim)).mapM (cornerRanges nDim d)
    | .other => .error .runtimeError : Py (List (List (ℝ × ℝ))))
  pure fun c k => if (bc c).getD k 0 = 1 then (0, 0) else (ranges.getD c []).getD k (0, 0)

/-- The order of one edge of a dictionary (patch_generator.py:666-678). -/
def edgeOrder (d : PyDict (Option ℤ)) (label : ℕ) : Py ℕ :=
  match d.get? (toString (label + 1)) with
  | none => .ok 0
  | some o => do
    let z ← orRaise o .runtimeError
    pure (max 0 z).toNat

/-- `_build_edges_poly_orders` (patch_generator.py:636-682), as a function of dimension and index. -/
def buildOrders (nDim : ℕ) : OrderArg → Py (ℕ → ℕ → ℕ)
  | .none => .ok fun _ _ => 0
  | .int z => .ok fun _ _ => (max 0 z).toNat
  | .dict d => do
    let orders ← (List.range (edgesMapping nDim).length).mapM (edgeOrder d)
    pure fun i j => orders.getD ((edgesMapping nDim).idxOf (i, j)) 0
  | .other => .error .runtimeError

/-- `np.random.uniform(low, high)`. -/
def uniformDraw (r : ℝ × ℝ) (u : ℝ) : ℝ := r.1 + u * (r.2 - r.1)

open Classical in
/-- The common displacement of the corners of an edge of order zero (patch_generator.py:942-966). -/
def commonDisp (l r : ℝ × ℝ) (u : ℝ × ℝ) : ℝ :=
  if max l.1 r.1 < min l.2 r.2 then uniformDraw (max l.1 r.1, min l.2 r.2) u.1
  else (uniformDraw l u.1 + uniformDraw r u.2) / 2

/-- `disp[c, k] = v`. -/
def setDisp (d : ℕ → ℕ → ℝ) (c k : ℕ) (v : ℝ) : ℕ → ℕ → ℝ :=
  fun c' k' => if c' = c ∧ k' = k then v else d c' k'

/-- One edge of `_get_corners_random_displacements` (patch_generator.py:938-979): `es` are the edges
of dimension `i`, `j` the index of the edge and `u k` the values drawn for dimension `k`. -/
def edgeDisp (nDim : ℕ) (range : ℕ → ℕ → ℝ × ℝ) (u : ℕ → ℕ → ℕ → ℝ × ℝ) (i : ℕ) (es : List (ℕ × ℕ))
    (s : (ℕ → ℕ → ℝ) × (ℕ → ℕ → ℕ)) (j : ℕ) : (ℕ → ℕ → ℝ) × (ℕ → ℕ → ℕ) :=
  let e := es.getD j (0, 0)
  if s.2 i j = 0 then
    (((List.range nDim).filter (· ≠ i)).foldl (fun d k =>
        let v := commonDisp (range e.1 k) (range e.2 k) (u i j k)
        setDisp (setDisp d e.1 k v) e.2 k v) s.1,
      fun i' j' => if i' = i ∧ es.getD j' (0, 0) = e ∧ j' < es.length then 0 else s.2 i' j')
  else s

/-- `_get_corners_random_displacements` (patch_generator.py:912-981): displacements and updated
orders; `u₀` are the values drawn for the corners. -/
def cornersDisp (nDim : ℕ) (range : ℕ → ℕ → ℝ × ℝ) (orders : ℕ → ℕ → ℕ) (u₀ : ℕ → ℕ → ℝ)
    (u : ℕ → ℕ → ℕ → ℝ × ℝ) : (ℕ → ℕ → ℝ) × (ℕ → ℕ → ℕ) :=
  (List.range nDim).foldl (fun s i =>
      let es := (edgesPerDim nDim).getD i []
      (List.range es.length).foldl (edgeDisp nDim range u i es) s)
    (fun c k => uniformDraw (range c k) (u₀ c k), orders)

/-- The corner displacements of one iteration of `generate_deformed_patch`
(patch_generator.py:249-256 and 302-304). -/
def cornerDisplacements (nDim : ℕ) (bc : DictArg (Option (List ℤ)))
    (ranges : DictArg (Option (List (Option (List ℝ))))) (order : OrderArg) (u₀ : ℕ → ℕ → ℝ)
    (u : ℕ → ℕ → ℕ → ℝ × ℝ) : Py (ℕ → ℕ → ℝ) := do
  let bc ← buildCornersBc nDim bc
  let range ← buildCornersRange nDim ranges bc
  let orders ← buildOrders nDim order
  pure (cornersDisp nDim range orders u₀ u).1

end Hooke
