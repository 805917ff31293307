import Verif.Model.Kelvin6
import Verif.Model.PyUtil

/-!
# Model of `simulators/fetorch/material/models/standard/elastic.py`

Numbers are reals.  A division by zero (an infinite or NaN tensor in torch) is
excluded by the hypotheses of the theorems.
-/

noncomputable section

namespace Hooke

/-- Elastic symmetries, elastic.py:346-358. -/
inductive ElSym | isotropic | transverse | orthotropic | monoclinic | triclinic | unknown
  deriving DecidableEq

/-- An elastic modulus `'E' + a + b`, as the pair of its component strings. -/
abbrev Modulus := Comp × Comp

/-- Keys of the material properties dictionary: `'E'`, `'v'`, `'E' + a + b`, and
the four digits `a + b` without the leading letter. -/
inductive PKey | E | v | mod (m : Modulus) | bare (m : Modulus)
  deriving DecidableEq

/-- Material properties. -/
abbrev Props := PKey → Option ℝ

/-- elastic.py:355-358, in the order of the tuple. -/
def triclinicModuli : List Modulus :=
  [([1,1],[1,1]), ([1,1],[2,2]), ([1,1],[3,3]), ([1,1],[1,2]), ([1,1],[2,3]), ([1,1],[1,3]),
   ([2,2],[2,2]), ([2,2],[3,3]), ([2,2],[1,2]), ([2,2],[2,3]), ([2,2],[1,3]), ([3,3],[3,3]),
   ([3,3],[1,2]), ([3,3],[2,3]), ([3,3],[1,3]), ([1,2],[1,2]), ([1,2],[2,3]), ([1,2],[1,3]),
   ([2,3],[2,3]), ([2,3],[1,3]), ([1,3],[1,3])]

/-- `get_available_elastic_symmetries`, elastic.py:335-360. -/
def requiredModuli : ElSym → Option (List Modulus)
  | .isotropic => some [([1,1],[1,1]), ([1,1],[2,2])]
  | .transverse => some [([1,1],[1,1]), ([3,3],[3,3]), ([1,1],[2,2]), ([1,1],[3,3]), ([2,3],[2,3])]
  | .orthotropic => some [([1,1],[1,1]), ([2,2],[2,2]), ([3,3],[3,3]), ([1,1],[2,2]),
      ([1,1],[3,3]), ([2,2],[3,3]), ([1,2],[1,2]), ([2,3],[2,3]), ([1,3],[1,3])]
  | .monoclinic => some [([1,1],[1,1]), ([2,2],[2,2]), ([3,3],[3,3]), ([1,1],[2,2]),
      ([1,1],[3,3]), ([2,2],[3,3]), ([1,1],[1,2]), ([2,2],[1,2]), ([3,3],[1,2]), ([1,2],[1,2]),
      ([2,3],[2,3]), ([1,3],[1,3]), ([2,3],[1,3])]
  | .triclinic => some triclinicModuli
  | .unknown => none

/-- Body of the loop over `required_moduli`, elastic.py:443-451 and 575-583.  `d` is
the dictionary in which keys are looked up.  `modulus[3:5] + modulus[1:3]` has no
leading letter. -/
def indStep (d : Props) (ind : Modulus → ℝ) (m : Modulus) : Py (Modulus → ℝ) :=
  match d (.mod m) with
  | some x => .ok (Function.update ind m x)
  | none => match d (.bare (m.2, m.1)) with
    | some x => .ok (Function.update ind m x)
    | none => .error .runtimeError

/-- The loop over `required_moduli`, elastic.py:438-451 and 567-583. -/
def indModuli (d : Props) (required : List Modulus) : Py (Modulus → ℝ) :=
  required.foldlM (indStep d) (fun _ => 0)

/-- `elastic_moduli`, elastic.py:431-435: the properties whose name is one of the
triclinic moduli. -/
def filterModuli (d : Props) : Props
  | .mod m => if m ∈ triclinicModuli then d (.mod m) else none
  | _ => none

/-- `all_moduli`, elastic.py:454-502; moduli which are not assigned are zero.
Repeated reads `all_moduli[...]` are replaced by the value read. -/
def allModuli (s : ElSym) (ind : Modulus → ℝ) : Modulus → ℝ :=
  let assign : List (Modulus × ℝ) → Modulus → ℝ :=
    fun l => l.foldl (fun f kv => Function.update f kv.1 kv.2) (fun _ => 0)
  let a := ind ([1,1],[1,1])
  let b := ind ([1,1],[2,2])
  match s with
  | .isotropic => assign
      [(([1,1],[1,1]), a), (([2,2],[2,2]), a), (([3,3],[3,3]), a),
       (([1,1],[2,2]), b), (([1,1],[3,3]), b), (([2,2],[3,3]), b),
       (([1,2],[1,2]), 0.5 * (a - b)), (([2,3],[2,3]), 0.5 * (a - b)),
       (([1,3],[1,3]), 0.5 * (a - b))]
  | .transverse => assign
      [(([1,1],[1,1]), a), (([2,2],[2,2]), a), (([3,3],[3,3]), ind ([3,3],[3,3])),
       (([1,1],[2,2]), b), (([1,1],[3,3]), ind ([1,1],[3,3])), (([2,2],[3,3]), ind ([1,1],[3,3])),
       (([1,2],[1,2]), 0.5 * (a - b)), (([2,3],[2,3]), ind ([2,3],[2,3])),
       (([1,3],[1,3]), ind ([2,3],[2,3]))]
  | .orthotropic => assign
      [(([1,1],[1,1]), a), (([2,2],[2,2]), ind ([2,2],[2,2])), (([3,3],[3,3]), ind ([3,3],[3,3])),
       (([1,1],[2,2]), b), (([1,1],[3,3]), ind ([1,1],[3,3])), (([2,2],[3,3]), ind ([2,2],[3,3])),
       (([1,2],[1,2]), ind ([1,2],[1,2])), (([2,3],[2,3]), ind ([2,3],[2,3])),
       (([1,3],[1,3]), ind ([1,3],[1,3]))]
  | .monoclinic => assign
      [(([1,1],[1,1]), a), (([2,2],[2,2]), ind ([2,2],[2,2])), (([3,3],[3,3]), ind ([3,3],[3,3])),
       (([1,1],[2,2]), b), (([1,1],[3,3]), ind ([1,1],[3,3])), (([2,2],[3,3]), ind ([2,2],[3,3])),
       (([1,2],[1,2]), ind ([1,2],[1,2])), (([2,3],[2,3]), ind ([2,3],[2,3])),
       (([1,3],[1,3]), ind ([1,3],[1,3])),
       (([1,1],[1,2]), ind ([1,1],[1,2])), (([2,2],[1,2]), ind ([2,2],[1,2])),
       (([3,3],[1,2]), ind ([3,3],[1,2])), (([2,3],[1,3]), ind ([2,3],[1,3]))]
  | _ => ind

/-- `m[i, j] = x`. -/
def M6.set (m : M6) (i j : ℕ) (x : ℝ) : M6 := fun i' j' => if i'.val = i ∧ j'.val = j then x else m i' j'

/-- `kelvin_factor(comp_order_sym.index(c), comp_order_sym)`, matrixops.py:608-614. -/
def kfOf (c : Comp) : ℝ := if c.getD 0 0 = c.getD 1 0 then 1 else √2

/-- The loop which fills `elastic_tangent_mf`, elastic.py:505-521. -/
def fillTangent (all : Modulus → ℝ) : M6 :=
  triclinicModuli.foldl (fun D m =>
    let i := sym3d.idxOf m.1
    let j := sym3d.idxOf m.2
    let x := kfOf m.1 * kfOf m.2 * all m
    let D := D.set i j x
    if i ≠ j then D.set j i x else D) (fun _ _ => 0)

/-- `lam`, elastic.py:417, von_mises.py:317. -/
def lamOf (E v : ℝ) : ℝ := (E * v) / ((1 + v) * (1 - 2 * v))
/-- `miu`, elastic.py:418, von_mises.py:318. -/
def miuOf (E v : ℝ) : ℝ := E / (2 * (1 + v))

/-- `elastic_tangent_modulus`, elastic.py:362-523. -/
def elasticTangentModulus (d : Props) (s : ElSym) : Py M6 :=
  match requiredModuli s with
  | none => .error .runtimeError
  | some required =>
    match (if s = .isotropic then d .E else none), d .v with
    | some E, some v => .ok (kel66 (isoTensor (lamOf E v) (miuOf E v)))
    | _, _ => do
      let ind ← indModuli (filterModuli d) required
      return fillTangent (allModuli s ind)

/-- `get_technical_from_elastic_moduli`, elastic.py:525-610; returns `E, v`. -/
def getTechnicalFromElasticModuli (s : ElSym) (d : Props) : Py (ℝ × ℝ) :=
  match requiredModuli s with
  | none => .error .runtimeError
  | some required =>
    match (if s = .isotropic then d .E else none), d .v with
    | some E, some v => .ok (E, v)
    | _, _ => do
      let ind ← indModuli d required
      let a := ind ([1,1],[1,1])
      let b := ind ([1,1],[2,2])
      if s = .isotropic then
        return ((1 / (a + b)) * (a ^ 2 + a * b - 2 * b ^ 2), b / (a + b))
      else throw .runtimeError

/-- `Elastic.__init__`, elastic.py:116-132: the technical constants are written
into the properties dictionary. -/
def elasticInit (finite : Bool) (s : ElSym) (d : Props) : Py Props :=
  if finite ∧ s ≠ .isotropic then .error .runtimeError
  else if s = .isotropic then do
    let t ← getTechnicalFromElasticModuli s d
    return Function.update (Function.update d .E (some t.1)) .v (some t.2)
  else .error .runtimeError

/-- State variables of the elastic model, elastic.py:207-233; `e33`, `s33` only
exist for problem type 1. -/
structure ElasticState (p : PType) where
  eStrain : Vmf p
  strain : Vmf p
  stress : Vmf p
  isPlast : Bool
  isSuFail : Bool
  e33 : ℝ
  s33 : ℝ

/-- `state_init`, elastic.py:157-233 (infinitesimal strains). -/
def elasticInitState (p : PType) : ElasticState p := ⟨0, 0, 0, false, false, 0, 0⟩

/-- `state_update`, elastic.py:235-333; returns the new state and the tangent. -/
def elasticStateUpdate (p : PType) (d : Props) (s : ElSym) (inc : T2 p.dim) (old : ElasticState p) :
    Py (ElasticState p × (Fin p.len → Fin p.len → ℝ)) := do
  let inc6 := to3D p (mf p inc) 0
  let eOld := to3D p old.eStrain old.e33
  let e := eOld + inc6
  let D ← elasticTangentModulus d s
  let stress := mv6 D e
  return ({ elasticInitState p with
            eStrain := to2D p e
            strain := to2D p e
            stress := to2D p stress
            isSuFail := false
            e33 := get33 p e
            s33 := get33 p stress }, to2DM p D)

/-- Repeated `state_update` from a state. -/
def elasticRun (p : PType) (d : Props) (s : ElSym) (incs : List (T2 p.dim)) (st : ElasticState p) :
    Py (ElasticState p) :=
  incs.foldlM (fun st inc => do
    let r ← elasticStateUpdate p d s inc st
    return r.1) st

end Hooke
