import Verif.Model.Elements
import Mathlib.Analysis.SpecialFunctions.Sqrt

/-!
# Model of `simulators/fetorch/element/type/quadratures.py` and of the Gauss rule
selection in the element constructors

A rule is the list of (local coordinates, weight) in label order: list position `k`
is the dictionary entry with key `str(k + 1)`.
-/

noncomputable section

namespace Hooke

/-- `domain` strings of quadratures.py:58-72 (`other`: any other string). -/
inductive Domain | linear | quadrilateral | triangular | hexahedral | tetrahedral | other
  deriving DecidableEq, Repr

/-- Number of local coordinates of the points of a domain. -/
@[reducible] def Domain.dim : Domain → ℕ
  | .linear => 1 | .quadrilateral => 2 | .triangular => 2
  | .hexahedral => 3 | .tetrahedral => 3 | .other => 0

/-- Gauss points (local coordinates and weight) in label order. -/
abbrev GaussRule (d : ℕ) := List ((Fin d → ℝ) × ℝ)

/-- `gauss_quadrature_1d`, quadratures.py:97-126. -/
def gaussQuadrature1d (n : ℕ) : Py (GaussRule 1) :=
  if n = 1 then .ok [(![0], 2)]
  else if n = 2 then .ok [(![-1 / √3], 1), (![1 / √3], 1)]
  else if n = 3 then .ok [(![-√(3 / 5)], 5 / 9), (![0], 8 / 9), (![√(3 / 5)], 5 / 9)]
  else .error .runtimeError

/-- `uniform_grid_quadrature`, quadratures.py:303-329.  `gauss_map[i, j]` is
`1 + floor(j / n_gauss_dim**i) % n_gauss_dim` (exact for these magnitudes), here
zero-based. -/
def uniformGridQuadrature (d nGauss nGaussDim : ℕ) : Py (GaussRule d) := do
  let r ← gaussQuadrature1d nGaussDim
  let gaussMap := fun (i : Fin d) (j : ℕ) => j / nGaussDim ^ (i : ℕ) % nGaussDim
  return (List.range nGauss).map fun j =>
    (fun i => (r.getD (gaussMap i j) (![0], 0)).1 0,
     ∏ i, (r.getD (gaussMap i j) (![0], 0)).2)

/-- `gauss_quadrature_2d` with `domain='quadrilateral'`, quadratures.py:154-169. -/
def gaussQuadrilateral (n : ℕ) : Py (GaussRule 2) :=
  if n = 1 then uniformGridQuadrature 2 n 1
  else if n = 4 then uniformGridQuadrature 2 n 2
  else if n = 9 then uniformGridQuadrature 2 n 3
  else .error .runtimeError

/-- `gauss_quadrature_2d` with `domain='triangular'`, quadratures.py:170-190. -/
def gaussTriangular (n : ℕ) : Py (GaussRule 2) :=
  if n = 1 then .ok [(![1 / 3, 1 / 3], 1 / 2)]
  else if n = 3 then
    .ok [(![1 / 6, 1 / 6], 1 / 6), (![2 / 3, 1 / 6], 1 / 6), (![1 / 6, 2 / 3], 1 / 6)]
  else .error .runtimeError

/-- `gauss_quadrature_3d` with `domain='hexahedral'`, quadratures.py:221-236. -/
def gaussHexahedral (n : ℕ) : Py (GaussRule 3) :=
  if n = 1 then uniformGridQuadrature 3 n 1
  else if n = 8 then uniformGridQuadrature 3 n 2
  else if n = 27 then uniformGridQuadrature 3 n 3
  else .error .runtimeError

/-- `gauss_quadrature_3d` with `domain='tetrahedral'`, quadratures.py:237-271. -/
def gaussTetrahedral (n : ℕ) : Py (GaussRule 3) :=
  if n = 1 then .ok [(![1 / 4, 1 / 4, 1 / 4], 1 / 6)]
  else if n = 4 then
    .ok [(![(5 - √5) / 20, (5 - √5) / 20, (5 - √5) / 20], 1 / 24),
         (![(5 + 3 * √5) / 20, (5 - √5) / 20, (5 - √5) / 20], 1 / 24),
         (![(5 - √5) / 20, (5 + 3 * √5) / 20, (5 - √5) / 20], 1 / 24),
         (![(5 - √5) / 20, (5 - √5) / 20, (5 + 3 * √5) / 20], 1 / 24)]
  else .error .runtimeError

/-- `gauss_quadrature`, quadratures.py:58-72 (with the domain dispatch of
`gauss_quadrature_2d` / `_3d`). -/
def gaussQuadrature (n : ℕ) : (domain : Domain) → Py (GaussRule domain.dim)
  | .linear => gaussQuadrature1d n
  | .quadrilateral => gaussQuadrilateral n
  | .triangular => gaussTriangular n
  | .hexahedral => gaussHexahedral n
  | .tetrahedral => gaussTetrahedral n
  | .other => .error .runtimeError

/-- The Gauss rule computed by each element constructor from its integration
domain (lines 95-97 of the element files). -/
def ElementType.gaussRule : (e : ElementType) → ℕ → Py (GaussRule e.dim)
  | .tri3, n | .tri6, n => gaussQuadrature n .triangular
  | .quad4, n | .quad8, n => gaussQuadrature n .quadrilateral
  | .tetra4, n | .tetra10, n => gaussQuadrature n .tetrahedral
  | .hexa8, n | .hexa20, n => gaussQuadrature n .hexahedral

/-- Element constructor, lines 88-97 of the element files: an `n_gauss` outside
`_admissible_gauss_quadratures` raises `RuntimeError`, otherwise the rule of the
element's domain is stored.  (`n_gauss` is a Python integer here.) -/
def ElementType.init (e : ElementType) (nGauss : ℕ) : Py (GaussRule e.dim) :=
  if nGauss ∉ e.admissibleGauss then .error .runtimeError
  else e.gaussRule nGauss

end Hooke
