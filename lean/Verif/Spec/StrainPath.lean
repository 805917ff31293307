import Mathlib.Analysis.Real.Sqrt
import Verif.Model.StrainPath

/-!
# Specification of strain loading paths
-/

namespace Hooke

noncomputable section

/-- Number of points of one loading branch: the whole path without cycles, otherwise the largest
number for which `nCycle` loading and unloading branches fit into `nTime` points. -/
def branchPoints (nTime nCycle : ℕ) : ℕ :=
  if nCycle = 0 then nTime else (nTime - 1) / (2 * nCycle) + 1

/-- Triangular wave with `b` points per branch: `0, 1, …, b - 1, b - 2, …, 1, 0, 1, …`. -/
def triangle (b t : ℕ) : ℕ :=
  if t % (2 * (b - 1)) < b then t % (2 * (b - 1)) else 2 * (b - 1) - t % (2 * (b - 1))

/-- `r` is the finite strain state with the components `v 0, v 1, …` in the given order. -/
def IsState (order : List SComp) (r : SState) (v : ℕ → ℝ) : Prop :=
  r = (List.range order.length).map fun k => Fl.fin (v k)

/-- `r` is the state with all components NaN. -/
def IsNanState (order : List SComp) (r : SState) : Prop :=
  r = List.replicate order.length Fl.nan

/-- Norm of the difference of two symmetric strain tensors, from their independent components: shear
components appear twice in the tensor. -/
def strainDist (order : List SComp) (v w : ℕ → ℝ) : ℝ :=
  √(∑ k ∈ Finset.range order.length,
    (if (order.getD k []).getD 0 0 = (order.getD k []).getD 1 0 then 1 else 2) * (v k - w k) ^ 2)

/-- Admissible bounds: exactly the components of the order, in increasing order. -/
structure GoodBounds (a : PathArgs) : Prop where
  keys : ∀ k, k ∈ a.bounds.keys ↔ k ∈ a.order
  sorted : ∀ e ∈ a.bounds, e.2.1 ≤ e.2.2

/-- The conclusion of C54 for a returned path `p`. -/
structure CyclicShape (a : PathArgs) (p : List SState) : Prop where
  /-- the path has the requested number of points -/
  length : p.length = a.nTime
  /-- every point is one of the points of the first loading branch -/
  points : ∀ t < a.nTime, ∃ s < branchPoints a.nTime a.nCycle, p[t]? = p[s]?
  /-- the path follows the branch back and forth, and then stays at the initial strain -/
  wave : 0 < a.nCycle → ∀ t < a.nTime,
    p[t]? = if t < 2 * a.nCycle * (branchPoints a.nTime a.nCycle - 1)
      then p[triangle (branchPoints a.nTime a.nCycle) t]? else p[0]?
  /-- all cycles fit, and the rest is shorter than two points per cycle -/
  cycles : 0 < a.nCycle → 2 ≤ branchPoints a.nTime a.nCycle ∧
    2 * a.nCycle * (branchPoints a.nTime a.nCycle - 1) + 1 ≤ a.nTime ∧
    a.nTime < 2 * a.nCycle * branchPoints a.nTime a.nCycle + 1
  /-- the path ends at the initial strain -/
  closed : 0 < a.nCycle → p[a.nTime - 1]? = p[0]?

/-- The relation between consecutive states `x`, `z` of a path with prescribed increment norm `s`, where
`w` is the state of the unconstrained path at the second time: the path moves by `s` towards `w`; if it
is at `w` already, all components of the new state are NaN. -/
def NormStep (order : List SComp) (s : ℝ) (x : SState) (w : ℕ → ℝ) (z : SState) : Prop :=
  (IsNanState order x ∧ IsNanState order z) ∨
  ∃ v, IsState order x v ∧
    ((strainDist order w v = 0 ∧ IsNanState order z) ∨
      (strainDist order w v ≠ 0 ∧
        IsState order z fun k => v k + s * ((w k - v k) / strainDist order w v)))

end

end Hooke
