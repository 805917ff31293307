import Verif.Spec.Continuum
import Verif.Model.VonMises

/-! # Specification: return mapping and plasticity -/

noncomputable section

namespace Hooke.Spec

/-- Newton's method from `x = 0`, as a sequence; undefined after a zero Jacobian. -/
def newtonIterate (f : ℝ → NewtonEval) : ℕ → Option ℝ
  | 0 => some 0
  | k + 1 => match newtonIterate f k with
    | none => none
    | some x => if (f x).jacobian = 0 then none else some (x - (f x).residual / (f x).jacobian)

/-- Residual within the relative tolerance. -/
def Converged (f : ℝ → NewtonEval) (tol x : ℝ) : Prop :=
  (f x).scale ≠ 0 ∧ |(f x).residual| < tol * |(f x).scale|

/-- The elastic strain stored in a state, as a 3D Kelvin vector. -/
def elastic3D {p : PType} (s : VMState p) : V6 := to3D p s.eStrain s.e33
/-- The stress stored in a state, as a 3D Kelvin vector. -/
def stress3D {p : PType} (s : VMState p) : V6 := to3D p s.stress s.s33
/-- The total strain stored in a state, as a 3D Kelvin vector (no out-of-plane strain). -/
def strain3D {p : PType} (s : VMState p) : V6 := to3D p s.strain 0
/-- The plastic strain of a state: total minus elastic strain. -/
def plastic3D {p : PType} (s : VMState p) : V6 := fun k => strain3D s k - elastic3D s k
/-- The strain increment as a 3D Kelvin vector. -/
def increment3D (p : PType) (inc : T2 p.dim) : V6 := to3D p (mf p inc) 0
/-- Elastic trial strain of an increment. -/
def trial3D {p : PType} (s : VMState p) (inc : T2 p.dim) : V6 :=
  fun k => elastic3D s k + increment3D p inc k

/-- Admissible elastic constants. -/
structure Admissible (E v : ℝ) : Prop where
  young : 0 < E
  lower : -1 < v
  upper : v < 1 / 2

/-- The trial stress is within the yield tolerance (its excess over the yield stress, relative to
the yield stress, is at most `1e-6`). -/
def TrialElastic {p : PType} (E v : ℝ) (law : HardLaw) (old : VMState p) (inc : T2 p.dim) : Prop :=
  (law old.acc).1 ≠ 0 ∧
    (vm6 (hooke6 (lame E v) (shear E v) (trial3D old inc)) - (law old.acc).1) / (law old.acc).1
      ≤ 1e-6

/-- The function whose root is sought in a plastic step: `q - 3 G Δγ - σy(acc + Δγ)`, its scale
`σy` and its derivative `-3 G - H`. -/
def plasticEquation {p : PType} (E v : ℝ) (law : HardLaw) (old : VMState p) (inc : T2 p.dim)
    (x : ℝ) : NewtonEval :=
  { residual := vm6 (hooke6 (lame E v) (shear E v) (trial3D old inc)) - 3 * shear E v * x
      - (law (old.acc + x)).1
    scale := (law (old.acc + x)).1
    jacobian := -3 * shear E v - (law (old.acc + x)).2 }

/-- A hardening law which never softens. -/
def NonSoftening (law : HardLaw) : Prop := ∀ x y, x ≤ y → (law x).1 ≤ (law y).1

/-- What holds after every history. -/
structure HistoryInvariant {p : PType} (E v : ℝ) (law : HardLaw) (total : T2 p.dim)
    (s : VMState p) : Prop where
  /-- the total strain is the sum of the increments -/
  strain : s.strain = mf p total
  /-- the stress is Hooke's law of the elastic strain -/
  stress : stress3D s = hooke6 (lame E v) (shear E v) (elastic3D s)
  /-- plastic flow has preserved volume -/
  volume : tr6 (plastic3D s) = 0
  /-- the stress is within the yield tolerance of the current yield stress -/
  admissible : vm6 (stress3D s) ≤ (1 + 1e-6) * (law s.acc).1
  /-- the accumulated plastic strain has not decreased from zero -/
  acc : 0 ≤ s.acc
  ok : s.isSuFail = false

end Hooke.Spec
