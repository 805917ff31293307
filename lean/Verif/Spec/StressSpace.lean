import Verif.Spec.ResponseDataset
import Verif.Spec.Continuum
import Verif.Spec.Lou
import Verif.Model.StressSpace

/-!
# Specification vocabulary of the stress space metrics
-/

noncomputable section

namespace Hooke.Spec

/-- `l` lists the roots of the characteristic polynomial of `s`. -/
def EigenvaluesOf (s : T2 3) (l : List ℝ) : Prop :=
  l.length = 3 ∧ ∀ x : ℝ, Matrix.det (x • (1 : Matrix (Fin 3) (Fin 3) ℝ) - Matrix.of s)
    = (l.map fun y => x - y).prod

/-- Stress triaxiality: mean stress over von Mises stress. -/
def triaxiality (s : T2 3) : ℝ := trace s / 3 / vonMises s

/-- Normalized third invariant. -/
def normalizedJ3 (s : T2 3) : ℝ := 27 / 2 * devJ3 s / vonMises s ^ 3

/-- Coordinates of principal stresses: two in the π-plane, and the one along the hydrostatic axis. -/
def piCoords (a b c : ℝ) : List ℝ := [(2 * a - b - c) / √6, (b - c) / √2, (a + b + c) / √3]

/-- `l` lists the principal stresses of `s` from the largest to the smallest. -/
def PrincipalOf (s : T2 3) (l : List ℝ) : Prop := EigenvaluesOf s l ∧ l.Pairwise (· ≥ ·)

/-- Number of times of path `k`. -/
def stepsOf (times : List (List ℝ)) (k : ℕ) : ℕ := (times.getD k []).length

open Classical in
/-- Triaxiality and normalized third invariant of a stress with a deviator larger than the tolerance. -/
def metricsOf (s : T2 3) : Option (ℝ × ℝ) :=
  if devJ2 s < 1 / 10 ^ 8 then none else some (triaxiality s, normalizedJ3 s)

/-- The stress of path `k` at time `t`. -/
def stressAt (co : List Comp) (paths : List (List (List ℝ))) (k t : ℕ) : T2 3 :=
  symTensor 3 co ((paths.getD k []).getD t [])

/-- Paths with a stress for every time of their histories. -/
structure GoodPaths (co : List Comp) (times : List (List ℝ)) (paths : List (List (List ℝ))) : Prop where
  comps : CompleteSym 3 co
  six : co.length = 6
  same : times.length = paths.length
  some_path : times ≠ []
  some_time : ∀ t ∈ times, t ≠ []
  rows : ∀ (k : ℕ) (t : List ℝ) (p : List (List ℝ)), times[k]? = some t → paths[k]? = some p →
    t.length ≤ p.length ∧ ∀ r ∈ p, co.length ≤ r.length

end Hooke.Spec
