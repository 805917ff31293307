import Verif.Model.UniaxialPath

/-!
# Specification of uniaxial stress paths
-/

noncomputable section

open Classical

namespace Hooke.Spec

/-- The name belongs to the kind of the model. -/
def NamesModel (name : String) : PathModel → Prop
  | .vonMises _ => name = "von_mises"
  | .gru .. => name = "gru"

/-- The stress path of a model: of a network, the first six outputs for the strains, the temperature and
the composition, each side scaled where the model is normalised. -/
def pathStress (m : PathModel) (temperature composition : ℝ) (strain : List (List ℝ)) : List (List ℝ) :=
  match m with
  | .vonMises f => f strain
  | .gru isIn isOut normIn denormOut net =>
      let features := strain.map (· ++ [temperature, composition])
      let outputs := net (if isIn then normIn features else features)
      (if isOut then denormOut outputs else outputs).map (List.take 6)

/-- Stresses do not depend on later strains. -/
def Causal (law : List (List ℝ) → List (List ℝ)) : Prop :=
  ∀ (past : List (List ℝ)) (row : List ℝ) (later : List (List ℝ)),
    (law (past ++ row :: later))[past.length]? = (law (past ++ [row]))[past.length]?

/-- There is a stress with six components for each strain with six components. -/
def SixComponents (law : List (List ℝ) → List (List ℝ)) : Prop :=
  ∀ p : List (List ℝ), (∀ r ∈ p, r.length = 6) →
    (law p).length = p.length ∧ ∀ r ∈ law p, r.length = 6

/-- The two lateral stresses of a row of stresses. -/
def lateral (row : List ℝ) : ℝ × ℝ := (row.getD 0 0, row.getD 1 0)

/-- The magnitude of the lateral stresses. -/
def magnitude (r : ℝ × ℝ) : ℝ := Real.sqrt (r.1 ^ 2 + r.2 ^ 2)

/-- The lateral stresses after a path for the lateral strains `x` and the axial strain `e`. -/
def lateralAfter (law : List (List ℝ) → List (List ℝ)) (past : List (List ℝ)) (e : ℝ) (x : ℝ × ℝ) :
    ℝ × ℝ :=
  lateral ((law (past ++ [[x.1, x.2, e, 0, 0, 0]])).getD past.length [])

/-- The iterates of Newton's method for `g = 0`, from zero: the linearisation of `g` at each iterate
vanishes at the next one. -/
structure NewtonIterates (g : ℝ × ℝ → ℝ × ℝ) (x : ℕ → ℝ × ℝ) (n : ℕ) : Prop where
  start : x 0 = (0, 0)
  first : ∀ k < n, (g (x k)).1
    + deriv (fun t => (g (t, (x k).2)).1) (x k).1 * ((x (k + 1)).1 - (x k).1)
    + deriv (fun t => (g ((x k).1, t)).1) (x k).2 * ((x (k + 1)).2 - (x k).2) = 0
  second : ∀ k < n, (g (x k)).2
    + deriv (fun t => (g (t, (x k).2)).2) (x k).1 * ((x (k + 1)).1 - (x k).1)
    + deriv (fun t => (g ((x k).1, t)).2) (x k).2 * ((x (k + 1)).2 - (x k).2) = 0

/-- The lateral stresses are small relative to the axial strain. -/
def SmallLateral (tol e : ℝ) (r : ℝ × ℝ) : Prop := e ≠ 0 ∧ magnitude r < tol * |e|

/-- After each path the lateral stresses are an invertible affine function of the lateral strains. -/
def LaterallyAffine (law : List (List ℝ) → List (List ℝ)) : Prop :=
  ∀ (past : List (List ℝ)) (e : ℝ), (∀ r ∈ past, r.length = 6) →
    ∃ a b c d p q : ℝ, a * d - b * c ≠ 0 ∧
      ∀ x : ℝ × ℝ, lateralAfter law past e x = (a * x.1 + b * x.2 + p, c * x.1 + d * x.2 + q)

end Hooke.Spec
