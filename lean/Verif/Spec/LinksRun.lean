import Verif.Model.LinksRun

/-!
# Specification of the materials, generation and runs of Links simulations
-/

namespace Hooke.Spec

/-- The descriptor `k` is the number `x`. -/
def NumberAt (d : Descr) (k : String) (x : ℝ) : Prop :=
  d.get? k = some (.num x) ∨ ∃ n : ℤ, d.get? k = some (.count n) ∧ x = n

/-- A number with at most two digits in its exponent. -/
def Moderate (x : ℝ) : Prop := x = 0 ∨ ((10 : ℝ) ^ (-99 : ℤ) ≤ |x| ∧ |x| < (10 : ℝ) ^ (99 : ℤ))

/-- The blanks of a line separate the texts of the numbers `xs`, with nine digits each. -/
def RowReads (l : Text) (xs : List ℝ) : Prop :=
  List.Forall₂ (fun f x => ∃ y, numberOfText f = some y ∧ |y - x| ≤ 5e-9 * |x|) (splitBlank l) xs

/-- The lines of a material phase: the phase and the model, then a line for each row of numbers. -/
def MaterialBlock (phase : ℕ) (name : Text) (rows : List (List ℝ)) (lines : List Text) : Prop :=
  ∃ first rest, lines = (first ++ ['\n']) :: rest ∧ splitBlank first = [strNat phase, name] ∧
    List.Forall₂ (fun l xs => ∃ s, l = s ++ ['\n'] ∧ '\n' ∉ s ∧ RowReads s xs) rest rows

/-- The points of a hardening curve with `n` points between the plastic strains 0 and 2. -/
def CurveRows (f : ℝ → Py ℝ) (n : ℕ) (rows : List (List ℝ)) : Prop :=
  ∃ σ : ℕ → ℝ, (∀ i : ℕ, i < n → f (2 * (i : ℝ) / (n - 1)) = .ok (σ i)) ∧
    rows = (List.range n).map fun i : ℕ => [2 * (i : ℝ) / (n - 1), σ i]

/-- The required descriptors of the models. -/
def requiredOf : KDict String (List String) :=
  let base := ["name", "density", "young", "poisson"]
  let curve := ["n_hard_point", "hardening_law", "hardening_parameters"]
  [("ELASTIC", base), ("VON_MISES", base ++ curve),
    ("DRUCKER_PRAGER", base ++ ["friction_angle_deg", "dilatancy_angle_deg"] ++ curve),
    ("LOU", base ++ ["yield_a_init", "a_hard_slope", "yield_b_init", "b_hard_slope", "yield_c_init",
      "c_hard_slope", "yield_d_init", "d_hard_slope"] ++ curve)]

end Hooke.Spec
