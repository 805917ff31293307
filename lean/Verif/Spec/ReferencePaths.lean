import Verif.Model.ReferencePaths

/-!
# Specification of reference stress paths
-/

noncomputable section

namespace Hooke.Spec

/-- `p` is the composition `c` in whole percent, rounded down. -/
def WholePercent (c : ℝ) (p : ℤ) : Prop := (p : ℝ) ≤ 100 * c ∧ 100 * c < p + 1

/-- Compositions are not negative, and different ones differ by one percent or more. -/
def PercentApart (comps : List ℝ) : Prop :=
  (∀ c ∈ comps, 0 ≤ c) ∧ ∀ c ∈ comps, ∀ c' ∈ comps, c ≠ c' → 1 / 100 ≤ |c - c'|

/-- The name of an entry of the data set. -/
def entryName (T p : ℤ) : List Char := "T_".toList ++ textOfInt T ++ ("_C_".toList ++ textOfInt p)

/-- A curve shows the components 33 of a strain and a stress path. -/
def ShowsAxial (q : PathCurve) (label : List Char) (strain stress : List (List ℝ)) : Prop :=
  q.label = label ∧ List.Forall₂ (fun x (r : List ℝ) => r[2]? = some x) q.strain strain ∧
    List.Forall₂ (fun x (r : List ℝ) => r[2]? = some x) q.stress stress

/-- The curves of a figure are `n` pairs of curves that satisfy `P`. -/
def InPairs (curves : List PathCurve) (n : ℕ) (P : ℕ → PathCurve → PathCurve → Prop) : Prop :=
  curves.length = 2 * n ∧
    ∀ j < n, ∃ q q', curves[2 * j]? = some q ∧ curves[2 * j + 1]? = some q' ∧ P j q q'

/-- Two curves compare a model of a temperature and a composition, for the strain path that was computed
with the von Mises model of the same temperature and composition, with the stresses of this one. -/
def ComparesWith (vm : ℤ → ℝ → Py PathModel) (prescribed : List ℝ) (name : String)
    (getModel : ℤ → ℝ → Py PathModel) (label : List Char) (T : ℤ) (c : ℝ) (q q' : PathCurve) : Prop :=
  ∃ ref v m stress, vm T c = .ok ref ∧
    uniaxialPath "von_mises" ref T c (1 / 10 ^ 8) 30 prescribed = .ok v ∧
    getModel T c = .ok m ∧ forwardMaterial name m T c v.1 = .ok stress ∧
    ShowsAxial q label v.1 stress ∧ ShowsAxial q' (label ++ " (J2)".toList) v.1 v.2

end Hooke.Spec
