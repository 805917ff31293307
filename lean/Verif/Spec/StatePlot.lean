import Verif.Model.StatePlot

/-!
# What a plot of state variable histories should show
-/

noncomputable section

namespace Hooke.Spec

/-- The histories can be plotted: at least one path, each with its times, one feature and a value at each time. -/
def StateHistories (times : List (List ℝ)) (states : List StateArray) : Prop :=
  times ≠ [] ∧ List.Forall₂ (fun t (s : StateArray) => t ≠ [] ∧ s.cols = 1 ∧ s.vals.length = t.length) times states

/-- The curve of a path has one point for each time, with the value of the state at that time. -/
def ShowsState (t : List ℝ) (s : StateArray) (curve : List (ℝ × ℝ)) : Prop :=
  curve.map Prod.fst = t ∧ curve.map Prod.snd = s.vals

end Hooke.Spec
