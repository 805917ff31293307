import Verif.Model.UncertaintyPaths
import Verif.Spec.NoiseConvergence

/-! # Bands of uncertain predictions -/

noncomputable section

namespace Hooke.Spec

/-- The points show, at every time, the mean of the predictions and a band with exactly their range. -/
def ShowsBand (path : List (ℝ × ℝ × List ℝ)) (pts : List BandPoint) : Prop :=
  List.Forall₂ (fun (q : ℝ × ℝ × List ℝ) (p : BandPoint) => p.x = q.1 ∧ IsMean q.2.2 p.mean ∧
    ∃ lo hi, p.band = some (lo, hi) ∧ Spans q.2.2 lo hi ∧ lo ≤ p.mean ∧ p.mean ≤ hi) path pts

/-- The figure shows the reference of `m0`, and the bands of every model with the size of its training
set. -/
def ShowsBands (m0 : UqModel) (models : List UqModel) (type : String) (comp : String × ℕ) (s : ℕ)
    (f : BandFigure) : Prop :=
  f.comp = comp.1 ∧ f.sample = s ∧
  f.reference = ("Ground-Truth", (m0.path type comp.2 s).map fun q => (q.1, q.2.1)) ∧
  List.Forall₂ (fun (m : UqModel) (c : String × List BandPoint) =>
    c.1 = "N = " ++ toString m.trainSize ∧ ShowsBand (m.path type comp.2 s) c.2) models f.curves

end Hooke.Spec
