import Verif.Model.OptimizationPlot

/-! # Optimization histories -/

noncomputable section

namespace Hooke.Spec

/-- The process has the jobs `0, 1, ...`, listed in any order, with the metrics `vs`. -/
def HasMetrics (name : List Char) (dirs : List (ℕ × Option JobLines)) (vs : List ℝ) : Prop :=
  ∃ files : List JobLines, dirs.Perm ((List.range files.length).zip (files.map some)) ∧
    List.Forall₂ (fun lines v => ∃ before text after, lines = before ++ (text, some v) :: after ∧
      name <:+: text ∧ ∀ l ∈ before, ¬ name <:+: l.1) files vs

/-- `best` has the lowest numbers of `vs` up to each position. -/
def BestSoFar (vs best : List ℝ) : Prop :=
  best.length = vs.length ∧ ∀ (k : ℕ) (b : ℝ), best[k]? = some b →
    b ∈ vs.take (k + 1) ∧ ∀ x ∈ vs.take (k + 1), b ≤ x

end Hooke.Spec
