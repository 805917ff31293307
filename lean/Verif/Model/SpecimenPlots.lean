import Verif.Model.Dataset
import Mathlib.Data.Real.Basic

/-!
# Plots of specimen histories

`plot_nodes_displacement_history`, `plot_reaction_forces_history` and `compare_reaction_forces_history` of
`user_scripts/global_model_update/utilities/process_specimen_data.py:56-224, 321-384`.  The arrays of the
displacements (nodes, dimensions, times) and of the reaction forces (sets, times) are given; reading them from
the files is not modelled here.
-/

noncomputable section

open Classical

namespace Hooke

/-- The argument `nodes_labels` (process_specimen_data.py:92-100). -/
inductive NodeLabels where
  | one (i : ℤ)
  | many (l : List ℤ)
  | all
  | other

/-- The nodes to be plotted (process_specimen_data.py:92-100). -/
def plottedNodes (n : ℕ) : NodeLabels → Py (List ℤ)
  | .one i => .ok [i]
  | .many l => .ok l
  | .all => .ok ((List.range n).map fun k => (k : ℤ) + 1)
  | .other => .error .valueError

/-- A history over its time steps, `np.arange(n_time)` (process_specimen_data.py:124-131, 361-362). -/
def overSteps (h : List ℝ) : List (ℝ × ℝ) := ((List.range h.length).map fun (k : ℕ) => (k : ℝ)).zip h

/-- The figure of a node (process_specimen_data.py:105-140): its label and curves. -/
def nodeFigure (disps : List (List (List ℝ))) (nDim : ℕ) (label : ℤ) :
    Py (ℤ × List (String × List (ℝ × ℝ))) := do
  let node ← pyIndex disps (label - 1)
  let curves ← (List.range nDim).mapM fun i => do
    let h ← orRaise node[i]? .indexError
    return ("Dim " ++ toString (i + 1), overSteps h)
  return (label, curves)

/-- `plot_nodes_displacement_history` (process_specimen_data.py:86-140). -/
def nodeFigures (disps : List (List (List ℝ))) (nDim : ℕ) (labels : NodeLabels) :
    Py (List (ℤ × List (String × List (ℝ × ℝ)))) := do
  let ls ← plottedNodes disps.length labels
  ls.mapM fun l => nodeFigure disps nDim l

/-- The abscissae of the reaction forces (process_specimen_data.py:187-207): the displacement of a node and a
dimension, or the time steps. -/
def reactionAbscissae (disps : List (List (List ℝ))) (nTime : ℕ) : Option (ℤ × ℤ) → Py (List ℝ)
  | some r => do
    let node ← pyIndex disps (r.1 - 1)
    pyIndex node r.2
  | none => .ok ((List.range nTime).map fun (k : ℕ) => (k : ℝ))

/-- `plot_reaction_forces_history` (process_specimen_data.py:175-219): a figure for every set, named by its
label. -/
def reactionFigures (disps : List (List (List ℝ))) (reference : Option (ℤ × ℤ))
    (sets : List (String × List ℝ)) : Py (List (String × List (ℝ × ℝ))) :=
  sets.mapM fun s => do
    let x ← reactionAbscissae disps s.2.length reference
    return (s.1, x.zip s.2)

/-- `compare_reaction_forces_history` (process_specimen_data.py:343-379): all the sets in one figure. -/
def compareReactions (labels : Option (List String)) (hists : List (List ℝ)) :
    Py (List (Option String × List (ℝ × ℝ))) :=
  match labels with
  | some l => do
    raiseIf (l.length ≠ hists.length) .runtimeError
    return (l.map some).zip (hists.map overSteps)
  | none => .ok (hists.map fun h => (none, overSteps h))

end Hooke
