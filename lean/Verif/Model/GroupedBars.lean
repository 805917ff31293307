import Verif.Model.NoiseConvergence

/-!
# Charts of grouped bars

`grouped_bar_chart` of `ioput/plots.py:1599-1758`.  The checks of the Python types (tuple, dictionary) are not
modelled: the labels are a list and the data a list of pairs in the order of the dictionary.  Colours, scales,
limits, tick formats and the legend are not modelled.
-/

noncomputable section

namespace Hooke

/-- The bars of one data set (plots.py:1730-1742): its label, the centre and the height of its bar in every
group, and the ordinate of its average line if asked for. -/
structure BarSet where
  label : String
  bars : List (ℝ × ℝ)
  average : Option ℝ

/-- A chart of grouped bars: the ticks of the groups, the width of the bars and the bars of the data sets. -/
structure BarChart where
  ticks : List (ℝ × String)
  width : ℝ
  sets : List BarSet

/-- The width of the bars (plots.py:1660-1661). -/
def barWidth (n : ℕ) : Option ℝ → ℝ
  | some w => w
  | none => 1 / (2 + (n : ℝ))

/-- The bars of the data set number `k` (plots.py:1731-1742). -/
def barSet (w : ℝ) (isAvg : Bool) (d : String × List ℝ) (k : ℕ) : BarSet :=
  ⟨d.1, d.2.mapIdx fun g v => ((g : ℝ) + (0.5 + (k : ℝ)) * w, v),
    if isAvg then some (sampleMean d.2) else none⟩

/-- `grouped_bar_chart` (plots.py:1640-1758).  With average lines, the first data set is indexed for the legend
(plots.py:1745-1747).  The average over no groups, which numpy gives as nan with a warning, is 0 here. -/
def groupedBars (labels : List String) (data : List (String × List ℝ)) (width : Option ℝ) (isAvg : Bool) :
    Py BarChart := do
  raiseIf (!(data.all fun d => d.2.length == labels.length)) .runtimeError
  raiseIf (isAvg && data.isEmpty) .indexError
  return ⟨labels.mapIdx fun g l => ((g : ℝ) + barWidth data.length width, l), barWidth data.length width,
    data.mapIdx fun k d => barSet (barWidth data.length width) isAvg d k⟩

end Hooke
