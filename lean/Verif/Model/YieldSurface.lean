import Verif.Model.DruckerPrager
import Verif.Model.Lou
import Verif.Model.PyUtil
import Mathlib.Analysis.SpecialFunctions.Complex.Arg

/-!
# Model of `miscellaneous/materials/plot_yield_surface.py`

The values of the yield functions at the points of the grid and the data of the plot in the
pi-plane.  Floating-point numbers are reals; a value which is infinite or NaN is `none`.  The grid,
the contouring of the surface, the slice at the pi-plane and the drawing (pyvista, matplotlib) are
not modelled.
-/

noncomputable section

namespace Hooke

/-- Outputs of `get_stress_invariants`. -/
structure PlotInvariants where
  i1 : ℝ
  i2 : ℝ
  i3 : ℝ
  j1 : ℝ
  j2 : ℝ
  j3 : ℝ

/-- `get_stress_invariants`, plot_yield_surface.py:239-277. -/
def plotInvariants (s : T2 3) : PlotInvariants :=
  let i1 := ∑ i, s i i
  let i2 := 0.5 * ((∑ i, s i i) ^ 2 - ∑ i, ∑ k, s i k * s k i)
  let i3 := Matrix.det (Matrix.of s)
  ⟨i1, i2, i3, i1, 1 / 3 * i1 ^ 2 - i2, 2 / 27 * i1 ^ 3 - 1 / 3 * i1 * i2 + i3⟩

/-- `np.diag((s1, s2, s3))`, plot_yield_surface.py:123, 164, 218. -/
def npDiag (s : Fin 3 → ℝ) : T2 3 := fun i j => if i = j then s i else 0

/-- `yf_von_mises`, plot_yield_surface.py:101-137 (the model parameters are not used; the root of a
negative number is NaN). -/
def yfVonMises (s : Fin 3 → ℝ) (sy : ℝ) (_ : String → Option ℝ) : Py (Option ℝ) :=
  let j2 := (plotInvariants (npDiag s)).j2 + 1e-10
  .ok ((fpow (3 * j2) (1 / 2)).map fun e => e - sy)

/-- Yield surface cohesion parameter, plot_yield_surface.py:174-175. -/
def frictionXi (phi : ℝ) : ℝ := 2 / √3 * Real.cos phi

/-- Yield pressure parameter, plot_yield_surface.py:176-177. -/
def frictionEta (phi : ℝ) : ℝ := 3 / √3 * Real.sin phi

/-- `yf_drucker_prager`, plot_yield_surface.py:139-188.  The cohesion (180) is infinite if its
divisor is zero. -/
def yfDruckerPrager (s : Fin 3 → ℝ) (sy : ℝ) (par : String → Option ℝ) : Py (Option ℝ) := do
  let phi ← orRaise (par "friction_angle") .keyError
  let inv := plotInvariants (npDiag s)
  let p := 1 / 3 * inv.i1
  let j2 := inv.j2 + 1e-10
  let xi := frictionXi phi
  let eta := frictionEta phi
  let cy : Option ℝ := if xi = 0 then none else some (sy / xi)
  return cy.bind fun c => (fpow j2 (1 / 2)).map fun r => r + eta * p - xi * c

/-- `yf_lou_zhang_yoon`, plot_yield_surface.py:190-237. -/
def yfLouZhangYoon (s : Fin 3 → ℝ) (sy : ℝ) (par : String → Option ℝ) : Py (Option ℝ) := do
  let a ← orRaise (par "yield_a") .keyError
  let b ← orRaise (par "yield_b") .keyError
  let c ← orRaise (par "yield_c") .keyError
  let d ← orRaise (par "yield_d") .keyError
  let inv := plotInvariants (npDiag s)
  let j2 := inv.j2 + 1e-10
  let w1 := b * inv.i1
  let w2 := j2 ^ 3 - c * inv.j3 ^ 2
  let w3 := d * inv.j3
  return (fpow w2 (1 / 2)).bind fun r => (fpow (r - w3) (1 / 3)).map fun q => a * (w1 + q) - sy

/-- `text in model_name`, plot_yield_surface.py:83-87. -/
def inName (t name : String) : Bool := decide (t.toList <:+: name.toList)

/-- Division of a float by a float; infinite or NaN if the divisor is zero. -/
def fdiv (x : Option ℝ) (y : ℝ) : Option ℝ := if y = 0 then none else x.map fun v => v / y

/-- `yield_function`, plot_yield_surface.py:56-99. -/
def yieldFunction (s : Fin 3 → ℝ) (sy : ℝ) (name : String) (par : String → Option ℝ)
    (normalize : Bool) : Py (Option ℝ) := do
  let phi ←
    if inName "von_mises" name then yfVonMises s sy par
    else if inName "drucker_prager" name then yfDruckerPrager s sy par
    else if inName "lou_zhang_yoon" name then yfLouZhangYoon s sy par
    else .error .runtimeError
  return if normalize then fdiv phi sy else phi

/-- Rotation matrix from principal stresses to pi-stresses, plot_yield_surface.py:302-305. -/
def piRotation : Matrix (Fin 3) (Fin 3) ℝ :=
  !![√(2 / 3), -√(1 / 6), -√(1 / 6); 0, √(1 / 2), -√(1 / 2); √(1 / 3), √(1 / 3), √(1 / 3)]

/-- `pi_to_principal`, plot_yield_surface.py:279-310. -/
def piToPrincipal (x : Fin 3 → ℝ) : Fin 3 → ℝ := Matrix.mulVec piRotation.transpose x

/-- `batched_yield_function`, plot_yield_surface.py:312-355. -/
def batchedYieldFunction (points : List (Fin 3 → ℝ)) (sy : ℝ) (name : String)
    (par : String → Option ℝ) : Py (List (Option ℝ)) :=
  points.mapM fun x => yieldFunction (piToPrincipal x) sy name par true

/-- Range of the grid along a dimension, plot_yield_surface.py:411-418, from the bounds of the grid
(lower and upper bound of the first, second and third dimension in turn). -/
def gridRange (bounds : Fin 6 → ℝ) (i : Fin 3) : ℝ :=
  bounds ⟨i + 1, by omega⟩ - bounds ⟨i, by omega⟩

/-! ### Plot in the pi-plane -/

/-- Angle of a point of the slice relative to the centroid, plot_yield_surface.py:616-618
(`np.arctan2`; the sign of a zero is not modelled). -/
def sliceAngle (centroid p : ℝ × ℝ) : ℝ := Complex.arg ⟨p.1 - centroid.1, p.2 - centroid.2⟩

/-- Centroid of the points of a slice, plot_yield_surface.py:614-615 (`np.mean`; for an empty slice it
is NaN and not used). -/
def sliceCentroid (pts : List (ℝ × ℝ)) : ℝ × ℝ :=
  ((pts.map Prod.fst).sum / pts.length, (pts.map Prod.snd).sum / pts.length)

/-- Points of a model in the order they are plotted, plot_yield_surface.py:614-623: sorted by the
angle, with the first point appended (`np.argsort`; the order of points with the same angle is that
of a stable sort). -/
def sliceCurve (pts : List (ℝ × ℝ)) : List (ℝ × ℝ) :=
  let sorted := pts.insertionSort fun p q =>
    sliceAngle (sliceCentroid pts) p ≤ sliceAngle (sliceCentroid pts) q
  sorted ++ sorted.take 1

/-- Pair of columns of a model in the data of the plot, plot_yield_surface.py:601-602, 625-628: an array
of `nMax + 1` rows filled with NaN, whose first rows are the points of the curve. -/
def sliceColumns (nMax : ℕ) (pts : List (ℝ × ℝ)) : Py (List (Option (ℝ × ℝ))) := do
  let c := sliceCurve pts
  raiseIf (nMax + 1 < c.length) .valueError
  return c.map some ++ List.replicate (nMax + 1 - c.length) none

/-- Data of the plot of the slices, plot_yield_surface.py:595-628 (the maximum over no models
raises). -/
def sliceData (models : List (List (ℝ × ℝ))) : Py (List (List (Option (ℝ × ℝ)))) := do
  raiseIf models.isEmpty .valueError
  models.mapM (sliceColumns ((models.map List.length).foldr max 0))

/-- Parameters of a Drucker-Prager material in the pipelines, from the friction and dilatancy
angles: gen_response_dataset.py:1974-1991, gen_noisy_response_dataset.py:880-892 and
compare_material_models.py:330-337, 366-373, 482-489, 518-525, 554-561. -/
def pipelineDP (E v friction dilatancy : ℝ) : DPParams :=
  ⟨E, v, frictionXi friction, frictionEta friction, frictionEta dilatancy⟩

end Hooke
