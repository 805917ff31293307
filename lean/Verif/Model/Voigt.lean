import Verif.Model.Matrixops

/-!
# Model of `simulators/fetorch/math/voigt_notation.py`
-/

namespace Hooke

/-- Body of the storage loop of `get_strain_from_vmf`, voigt_notation.py:88-95. -/
noncomputable def strainStep (vmf : Tensor) (co : List Comp) (t : Tensor) (c : Comp) : Tensor :=
  let v (factor : ℝ) := (1 / factor) * vmf.val [co.idxOf c]
  if c.i ≠ c.j then (t.set [c.j, c.i] (v 2)).set [c.i, c.j] (v 2)
  else t.set [c.i, c.j] (v 1)

/-- `get_strain_from_vmf`, voigt_notation.py:35-97.  Same scatter loop as the
Kelvin one, with factor 2; reading past the end of the vector raises
`IndexError`. -/
noncomputable def getStrainFromVmf (vmf : Tensor) (n : ℕ) (co : List Comp) : Py Tensor := do
  match vmf.shape with
  | [m] =>
    if badDigit n co then throw .runtimeError
    else if badLength co then throw .runtimeError
    else if hasDuplicate co then throw .runtimeError
    else if m < co.length then throw .indexError
    else return co.foldl (strainStep vmf co) (Tensor.zeros [n, n])
  | _ => throw .runtimeError

/-- `vget_strain_from_vmf`, voigt_notation.py:99-139. Broadcasting of a vector of
another length is not modelled (error). -/
noncomputable def vgetStrainFromVmf (vmf : Tensor) (n : ℕ) (co : List Comp) : Py Tensor := do
  match vmf.shape with
  | [m] =>
    if co.any (fun c => c.length < 2) then throw .indexError
    else if (List.range n ×ˢ List.range n).any
        (fun p => (gatherIndex co p.1 p.2).isNone) then throw .valueError
    else if m ≠ co.length then throw .runtimeError
    else return ⟨[n, n], fun idx =>
      let k := (gatherIndex co (idx.getD 0 0) (idx.getD 1 0)).getD 0
      let c := co.getD k []
      vmf.val [k] * (if c.getD 0 0 ≠ c.getD 1 0 then 1 / 2 else 1)⟩
  | _ => throw .runtimeError

/-- `get_stress_vmf`, voigt_notation.py:141-197.  The tensor dimensions are not
checked against `n_dim`; an index outside raises `IndexError`. -/
noncomputable def getStressVmf (t : Tensor) (n : ℕ) (co : List Comp) : Py Tensor := do
  match t.shape with
  | [m, m'] =>
    if badDigit n co then throw .runtimeError
    else if badLength co then throw .runtimeError
    else if hasDuplicate co then throw .runtimeError
    else if co.any (fun c => m ≤ c.i ∨ m' ≤ c.j) then throw .indexError
    else
      return co.foldl (fun mf c => mf.set [co.idxOf c] (t.val [c.i, c.j]))
        (Tensor.zeros [co.length])
  | _ => throw .runtimeError

/-- `vget_stress_vmf`, voigt_notation.py:199-230 (second-order tensors). -/
noncomputable def vgetStressVmf (t : Tensor) (_n : ℕ) (co : List Comp) : Py Tensor := do
  match t.shape with
  | [m, m'] =>
    if co.any (fun c => !(vIndexOk (min m m') c)) then throw .indexError
    else return ⟨[co.length], fun idx =>
      let c := co.getD (idx.getD 0 0) []
      t.val [c.i, c.j]⟩
  | _ => throw .indexError

/-- `vol_indicator` of `get_projection_tensors_vmf`, voigt_notation.py:257-258. -/
noncomputable def volIndicator (co : List Comp) (k : ℕ) : ℝ :=
  if (co.getD k []).getD 0 0 = (co.getD k []).getD 1 0 then 1 else 0

/-- First output of `get_projection_tensors_vmf`, voigt_notation.py:261: an
`n_comp` by `n_comp` matrix. -/
noncomputable def volProjVmf (n : ℕ) (co : List Comp) (k l : ℕ) : ℝ :=
  (1 / (n : ℝ)) * (volIndicator co k * volIndicator co l)

/-- Second output of `get_projection_tensors_vmf`, voigt_notation.py:254, 263. -/
noncomputable def devProjVmf (n : ℕ) (co : List Comp) (k l : ℕ) : ℝ :=
  (if k = l then 1 else 0) - volProjVmf n co k l

/-- `get_projection_tensors_vmf`, voigt_notation.py:232-265; `1.0/n_dim` raises
`ZeroDivisionError` when `n_dim` is zero and `x[0]` raises `IndexError` on a
component with fewer than two digits. -/
noncomputable def getProjectionTensorsVmf (n : ℕ) (co : List Comp) :
    Py ((ℕ → ℕ → ℝ) × (ℕ → ℕ → ℝ)) :=
  if co.any (fun c => c.length < 2) then .error .indexError
  else if n = 0 then .error .zeroDivision
  else .ok (volProjVmf n co, devProjVmf n co)

end Hooke
