import Verif.Model.InternalForces
import Verif.Model.MeshConfig
import Verif.Model.ForceEquilibrium

/-!
# Element-wise forward propagation of the material model finder

Models `forward_sequential_element` (the loops) and `vforward_sequential_element` (the
vectorised mode) of `material_model_finder/model/material_discovery.py` for recurrent
constitutive models, from the displacement history to the loss and the stored local samples.

All elements have the same element class (`e`), each with its own quadrature rule.  The
material states kept in the specimen (lines 1072-1074, 1112-1114, 1134) do not enter the
computation for recurrent models and are left out, as are files, plots, devices, gradients and
the `nan` check of lines 1868-1872.  Dropout and other randomness inside the constitutive model
is not modelled: a model is a function of its input.
-/

noncomputable section

namespace Hooke

/-- A recurrent constitutive model as the finder sees it.  `cls` is its Python class.
`run synced features` is `model(features)` followed by `features_out_extractor`
(material_discovery.py:3415-3444); the flag says whether `sync_material_model_parameters` was
called since the learnable parameters changed (models that synchronise on their own, and models
without that method, do not depend on it).  `normIn` and `denormOut` are the scaler
transformations, present when `is_model_in_normalized` and `is_model_out_normalized` hold
(material_discovery.py:3532-3580). -/
structure RecMaterial where
  cls : ℕ
  run : Bool → List (List ℝ) → Py (List (List ℝ))
  normIn : Option (List (List ℝ) → Py (List (List ℝ)))
  denormOut : Option (List (List ℝ) → Py (List (List ℝ)))

/-- `store_tensor_comps`, material_discovery.py:1645-1671: a zero vector filled component by
component.  Components outside the tensor are not modelled. -/
def storeTensorComps (co : List Comp) (t : Tensor) : List ℝ :=
  co.zipIdx.foldl (fun a ck => a.set ck.2 (t.val [ck.1.i, ck.1.j])) (List.replicate co.length 0)

/-- `vstore_tensor_comps`, material_discovery.py:3383-3412. -/
def vstoreTensorComps (co : List Comp) (t : Tensor) : List ℝ := co.map fun c => t.val [c.i, c.j]

/-- `vbuild_tensor_from_comps`, material_discovery.py:3344-3380. -/
def vbuildTensorFromComps (n : ℕ) (co : List Comp) (v : List ℝ) : Py Tensor := do
  raiseIf ((List.range n ×ˢ List.range n).any fun p => (gatherIndex co p.1 p.2).isNone) .valueError
  raiseIf ((List.range n ×ˢ List.range n).any
    fun p => v.length ≤ (gatherIndex co p.1 p.2).getD 0) .indexError
  return ⟨[n, n], fun idx => v.getD ((gatherIndex co (idx.getD 0 0) (idx.getD 1 0)).getD 0) 0⟩

/-- Strain tensor, determinant of the Jacobian and gradient operator of one point at one time:
`vcompute_local_strain` (material_discovery.py:2298-2351) and the body of the time loop of
lines 1274-1293. -/
def localStrain (e : ElementType) (n : ℕ) (co : List Comp) (X : Fin e.nNode → Fin e.dim → ℝ)
    (u : Tensor) (c : Fin e.dim → ℝ) : Py (Tensor × ℝ × Tensor) := do
  let (d, _, det) ← e.evalShapefunDeriv X c
  let g ← vbuildDiscreteSymGradient d co
  let v ← computeInfinitesimalStrain g u
  let s ← vgetStrainFromVmf v n co
  return (s, det, g)

/-! ### Loops -/

/-- `strain_mf` and `stress_mf` of one time, material_discovery.py:1420-1443. -/
def stateOfTime (n : ℕ) (co : List Comp) (fin fout : List (List ℝ)) (t : ℕ) :
    Py (Tensor × Tensor) := do
  let a ← orRaise fin[t]? .indexError
  let strain ← vbuildTensorFromComps n co (a.take co.length)
  let strainMf ← vgetTensorMf strain n co
  let b ← orRaise fout[t]? .indexError
  let stress ← vbuildTensorFromComps n co (b.take co.length)
  let stressMf ← vgetTensorMf stress n co
  return (strainMf, stressMf)

/-- `recurrent_material_state_update`, material_discovery.py:1362-1445: the states of all
times. -/
def recurrentStateUpdate (n : ℕ) (co : List Comp) (M : RecMaterial) (strains : List Tensor) :
    Py (List (Tensor × Tensor)) := do
  let fin := strains.map (storeTensorComps co)
  let fout ← M.run false fin
  (List.range strains.length).mapM (stateOfTime n co fin fout)

/-- Forces of one point at one time, material_discovery.py:1334-1358. -/
def localForce (e : ElementType) (n : ℕ) (co : List Comp) (X : Fin e.nNode → Fin e.dim → ℝ)
    (c : Fin e.dim → ℝ) (w : ℝ) (stressMf : Tensor) : Py Tensor := do
  let stress ← vgetTensorFromMf stressMf n co
  let sv ← vgetStressVmf stress n co
  let (d, _, det) ← e.evalShapefunDeriv X c
  let g ← vbuildDiscreteSymGradient d co
  let b ← g.transpose.matVec sv
  return ⟨b.shape, fun idx => w * b.val idx * det⟩

/-- States and forces of one point at all times: the body of the loop over the points,
material_discovery.py:1251-1358, before the forces are added. -/
def pointHist (sf : StrainFormulation) (e : ElementType) (n : ℕ) (co : List Comp)
    (M : RecMaterial) (X : ℕ → Fin e.nNode → Fin e.dim → ℝ) (u : ℕ → Tensor) (T : ℕ)
    (cw : (Fin e.dim → ℝ) × ℝ) : Py (List Tensor × List (Tensor × Tensor)) := do
  raiseIf (sf ≠ .infinitesimal) .runtimeError
  let loc ← (List.range T).mapM fun t => localStrain e n co (X t) (u t) cw.1
  let st ← recurrentStateUpdate n co M (loc.map fun l => l.1)
  let fs ← st.zipIdx.mapM fun x => localForce e n co (X x.2) cw.1 cw.2 x.1.2
  return (fs, st)

/-- Body of the loop over the points, material_discovery.py:1251-1358: adds the forces of a point
(`+=`, lines 1356-1358) and stores its states. -/
def addPoint (sf : StrainFormulation) (e : ElementType) (n : ℕ) (co : List Comp)
    (M : RecMaterial) (X : ℕ → Fin e.nNode → Fin e.dim → ℝ) (u : ℕ → Tensor) (T : ℕ)
    (acc : List Tensor × List (List (Tensor × Tensor))) (cw : (Fin e.dim → ℝ) × ℝ) :
    Py (List Tensor × List (List (Tensor × Tensor))) := do
  let r ← pointHist sf e n co M X u T cw
  let fs ← (acc.1.zip r.1).mapM fun p => p.1.addVec p.2
  return (fs, acc.2 ++ [r.2])

/-- `compute_element_internal_forces_hist`, material_discovery.py:1180-1360, for a recurrent
model: the forces at each time and, for each point, its states at each time
(`element_state_hist[t][str(i + 1)]` is entry `t` of entry `i`). -/
def elementForcesHist (sf : StrainFormulation) (e : ElementType) (n : ℕ) (co : List Comp)
    (rule : GaussRule e.dim) (M : RecMaterial) (X : ℕ → Fin e.nNode → Fin e.dim → ℝ)
    (u : ℕ → Tensor) (T : ℕ) : Py (List Tensor × List (List (Tensor × Tensor))) :=
  rule.foldlM (addPoint sf e n co M X u T) (List.replicate T (Tensor.zeros [e.nNode * e.dim]), [])

/-- One local sample: strain path and stress path, a row of components for each time. -/
abbrev LocalSample := List (List ℝ) × List (List ℝ)

/-- One row of the paths of `build_element_local_samples`, material_discovery.py:1569-1588. -/
def sampleRow (n : ℕ) (co : List Comp) (mf : Tensor) : Py (List ℝ) := do
  let t ← vgetTensorFromMf mf n co
  return vstoreTensorComps co t

/-- `build_element_local_samples`, material_discovery.py:1513-1603, without the component orders
and the time history. -/
def elementLocalSamples (n : ℕ) (co : List Comp) (st : List (List (Tensor × Tensor))) :
    Py (List LocalSample) :=
  st.mapM fun pt => do
    let strain ← pt.mapM fun s => sampleRow n co s.1
    let stress ← pt.mapM fun s => sampleRow n co s.2
    return (strain, stress)

/-! ### Vectorised -/

/-- `if check_model_..._normalized: features = data_scaler_transform(...)`,
material_discovery.py:2504-2507 and 2515-2518. -/
def scaleIf (f : Option (List (List ℝ) → Py (List (List ℝ)))) (x : List (List ℝ)) :
    Py (List (List ℝ)) := match f with
  | none => .ok x
  | some g => g x

/-- `vrecurrent_material_state_update`, material_discovery.py:2460-2528: for each time the strain
components followed by the stress components. -/
def vrecurrentStateUpdate (co : List Comp) (M : RecMaterial) (strains : List Tensor) :
    Py (List (List ℝ)) := do
  raiseIf (strains = []) .runtimeError
  let fin ← scaleIf M.normIn (strains.map (vstoreTensorComps co))
  let out ← M.run true fin
  let fout ← scaleIf M.denormOut out
  raiseIf (fin.length ≠ fout.length) .runtimeError
  return List.zipWith (fun a b => a.take co.length ++ b.take co.length) fin fout

/-- Forces of one point at one time, material_discovery.py:2276-2291 and 2530-2563. -/
def vlocalForce (co : List Comp) (w : ℝ) (l : Tensor × ℝ × Tensor) (row : List ℝ) : Py Tensor := do
  raiseIf (row.length < 2 * co.length) .indexError
  let b ← l.2.2.transpose.matVec ⟨[co.length], fun idx => row.getD (co.length + idx.getD 0 0) 0⟩
  return ⟨b.shape, fun idx => w * b.val idx * l.2.1⟩

/-- `vcompute_local_internal_forces_hist`, material_discovery.py:2177-2296, without volumetric
averaging (the flag is `False` in line 1921). -/
def vpointHist (sf : StrainFormulation) (e : ElementType) (n : ℕ) (co : List Comp)
    (M : RecMaterial) (X : ℕ → Fin e.nNode → Fin e.dim → ℝ) (u : ℕ → Tensor) (T : ℕ)
    (cw : (Fin e.dim → ℝ) × ℝ) : Py (List Tensor × List (List ℝ)) := do
  raiseIf (sf ≠ .infinitesimal) .runtimeError
  let loc ← (List.range T).mapM fun t => localStrain e n co (X t) (u t) cw.1
  let st ← vrecurrentStateUpdate co M (loc.map fun l => l.1)
  let fs ← (loc.zip st).mapM fun x => vlocalForce co cw.2 x.1 x.2
  return (fs, st)

/-- `vcompute_element_internal_forces_hist`, material_discovery.py:1876-1950: sum over the points
for each time and degree of freedom, and the states of the points.  `torch.stack` of no points
raises. -/
def velementForcesHist (sf : StrainFormulation) (e : ElementType) (n : ℕ) (co : List Comp)
    (rule : GaussRule e.dim) (M : RecMaterial) (X : ℕ → Fin e.nNode → Fin e.dim → ℝ)
    (u : ℕ → Tensor) (T : ℕ) : Py (List Tensor × List (List (List ℝ))) := do
  raiseIf (rule = []) .runtimeError
  let r ← rule.mapM (vpointHist sf e n co M X u T)
  return ((List.range T).map fun t =>
      ⟨[e.nNode * e.dim], fun idx => (r.map fun q => (q.1.getD t (Tensor.zeros [])).val idx).sum⟩,
    r.map fun q => q.2)

/-- Samples of one element, material_discovery.py:3130-3147. -/
def vsamplesOf (co : List Comp) (st : List (List (List ℝ))) : List LocalSample :=
  st.map fun pt => (pt.map fun row => row.take co.length,
    pt.map fun row => (row.drop co.length).take co.length)

/-- `elements_state_hist[i]` for a possibly negative index. -/
def torchIndex {α : Type} (l : List α) (i : ℤ) : Py α :=
  if 0 ≤ i then orRaise l[i.toNat]? .indexError
  else if 0 ≤ i + l.length then orRaise l[(i + l.length).toNat]? .indexError
  else .error .indexError

/-- `build_elements_local_samples`, material_discovery.py:3077-3149.  `paths` is
`_local_paths_elements` (`none`: not a list). -/
def velementsLocalSamples (co : List Comp) (paths : Option (List ℤ))
    (st : List (List (List (List ℝ)))) : Py (List LocalSample) := do
  let idxs : List ℤ := match paths with
    | some l => l.map fun x => x - 1
    | none => (List.range st.length).map fun k : ℕ => (k : ℤ)
  let s ← idxs.mapM fun i => torchIndex st i
  return s.flatMap (vsamplesOf co)

/-! ### Mesh -/

/-- What the forward propagation reads from the finder and its specimen.  `hist t` are the nodal
displacements at time `t`; `flags` the Dirichlet flags of the mesh; `paths` is `none` if local
paths are not stored. -/
structure FinderSpec (e : ElementType) (N n T : ℕ) where
  mesh : MeshTopology
  config : MeshConfig
  hist : ℕ → NodalField
  rules : ℕ → GaussRule e.dim
  mats : ℕ → RecMaterial
  cfg : LossConfig n
  reaction : Fin T → NodeMat N n ℝ
  bc : Fin T → NodeMat N n ℤ
  flags : NodeMat N n ℤ
  weights : Fin T → ℝ
  paths : Option (Option (List ℤ))

/-- Nodal coordinates of an element as used by the element class. -/
def elemCoords (e : ElementType) (x : NodalField) : Fin e.nNode → Fin e.dim → ℝ := fun a d => x a d

/-- Nodal displacements of an element, shape (n_node, n_dim). -/
def elemDisps (e : ElementType) (y : NodalField) : Tensor :=
  ⟨[e.nNode, e.dim], fun idx => y (idx.getD 0 0) (idx.getD 1 0)⟩

/-- Time loop of an element, material_discovery.py:1083-1102: coordinates and displacements at
each time, and the configuration of the mesh after the loop. -/
def elementConfigHist (m : MeshTopology) (hist : ℕ → NodalField) (T k : ℕ) (upd : Bool)
    (c : MeshConfig) : Py (List (NodalField × NodalField) × MeshConfig) :=
  (List.range T).foldlM (fun acc (t : ℕ) => do
      let c ← updateSpecimenMeshConfiguration T hist acc.2 t upd
      let xu ← getElementConfiguration m c k "current"
      let _ ← getElementConfiguration m c k "last"
      return (acc.1 ++ [xu], c))
    ([], c)

/-- Forces of one element at one time as the argument of the assembler. -/
def forceArr (f : Tensor) : Arr := ⟨f.shape.getD 0 0, fun p => f.val [p]⟩

/-- Variables of the element loop of `forward_sequential_element`: configuration, mesh forces of
each time (flattened), samples. -/
structure SeqAcc where
  config : MeshConfig
  forces : List (ℕ → ℝ)
  samples : List LocalSample

/-- Adds the forces of an element at each time to those of the mesh,
material_discovery.py:1116-1122. -/
def addElement (m : MeshTopology) (k : ℕ) (mesh : List (ℕ → ℝ)) (fs : List Tensor) :
    Py (List (ℕ → ℝ)) :=
  (mesh.zip fs).mapM fun p => do
    let a ← elementAssembler m [(k, forceArr p.2)]
    return fun q => p.1 q + a.val q

/-- `elem_id in local_paths_elements` when local paths are stored, material_discovery.py:1043-1050
and 1125. -/
def isSampled (paths : Option (Option (List ℤ))) (nElem k : ℕ) : Bool := match paths with
  | none => false
  | some none => decide (k ∈ (List.range nElem).map (· + 1))
  | some (some l) => decide ((k : ℤ) ∈ l)

/-- Samples added for an element, material_discovery.py:1125-1131. -/
def samplesIf (n : ℕ) (co : List Comp) (b : Bool) (st : List (List (Tensor × Tensor))) :
    Py (List LocalSample) := if b then elementLocalSamples n co st else .ok []

/-- Body of the element loop, material_discovery.py:1057-1131.  `element_state_hist[-1]` raises
without times. -/
def seqElement {e : ElementType} {N n T : ℕ} (sf : StrainFormulation) (co : List Comp)
    (S : FinderSpec e N n T) (acc : SeqAcc) (k : ℕ) : Py SeqAcc := do
  let h ← elementConfigHist S.mesh S.hist T k (decide (sf ≠ .infinitesimal)) acc.config
  let r ← elementForcesHist sf e n co (S.rules k) (S.mats k)
    (fun t => elemCoords e ((h.1.map fun x => x.1).getD t fun _ _ => 0))
    (fun t => elemDisps e ((h.1.map fun x => x.2).getD t fun _ _ => 0)) T
  raiseIf (T = 0) .indexError
  let forces ← addElement S.mesh k acc.forces r.1
  let s ← samplesIf n co (isSampled S.paths S.mesh.conn.length k) r.2
  return ⟨h.2, forces, acc.samples ++ s⟩

/-- The flattened forces of the mesh with `n` components for each node. -/
def meshHist {N n T : ℕ} (f : List (ℕ → ℝ)) : Fin T → NodeMat N n ℝ :=
  fun t i j => f.getD t (fun _ => 0) ((i : ℕ) * n + j)

/-- `forward_sequential_element`, material_discovery.py:1002-1178: loss and local samples. -/
def forwardSequentialElement {e : ElementType} {N n T : ℕ} (sf : StrainFormulation)
    (co : List Comp) (S : FinderSpec e N n T) : Py (ℝ × Option (List LocalSample)) := do
  let a ← ((List.range S.mesh.conn.length).map (· + 1)).foldlM (seqElement sf co S)
    ⟨S.config, List.replicate T fun _ => 0, []⟩
  let h : ForceHist N n T :=
    { internal := meshHist a.forces, external := fun _ _ _ => 0, reaction := S.reaction
      bc := S.bc, weights := S.weights }
  return (seqHistLoss S.cfg h S.flags, S.paths.map fun _ => a.samples)

/-- Samples of the vectorised mode, material_discovery.py:1778-1782. -/
def vsamplesIf (co : List Comp) (paths : Option (Option (List ℤ)))
    (st : List (List (List (List ℝ)))) : Py (Option (List LocalSample)) := match paths with
  | none => .ok none
  | some p => (velementsLocalSamples co p st).map some

/-- `vforward_sequential_element`, material_discovery.py:1674-1812: loss and local samples.  The
number of material types is the number of Python classes (structure_state.py:447); type and
material of element 1 are used for all elements. -/
def vforwardSequentialElement {e : ElementType} {N n T : ℕ} (sf : StrainFormulation)
    (co : List Comp) (S : FinderSpec e N n T) : Py (ℝ × Option (List LocalSample)) := do
  let idx ← buildElementsMeshIndexing S.mesh n
  raiseIf (∃ k < S.mesh.conn.length, (S.mats (k + 1)).cls ≠ (S.mats 1).cls) .runtimeError
  let conf ← getBatchedMeshConfigurationHist S.mesh S.config S.hist (decide (sf ≠ .infinitesimal))
  let r ← conf.mapM fun xy => velementForcesHist sf e n co (S.rules 1) (S.mats 1)
    (fun t => elemCoords e (xy.1 t)) (fun t => elemDisps e (xy.2 t)) T
  let forces : List (ℕ → ℝ) := (List.range T).map fun t =>
    (vassembleInternalForces (r.map fun q => (List.range (e.nNode * n)).map fun p =>
      (q.1.getD t (Tensor.zeros [])).val [p]) idx S.mesh.nNode n).val
  let h : ForceHist N n T :=
    { internal := meshHist forces, external := fun _ _ _ => 0, reaction := S.reaction
      bc := S.bc, weights := S.weights }
  let loss ← vHistLoss S.cfg h
  let s ← vsamplesIf co S.paths (r.map fun q => q.2)
  return (loss, s)

end Hooke
