import Verif.Model.Mesh

/-!
# Model of the mesh configuration

`simulators/fetorch/structure/structure_mesh.py` (configuration part) and
`material_model_finder/data/specimen_data.py`.  A nodal field of shape
(n_node_mesh, n_dim) is a function of node index and direction.  Every assignment of the
code clones its argument, and every getter returns a clone or an indexed copy, so values
are enough; the one array that is not cloned is the initial coordinate array passed to the
constructor (structure_mesh.py:134), which the caller must not modify.
-/

noncomputable section

namespace Hooke

/-- Nodal field, shape (n_node_mesh, n_dim). -/
abbrev NodalField := ℕ → ℕ → ℝ

/-- Configuration attributes of `StructureMesh`, structure_mesh.py:134-154. -/
structure MeshConfig where
  coordsInit : NodalField
  coords : NodalField
  coordsOld : NodalField
  disps : NodalField
  dispsOld : NodalField

/-- Constructor, structure_mesh.py:134-154. -/
def MeshConfig.new (coordsInit : NodalField) : MeshConfig :=
  ⟨coordsInit, coordsInit, coordsInit, fun _ _ => 0, fun _ _ => 0⟩

/-- `update_mesh_configuration`, structure_mesh.py:346-381. -/
def MeshConfig.update (c : MeshConfig) (disps : NodalField) (time : String)
    (isUpdateCoords : Bool) : Py MeshConfig :=
  if time = "last" then
    let c := { c with dispsOld := disps }
    .ok (if isUpdateCoords then
      { c with coordsOld := fun n d => c.coordsInit n d + c.dispsOld n d } else c)
  else if time = "current" then
    let c := { c with disps := disps }
    .ok (if isUpdateCoords then
      { c with coords := fun n d => c.coordsInit n d + c.disps n d } else c)
  else .error .runtimeError

/-- `get_mesh_configuration`, structure_mesh.py:312-344: coordinates and displacements. -/
def MeshConfig.get (c : MeshConfig) (time : String) : Py (NodalField × NodalField) :=
  if time = "init" then .ok (c.coordsInit, fun _ _ => 0)
  else if time = "last" then .ok (c.coordsOld, c.dispsOld)
  else if time = "current" then .ok (c.coords, c.disps)
  else .error .runtimeError

/-- Advanced indexing `field[elem_nodes_idxs, :]` with `elem_nodes_idxs = node - 1`. -/
def gatherNodes (nodes : List ℕ) (f : NodalField) : NodalField :=
  fun i d => f (nodes.getD i 0 - 1) d

/-- `get_element_configuration`, structure_mesh.py:271-310. -/
def getElementConfiguration (m : MeshTopology) (c : MeshConfig) (k : ℕ) (time : String) :
    Py (NodalField × NodalField) := do
  let nodes ← m.lookup k
  let xu ← c.get time
  return (gatherNodes nodes xu.1, gatherNodes nodes xu.2)

/-- `update_specimen_mesh_configuration`, specimen_data.py:186-222.  `hist t` is
`nodes_disps_mesh_hist[:, :, t]`. -/
def updateSpecimenMeshConfiguration (nTime : ℕ) (hist : ℕ → NodalField) (c : MeshConfig)
    (timeIdx : ℤ) (isUpdateCoords : Bool) : Py MeshConfig := do
  raiseIf (timeIdx < 0 ∨ (nTime : ℤ) ≤ timeIdx) .runtimeError
  let c ← c.update (hist (max 0 (timeIdx - 1)).toNat) "last" isUpdateCoords
  c.update (hist timeIdx.toNat) "current" isUpdateCoords

/-- `get_batched_mesh_configuration_hist`, specimen_data.py:224-278: element coordinates
and displacements indexed by element position, time, local node and direction. -/
def getBatchedMeshConfigurationHist (m : MeshTopology) (c : MeshConfig) (hist : ℕ → NodalField)
    (isUpdateCoords : Bool) :
    Py (List ((ℕ → NodalField) × (ℕ → NodalField))) := do
  let conn ← getConnectivitiesTensor m
  let xInit ← c.get "init"
  let coordsHist : ℕ → NodalField :=
    if isUpdateCoords then fun t n d => xInit.1 n d + hist t n d else fun _ => xInit.1
  return conn.map fun nodes =>
    (fun t => gatherNodes nodes (coordsHist t), fun t => gatherNodes nodes (hist t))

end Hooke
