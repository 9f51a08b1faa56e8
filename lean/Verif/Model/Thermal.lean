import Verif.Model.Mechanical

/-!
# Model of `src/tvemoves_rufbad/thermal_step.py`

Conventions as in the model of the mechanical step.
-/

namespace Tve

/-- an external temperature `t ↦ θ`: an arbitrary Python function (simulation.py:236) -/
abbrev ExtTemp := ℝ → PyM ℝ

/-- `ThermalStepParams` (thermal_step.py:71-77) -/
structure ThermParams where
  searchRadius : ℝ
  fps : ℝ
  regularization : Option ℝ

namespace Thermal

/-- `_energy_potential` (thermal_step.py:80-97) -/
noncomputable def energyPotential (fps : ℝ) (prevStrain strain : Mat ℝ) (prevTemp temp : ℝ) (tempGradient : Vec ℝ) :
    PyM ℝ := do
  let k ← Helpers.heatConductivityReference prevStrain
  let kg ← k.dot tempGradient
  let diffusion := tempGradient.dot kg
  let delta ← strain.sub prevStrain
  let strainRate ← delta.smul fps
  let rate ← Helpers.dissipationRate prevStrain strain fps
  let coupling ← Helpers.strainDerivativeCouplingPotential prevStrain prevTemp
  let adiabatic ← coupling.scalarProduct strainRate
  let heatSourceSink := -(rate + adiabatic) * temp
  return diffusion + heatSourceSink

/-- `_dissipation_potential` (thermal_step.py:100-107) -/
noncomputable def dissipationPotential (prevStrain strain : Mat ℝ) (prevTemp temp : ℝ) : PyM ℝ := do
  let l2 := Helpers.entropyConstant / 2 * (temp - prevTemp) ^ 2
  let a ← Helpers.tempAntiderInternalEnergyNoEntropy strain temp
  let b ← Helpers.internalEnergyNoEntropy prevStrain prevTemp
  return l2 + (a - b * temp)

/-- `_boundary_potential` (thermal_step.py:110-114) -/
noncomputable def boundaryPotential (heatTransferCoefficient externalTemp temp : ℝ) : ℝ :=
  heatTransferCoefficient / 2 * (temp - externalTemp) ^ 2

/-- `m.energy` (thermal_step.py:127-136) -/
noncomputable def energy (integrator : Integrator ℝ) (prevDeform deform : Deformation) (prevTemp temp : Interp)
    (fps : ℝ) : PyM ℝ :=
  integrator.call fun t c => do
    let prevStrain ← prevDeform.strain t c
    let strain ← deform.strain t c
    let pt ← prevTemp.call t c
    let tt ← temp.call t c
    let grad ← temp.gradient t c
    energyPotential fps prevStrain strain pt tt grad

/-- `m.dissipation` (thermal_step.py:138-146) -/
noncomputable def dissipation (integrator : Integrator ℝ) (prevDeform deform : Deformation) (prevTemp temp : Interp) :
    PyM ℝ :=
  integrator.call fun t c => do
    let prevStrain ← prevDeform.strain t c
    let strain ← deform.strain t c
    let pt ← prevTemp.call t c
    let tt ← temp.call t c
    dissipationPotential prevStrain strain pt tt

/-- `m.boundary_heat_transfer` with a boundary integrator (thermal_step.py:149-154) -/
noncomputable def boundaryHeatTransfer (integrator : BoundaryIntegrator ℝ) (externalTemperature : ℝ) (temp : Interp) :
    PyM ℝ :=
  integrator.call fun e t => do
    let tt ← temp.onEdge e t
    return boundaryPotential Helpers.heatTransferCoefficient externalTemperature tt

/-- `_add_objective` (thermal_step.py:117-156): the value of the objective; `boundary` is the boundary integrator
together with the external temperature -/
noncomputable def objective (integrator : Integrator ℝ) (prevDeform deform : Deformation) (prevTemp temp : Interp)
    (fps : ℝ) (boundary : Option (BoundaryIntegrator ℝ × ℝ)) : PyM ℝ := do
  let e ← energy integrator prevDeform deform prevTemp temp fps
  let d ← dissipation integrator prevDeform deform prevTemp temp
  let b ← match boundary with
    | none => .ok 0
    | some (bi, ext) => boundaryHeatTransfer bi ext temp
  return e + b + fps * d

/-- `_check_prev_step_data` (thermal_step.py:159-171) -/
def checkPrevStepData (yShape thetaShape : List ℕ) (prevY y prevTheta : NdArray) : PyM Unit :=
  if prevY.shape ≠ yShape then .error .valueError
  else if y.shape ≠ yShape then .error .valueError
  else if prevTheta.shape ≠ thetaShape then .error .valueError
  else .ok ()

/-- an indexed parameter `within=pyo.NonNegativeReals` with given initial values (thermal_step.py:217-222, 309-314) -/
noncomputable def nonNegParam (l : List ℝ) : PyM (List ℝ) :=
  pyMap l fun x => if x < 0 then .error .valueError else .ok x

end Thermal

/-! ### without regularization -/

/-- the pyomo model created by `_model` (thermal_step.py:174-262) -/
structure P1ThermModel where
  grid : Grid ℝ
  fps : ℝ
  prevY1 : List ℝ
  prevY2 : List ℝ
  y1 : List ℝ
  y2 : List ℝ
  prevTheta : List ℝ
  theta : List VarData
  externalTemperature : ℝ

/-- `_model` (thermal_step.py:174-246) -/
noncomputable def P1ThermModel.new (grid : Grid ℝ) (prevY y prevTheta : NdArray) (searchRadius fps extTemp : ℝ) :
    PyM P1ThermModel := do
  Thermal.checkPrevStepData [grid.vertices.length, 2] [grid.vertices.length] prevY y prevTheta
  let p1 ← prevY.col 0
  let p2 ← prevY.col 1
  let c1 ← y.col 0
  let c2 ← y.col 1
  let prevY1 ← pyMap grid.vertices fun i => pyGet p1 i
  let prevY2 ← pyMap grid.vertices fun i => pyGet p2 i
  let y1 ← pyMap grid.vertices fun i => pyGet c1 i
  let y2 ← pyMap grid.vertices fun i => pyGet c2 i
  let th ← pyMap grid.vertices fun i => prevTheta.get1 i
  let prevTheta ← Thermal.nonNegParam th
  let theta := prevTheta.map fun x => VarData.centred x searchRadius
  let externalTemperature ← if extTemp < 0 then .error .valueError else .ok extTemp
  let _ ← P1MechModel.deformation grid prevY1 prevY2
  let _ ← P1MechModel.deformation grid y1 y2
  let _ ← P1Interpolation grid prevTheta
  let _ ← P1Interpolation grid (varValues theta)
  return ⟨grid, fps, prevY1, prevY2, y1, y2, prevTheta, theta, externalTemperature⟩

namespace P1ThermModel

/-- `m.objective` (thermal_step.py:236-260) -/
noncomputable def objective (leg : LegGauss) (m : P1ThermModel) : PyM ℝ := do
  let prevDeform ← P1MechModel.deformation m.grid m.prevY1 m.prevY2
  let deform ← P1MechModel.deformation m.grid m.y1 m.y2
  let prevTemp ← P1Interpolation m.grid m.prevTheta
  let temp ← P1Interpolation m.grid (varValues m.theta)
  let rule ← dunavant2 ℝ
  let integrator ← Integrator.new rule m.grid.triangles m.grid.points
  let bi ← BoundaryIntegrator.new leg 1 m.grid.boundary.edges m.grid.points
  Thermal.objective integrator prevDeform deform prevTemp temp m.fps (some (bi, m.externalTemperature))

end P1ThermModel

/-- `class _ThermalStep` (thermal_step.py:348-368) -/
structure P1Therm where
  numVertices : ℕ
  model : P1ThermModel
  searchRadius : ℝ
  externalTemperature : ExtTemp

namespace P1Therm

/-- `_ThermalStep.__init__` (thermal_step.py:351-368) -/
noncomputable def new (grid : Grid ℝ) (prevY y prevTheta : NdArray) (searchRadius fps : ℝ) (ext : ExtTemp) :
    PyM P1Therm := do
  let e ← ext 0
  let m ← P1ThermModel.new grid prevY y prevTheta searchRadius fps e
  return ⟨grid.vertices.length, m, searchRadius, ext⟩

/-- `_ThermalStep.prev_y` (thermal_step.py:373-376) -/
def prevY (s : P1Therm) : NdArray := P1Mech.pairs s.model.prevY1 s.model.prevY2

/-- `_ThermalStep.y` (thermal_step.py:378-381) -/
def y (s : P1Therm) : NdArray := P1Mech.pairs s.model.y1 s.model.y2

/-- `_ThermalStep.prev_theta` (thermal_step.py:383-386) -/
def prevTheta (s : P1Therm) : NdArray := NdArray.of1 s.model.prevTheta

/-- `_ThermalStep.theta` (thermal_step.py:388-391) -/
def theta (s : P1Therm) : NdArray := NdArray.of1 (varValues s.model.theta)

/-- access to the pyomo model of the step (thermal_step.py:351-368) -/
def onModel {α : Type} (f : PyS P1ThermModel α) : PyS P1Therm α :=
  PyS.onAttr P1Therm.model (fun m s => { s with model := m }) f

/-- `_ThermalStep.update_prev_y` (thermal_step.py:393-405) -/
def updatePrevY (a : NdArray) : PyS P1Therm Unit := do
  let n ← PyS.get P1Therm.numVertices
  if a.shape ≠ [n, 2] then PyS.raise .valueError
  else do
    let new1 ← PyS.lift (a.col 0)
    let new2 ← PyS.lift (a.col 1)
    let vertices ← PyS.get fun s => s.model.grid.vertices
    onModel (PyS.forEach vertices fun i => do
      let x ← PyS.lift (pyGet new1 i)
      PyS.modify fun m => { m with prevY1 := m.prevY1.set i x }
      let y ← PyS.lift (pyGet new2 i)
      PyS.modify fun m => { m with prevY2 := m.prevY2.set i y })

/-- `_ThermalStep.update_y` (thermal_step.py:407-419) -/
def updateY (a : NdArray) : PyS P1Therm Unit := do
  let n ← PyS.get P1Therm.numVertices
  if a.shape ≠ [n, 2] then PyS.raise .valueError
  else do
    let new1 ← PyS.lift (a.col 0)
    let new2 ← PyS.lift (a.col 1)
    let vertices ← PyS.get fun s => s.model.grid.vertices
    onModel (PyS.forEach vertices fun i => do
      let x ← PyS.lift (pyGet new1 i)
      PyS.modify fun m => { m with y1 := m.y1.set i x }
      let y ← PyS.lift (pyGet new2 i)
      PyS.modify fun m => { m with y2 := m.y2.set i y })

/-- `_ThermalStep.update_prev_theta` (thermal_step.py:421-435) -/
noncomputable def updatePrevTheta (a : NdArray) : PyS P1Therm Unit := do
  let n ← PyS.get P1Therm.numVertices
  if a.shape ≠ [n] then PyS.raise .valueError
  else do
    let r ← PyS.get P1Therm.searchRadius
    let vertices ← PyS.get fun s => s.model.grid.vertices
    onModel (PyS.forEach vertices fun i => do
      let x ← PyS.lift (a.get1 i)
      assignNonNeg x fun x m => { m with prevTheta := m.prevTheta.set i x }
      assignNonNeg x fun x m => { m with theta := m.theta.modify i (VarData.assign x) }
      PyS.modify fun m => { m with theta := m.theta.modify i (VarData.setBounds (x - r) (x + r)) })

/-- `_ThermalStep.update_external_temperature` (thermal_step.py:437-438) -/
noncomputable def updateExternalTemperature (time : ℝ) : PyS P1Therm Unit := do
  let ext ← PyS.get P1Therm.externalTemperature
  let x ← PyS.lift (ext time)
  onModel (assignNonNeg x fun x m => { m with externalTemperature := x })

end P1Therm

/-! ### with regularization -/

/-- the pyomo model created by `_model_regularized` (thermal_step.py:265-345) -/
structure RegThermModel where
  grid : Grid ℝ
  refined : RefinedGrid ℝ
  fps : ℝ
  prevY1 : List (List ℝ)
  prevY2 : List (List ℝ)
  y1 : List (List ℝ)
  y2 : List (List ℝ)
  prevTheta : List ℝ
  theta : List VarData

/-- `_model_regularized` (thermal_step.py:265-339) -/
noncomputable def RegThermModel.new (grid : Grid ℝ) (refined : RefinedGrid ℝ) (prevY y prevTheta : NdArray)
    (searchRadius fps : ℝ) : PyM RegThermModel := do
  Thermal.checkPrevStepData [grid.vertices.length, 2, 6] [refined.toGrid.vertices.length] prevY y prevTheta
  let prevY1 ← prevY.block 0
  let prevY2 ← prevY.block 1
  let y1 ← y.block 0
  let y2 ← y.block 1
  let th ← pyMap (List.range refined.toGrid.vertices.length) fun i => prevTheta.get1 i
  let prevTheta ← Thermal.nonNegParam th
  let theta := prevTheta.map fun x => VarData.centred x searchRadius
  let _ ← RegMechModel.deformation grid refined prevY1 prevY2
  let _ ← RegMechModel.deformation grid refined y1 y2
  let _ ← P1Interpolation refined.toGrid prevTheta
  let _ ← P1Interpolation refined.toGrid (varValues theta)
  return ⟨grid, refined, fps, prevY1, prevY2, y1, y2, prevTheta, theta⟩

namespace RegThermModel

/-- `m.objective` (thermal_step.py:325-343): no boundary integrator is passed -/
noncomputable def objective (m : RegThermModel) : PyM ℝ := do
  let prevDeform ← RegMechModel.deformation m.grid m.refined m.prevY1 m.prevY2
  let deform ← RegMechModel.deformation m.grid m.refined m.y1 m.y2
  let prevTemp ← P1Interpolation m.refined.toGrid m.prevTheta
  let temp ← P1Interpolation m.refined.toGrid (varValues m.theta)
  let rule ← dunavant5 ℝ
  let integrator ← Integrator.new rule m.refined.toGrid.triangles m.refined.toGrid.points
  Thermal.objective integrator prevDeform deform prevTemp temp m.fps none

end RegThermModel

/-- `class _ThermalStepRegularized` (thermal_step.py:441-466) -/
structure RegTherm where
  numVertices : ℕ
  searchRadius : ℝ
  model : RegThermModel

namespace RegTherm
open RegMech (set2 rangeSet)

/-- `_ThermalStepRegularized.__init__` (thermal_step.py:444-466) -/
noncomputable def new (grid : Grid ℝ) (refined : RefinedGrid ℝ) (prevY y prevTheta : NdArray) (searchRadius fps : ℝ) :
    PyM RegTherm := do
  let m ← RegThermModel.new grid refined prevY y prevTheta searchRadius fps
  return ⟨grid.vertices.length, searchRadius, m⟩

/-- `_ThermalStepRegularized.prev_y` (thermal_step.py:471-483) -/
def prevY (s : RegTherm) : NdArray := RegMech.pairs s.model.prevY1 s.model.prevY2

/-- `_ThermalStepRegularized.y` (thermal_step.py:485-497) -/
def y (s : RegTherm) : NdArray := RegMech.pairs s.model.y1 s.model.y2

/-- `_ThermalStepRegularized.prev_theta` (thermal_step.py:499-505) -/
def prevTheta (s : RegTherm) : NdArray := NdArray.of1 s.model.prevTheta

/-- `_ThermalStepRegularized.theta` (thermal_step.py:507-511) -/
def theta (s : RegTherm) : NdArray := NdArray.of1 (varValues s.model.theta)

/-- access to the pyomo model of the step (thermal_step.py:444-466) -/
def onModel {α : Type} (f : PyS RegThermModel α) : PyS RegTherm α :=
  PyS.onAttr RegTherm.model (fun m s => { s with model := m }) f

/-- `_ThermalStepRegularized.update_prev_y` (thermal_step.py:513-529) -/
def updatePrevY (a : NdArray) : PyS RegTherm Unit := do
  let n ← PyS.get fun s => s.model.grid.vertices.length
  if a.shape ≠ [n, 2, 6] then PyS.raise .valueError
  else do
    let new1 ← PyS.lift (a.block 0)
    let new2 ← PyS.lift (a.block 1)
    onModel (PyS.forEach (rangeSet n) fun i => PyS.forEach (rangeSet 6) fun j => do
      let row1 ← PyS.lift (pyGet new1 (i - 1))
      let x ← PyS.lift (pyGet row1 (j - 1))
      PyS.modify fun m => { m with prevY1 := set2 m.prevY1 i j fun _ => x }
      let row2 ← PyS.lift (pyGet new2 (i - 1))
      let y ← PyS.lift (pyGet row2 (j - 1))
      PyS.modify fun m => { m with prevY2 := set2 m.prevY2 i j fun _ => y })

/-- `_ThermalStepRegularized.update_prev_theta` (thermal_step.py:531-545) -/
noncomputable def updatePrevTheta (a : NdArray) : PyS RegTherm Unit := do
  let n ← PyS.get fun s => s.model.refined.toGrid.vertices.length
  if a.shape ≠ [n] then PyS.raise .valueError
  else do
    let r ← PyS.get RegTherm.searchRadius
    onModel (PyS.forEach (rangeSet n) fun i => do
      let x ← PyS.lift (a.get1 (i - 1))
      assignNonNeg x fun x m => { m with prevTheta := m.prevTheta.set (i - 1) x }
      assignNonNeg x fun x m => { m with theta := m.theta.modify (i - 1) (VarData.assign x) }
      PyS.modify fun m => { m with theta := m.theta.modify (i - 1) (VarData.setBounds (x - r) (x + r)) })

/-- `_ThermalStepRegularized.update_y` (thermal_step.py:547-562) -/
def updateY (a : NdArray) : PyS RegTherm Unit := do
  let n ← PyS.get fun s => s.model.grid.vertices.length
  if a.shape ≠ [n, 2, 6] then PyS.raise .valueError
  else do
    let new1 ← PyS.lift (a.block 0)
    let new2 ← PyS.lift (a.block 1)
    onModel (PyS.forEach (rangeSet n) fun i => PyS.forEach (rangeSet 6) fun j => do
      let row1 ← PyS.lift (pyGet new1 (i - 1))
      let x ← PyS.lift (pyGet row1 (j - 1))
      PyS.modify fun m => { m with y1 := set2 m.y1 i j fun _ => x }
      let row2 ← PyS.lift (pyGet new2 (i - 1))
      let y ← PyS.lift (pyGet row2 (j - 1))
      PyS.modify fun m => { m with y2 := set2 m.y2 i j fun _ => y })

end RegTherm

/-! ### the factory and the common interface -/

/-- a thermal step object: `AbstractThermalStep` (thermal_step.py:30-68) -/
inductive ThermStep
  | p1 (s : P1Therm)
  | reg (s : RegTherm)

/-- `thermal_step` (thermal_step.py:565-600) -/
noncomputable def thermalStep (grid : Grid ℝ) (prevY y prevTheta : NdArray) (params : ThermParams) (ext : ExtTemp)
    (refined : Option (RefinedGrid ℝ)) : PyM ThermStep :=
  match params.regularization with
  | none => do
    let s ← P1Therm.new grid prevY y prevTheta params.searchRadius params.fps ext
    return .p1 s
  | some _ =>
    match refined with
    | none => .error .valueError
    | some r => do
      let s ← RegTherm.new grid r prevY y prevTheta params.searchRadius params.fps
      return .reg s

namespace ThermStep

/-- a method implemented by both classes (thermal_step.py:30-69) -/
def dispatch {α : Type} (f : PyS P1Therm α) (g : PyS RegTherm α) : PyS ThermStep α
  | .p1 s => let r := f s; (r.1, .p1 r.2)
  | .reg s => let r := g s; (r.1, .reg r.2)

/-- `prev_y()` (thermal_step.py:36, 373, 471) -/
def prevY : ThermStep → NdArray
  | .p1 s => s.prevY
  | .reg s => s.prevY

/-- `y()` (thermal_step.py:39, 378, 485) -/
def y : ThermStep → NdArray
  | .p1 s => s.y
  | .reg s => s.y

/-- `prev_theta()` (thermal_step.py:42, 383, 499) -/
def prevTheta : ThermStep → NdArray
  | .p1 s => s.prevTheta
  | .reg s => s.prevTheta

/-- `theta()` (thermal_step.py:45, 388, 507) -/
def theta : ThermStep → NdArray
  | .p1 s => s.theta
  | .reg s => s.theta

/-- `update_prev_y` (thermal_step.py:48, 393, 513) -/
def updatePrevY (a : NdArray) : PyS ThermStep Unit := dispatch (P1Therm.updatePrevY a) (RegTherm.updatePrevY a)

/-- `update_prev_theta` (thermal_step.py:54, 421, 531) -/
noncomputable def updatePrevTheta (a : NdArray) : PyS ThermStep Unit :=
  dispatch (P1Therm.updatePrevTheta a) (RegTherm.updatePrevTheta a)

/-- `update_y` (thermal_step.py:61, 407, 547) -/
def updateY (a : NdArray) : PyS ThermStep Unit := dispatch (P1Therm.updateY a) (RegTherm.updateY a)

/-- `update_external_temperature`: the regularized class inherits the empty method of the protocol
(thermal_step.py:67-68), which does nothing -/
noncomputable def updateExternalTemperature (time : ℝ) : PyS ThermStep Unit :=
  dispatch (P1Therm.updateExternalTemperature time) (PyS.pure ())

end ThermStep

end Tve
