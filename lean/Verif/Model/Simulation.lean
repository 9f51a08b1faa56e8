import Verif.Model.Thermal
import Mathlib.Order.WithBot

/-!
# Model of `src/tvemoves_rufbad/simulation.py`

The plotting methods are modelled in `Model/Plot.lean`. The solver (`pyo.SolverFactory("ipopt")`, simulation.py:243) is a parameter: an
arbitrary function of all problems posed so far that returns new values for the variables and may raise.
-/

namespace Tve

/-! ### the solver -/

/-- a pyomo model passed to the solver (mechanical_step.py:196, 418, thermal_step.py:371, 469) -/
inductive Problem
  | mechP1 (m : P1MechModel)
  | mechReg (m : RegMechModel)
  | thermP1 (m : P1ThermModel)
  | thermReg (m : RegThermModel)

/-- what a call of the solver does: it loads values into the variables (deformation: vertex and C1 index, counted from 0;
temperature: vertex) and possibly raises afterwards (`solver.solve(model)`, mechanical_step.py:196, 418, thermal_step.py:371, 469) -/
structure Outcome where
  y1 : ℕ → ℕ → ℝ
  y2 : ℕ → ℕ → ℝ
  theta : ℕ → ℝ
  err : Option PyErr

/-- the solver: its answer may depend on all earlier calls (simulation.py:243) -/
abbrev Solver := List Problem → Problem → Outcome

/-- whether the call returns normally (mechanical_step.py:196, thermal_step.py:371) -/
def Outcome.result (o : Outcome) : PyM Unit :=
  match o.err with
  | none => .ok ()
  | some e => .error e

/-- load values into an indexed variable (mechanical_step.py:196, thermal_step.py:371, 469) -/
def loadVars (f : ℕ → ℝ) (l : List VarData) : List VarData := l.mapIdx fun i v => v.assign (f i)

/-- load values into a doubly indexed variable (mechanical_step.py:418) -/
def loadVars2 (f : ℕ → ℕ → ℝ) (l : List (List VarData)) : List (List VarData) := l.mapIdx fun i row => loadVars (f i) row

/-- the pyomo model of a mechanical step (mechanical_step.py:189, 400-415) -/
def MechStep.problem : MechStep → Problem
  | .p1 s => .mechP1 s.model
  | .reg s => .mechReg s.model

/-- the mechanical step after the solver has loaded its values (mechanical_step.py:195-196, 417-418) -/
def MechStep.load (o : Outcome) : MechStep → MechStep
  | .p1 s => .p1 { s with model := { s.model with
      y1 := loadVars (fun i => o.y1 i 0) s.model.y1, y2 := loadVars (fun i => o.y2 i 0) s.model.y2 } }
  | .reg s => .reg { s with model := { s.model with y1 := loadVars2 o.y1 s.model.y1, y2 := loadVars2 o.y2 s.model.y2 } }

/-- the pyomo model of a thermal step (thermal_step.py:351-368, 444-466) -/
def ThermStep.problem : ThermStep → Problem
  | .p1 s => .thermP1 s.model
  | .reg s => .thermReg s.model

/-- the thermal step after the solver has loaded its values (thermal_step.py:370-371, 468-469) -/
def ThermStep.load (o : Outcome) : ThermStep → ThermStep
  | .p1 s => .p1 { s with model := { s.model with theta := loadVars o.theta s.model.theta } }
  | .reg s => .reg { s with model := { s.model with theta := loadVars o.theta s.model.theta } }

/-! ### parameters -/

/-- `SimulationParams` (simulation.py:162-171) -/
structure SimParams where
  initialTemperature : ℝ
  searchRadius : ℝ
  fps : ℝ
  scale : ℝ
  regularization : Option ℝ
  refinementFactor : Option ℤ

namespace SimParams

/-- `SimulationParams.__post_init__` (simulation.py:173-203) -/
noncomputable def new (initialTemperature searchRadius fps scale : ℝ) (regularization : Option ℝ)
    (refinementFactor : Option ℤ) : PyM SimParams :=
  if initialTemperature < 0 then .error .valueError
  else if searchRadius ≤ 0 then .error .valueError
  else if fps < 0 then .error .valueError
  else if regularization.any (fun r => decide (r < 0)) then .error .valueError
  else if scale ≤ 0 then .error .valueError
  else if refinementFactor.any (fun n => decide (n ≤ 0)) then .error .valueError
  else if regularization.isSome && refinementFactor.isNone then .error .valueError
  else if regularization.isNone && refinementFactor.isSome then
    .ok ⟨initialTemperature, searchRadius, fps, scale, regularization, none⟩
  else .ok ⟨initialTemperature, searchRadius, fps, scale, regularization, refinementFactor⟩

/-- `mechanical_step_params` (simulation.py:205-215) -/
def mechanicalStepParams (p : SimParams) : MechParams := ⟨p.initialTemperature, p.searchRadius, p.fps, p.regularization⟩

/-- `thermal_step_params` (simulation.py:217-226) -/
def thermalStepParams (p : SimParams) : ThermParams := ⟨p.searchRadius, p.fps, p.regularization⟩

end SimParams

/-! ### recorded steps -/

/-- `PLOTTING_REFINEMENT_FACTOR` (simulation.py:27) -/
def plottingRefinementFactor : ℤ := 5

/-- `AbstractStep` (simulation.py:30-47): the attributes, except for the curves of the domain -/
structure Step where
  yData : NdArray
  thetaData : NdArray
  y : EuclDeformation
  theta : EuclInterp
  grid : Grid ℝ

/-- `Step.__init__` (simulation.py:97-120) -/
noncomputable def Step.new (yData thetaData : NdArray) (grid : Grid ℝ) : PyM Step := do
  if yData.shape ≠ [grid.vertices.length, 2] then .error .valueError
  else if thetaData.shape ≠ [grid.vertices.length] then .error .valueError
  else do
    let p1 ← yData.col 0
    let i1 ← P1Interpolation grid p1
    let p2 ← yData.col 1
    let i2 ← P1Interpolation grid p2
    let t ← P1Interpolation grid thetaData.data
    return ⟨yData, thetaData, ⟨⟨i1⟩, ⟨i2⟩⟩, ⟨t⟩, grid⟩

/-- `RegularizedStep.__init__` (simulation.py:126-159) -/
noncomputable def Step.newRegularized (yData thetaData : NdArray) (domain : RectDomain ℝ) (grid : Grid ℝ)
    (refined : Option (RefinedGrid ℝ)) : PyM Step :=
  match refined with
  | none => .error .valueError
  | some r => do
    if yData.shape ≠ [grid.vertices.length, 2, 6] then .error .valueError
    else if thetaData.shape ≠ [r.toGrid.vertices.length] then .error .valueError
    else do
      let p1 ← yData.block 0
      let i1 ← C1Interpolation grid p1
      let p2 ← yData.block 1
      let i2 ← C1Interpolation grid p2
      let t ← P1Interpolation r.toGrid thetaData.data
      let plotting ← domain.refine r.toGrid plottingRefinementFactor
      return ⟨yData, thetaData, ⟨⟨i1⟩, ⟨i2⟩⟩, ⟨t⟩, plotting.toGrid⟩

/-! ### the simulation -/

/-- the attributes of `Simulation` that `_append_step` changes (simulation.py:263-268); `(inf, -inf)` are the top and
bottom elements -/
structure Record where
  steps : List Step
  tau : ℝ
  currentTime : ℝ
  maxTemp : ℝ
  xlims : WithTop ℝ × WithBot ℝ
  ylims : WithTop ℝ × WithBot ℝ

/-- the attributes of `Simulation` (simulation.py:242-283) and the problems posed to the solver so far -/
structure Sim where
  domain : RectDomain ℝ
  params : SimParams
  grid : Grid ℝ
  refined : Option (RefinedGrid ℝ)
  mech : MechStep
  therm : ThermStep
  record : Record
  calls : List Problem

/-- `y_data[:, j]` flattened (simulation.py:338-339): for an array of shape `(N, 2, 6)` this has `6 N` entries -/
def NdArray.slice (a : NdArray) (j : ℕ) : PyM (List ℝ) :=
  match a.shape with
  | [_, _, _] => do let b ← a.block j; return b.flatten
  | _ => a.col j

/-- the new axis limits (simulation.py:340-341) -/
noncomputable def updateLims (lims : WithTop ℝ × WithBot ℝ) (coords : List ℝ) : PyM (WithTop ℝ × WithBot ℝ) := do
  let lo ← NdArray.npMin coords
  let hi ← NdArray.npMax coords
  return (Min.min lims.1 (lo : WithTop ℝ), Max.max lims.2 (hi : WithBot ℝ))

/-- `Simulation._append_step` (simulation.py:335-352) -/
noncomputable def appendStep (domain : RectDomain ℝ) (params : SimParams) (grid : Grid ℝ)
    (refined : Option (RefinedGrid ℝ)) (yData thetaData : NdArray) : PyS Record Unit := do
  let m ← PyS.lift (NdArray.npMax thetaData.data)
  PyS.modify fun r => { r with maxTemp := Max.max r.maxTemp m }
  let xs ← PyS.lift (yData.slice 0)
  let ys ← PyS.lift (yData.slice 1)
  let xl ← PyS.read fun r => updateLims r.xlims xs
  PyS.modify fun r => { r with xlims := xl }
  let yl ← PyS.read fun r => updateLims r.ylims ys
  PyS.modify fun r => { r with ylims := yl }
  let step ← PyS.lift (match params.regularization with
    | none => Step.new yData thetaData grid
    | some _ => Step.newRegularized yData thetaData domain grid refined)
  PyS.modify fun r => { r with steps := r.steps ++ [step] }
  PyS.modify fun r => { r with currentTime := r.currentTime + r.tau }

/-- `self._refined_grid` (simulation.py:246-250) -/
noncomputable def refineIf (domain : RectDomain ℝ) (grid : Grid ℝ) (factor : Option ℤ) :
    PyM (Option (RefinedGrid ℝ)) :=
  match factor with
  | none => .ok none
  | some n => do
    let r ← domain.refine grid n
    return some r

/-- `Simulation.__init__` (simulation.py:232-283) -/
noncomputable def Sim.new (solver : Solver) (it : SetIter) (domain : RectDomain ℝ) (params : SimParams) (ext : ExtTemp)
    (traction : Traction) : PyM Sim := do
  let grid ← domain.grid it params.scale
  let refined ← refineIf domain grid params.refinementFactor
  let mech ← mechanicalStep grid params.mechanicalStepParams refined traction
  let o := solver [] mech.problem
  let calls := [mech.problem]
  let mech := mech.load o
  o.result
  let tau ← pyDiv 1 params.fps
  let rec0 : Record := ⟨[], tau, -tau, 0, (⊤, ⊥), (⊤, ⊥)⟩
  let (res, rec1) := appendStep domain params grid refined mech.prevY mech.prevTheta rec0
  res
  let therm ← thermalStep grid mech.prevY mech.y mech.prevTheta params.thermalStepParams ext refined
  let o := solver calls therm.problem
  let calls := calls ++ [therm.problem]
  let therm := therm.load o
  o.result
  let (res, rec2) := appendStep domain params grid refined therm.y therm.theta rec1
  res
  return ⟨domain, params, grid, refined, mech, therm, rec2, calls⟩

namespace Sim

/-- a method call on `self._mechanical_step` (simulation.py:253-260, 325-327) -/
def onMech {α : Type} (m : PyS MechStep α) : PyS Sim α := PyS.onAttr Sim.mech (fun x s => { s with mech := x }) m

/-- a method call on `self._thermal_step` (simulation.py:272-282, 330-333) -/
def onTherm {α : Type} (m : PyS ThermStep α) : PyS Sim α := PyS.onAttr Sim.therm (fun x s => { s with therm := x }) m

/-- `self._mechanical_step.solve()` (simulation.py:260, 356, mechanical_step.py:195, 417) -/
def solveMech (solver : Solver) : PyS Sim Unit := fun s =>
  let o := solver s.calls s.mech.problem
  (o.result, { s with mech := s.mech.load o, calls := s.calls ++ [s.mech.problem] })

/-- `self._thermal_step.solve()` (simulation.py:282, 358, thermal_step.py:370, 468) -/
def solveTherm (solver : Solver) : PyS Sim Unit := fun s =>
  let o := solver s.calls s.therm.problem
  (o.result, { s with therm := s.therm.load o, calls := s.calls ++ [s.therm.problem] })

/-- `_update_mechanical_step` (simulation.py:324-327) -/
noncomputable def updateMechanicalStep : PyS Sim Unit := do
  let y ← PyS.get fun s => s.therm.y
  onMech (MechStep.updatePrevY y)
  let theta ← PyS.get fun s => s.therm.theta
  onMech (MechStep.updatePrevTheta theta)
  let time ← PyS.get fun s => s.record.currentTime
  onMech (MechStep.updateBoundaryTraction time)

/-- `_update_thermal_step` (simulation.py:329-333) -/
noncomputable def updateThermalStep : PyS Sim Unit := do
  let prevY ← PyS.get fun s => s.mech.prevY
  onTherm (ThermStep.updatePrevY prevY)
  let prevTheta ← PyS.get fun s => s.mech.prevTheta
  onTherm (ThermStep.updatePrevTheta prevTheta)
  let y ← PyS.get fun s => s.mech.y
  onTherm (ThermStep.updateY y)
  let time ← PyS.get fun s => s.record.currentTime
  onTherm (ThermStep.updateExternalTemperature time)

/-- `_append_step` as a method (simulation.py:335-352) -/
noncomputable def append (yData thetaData : NdArray) : PyS Sim Unit := fun s =>
  PyS.onAttr Sim.record (fun r s => { s with record := r })
    (appendStep s.domain s.params s.grid s.refined yData thetaData) s

/-- `_run_single_step` (simulation.py:354-359) -/
noncomputable def runSingleStep (solver : Solver) : PyS Sim Unit := do
  updateMechanicalStep
  solveMech solver
  updateThermalStep
  solveTherm solver
  let y ← PyS.get fun s => s.therm.y
  let theta ← PyS.get fun s => s.therm.theta
  append y theta

/-- `run` (simulation.py:361-372) -/
noncomputable def run (solver : Solver) (numSteps : ℤ) : PyS Sim Unit :=
  if numSteps ≤ 0 then PyS.raise .valueError
  else if numSteps = 1 then runSingleStep solver
  else PyS.forEach (List.range numSteps.toNat) fun _ => runSingleStep solver

/-- `max_temp` (simulation.py:285-286) -/
def maxTemp (s : Sim) : ℝ := s.record.maxTemp

/-- `steps` (simulation.py:263) -/
def steps (s : Sim) : List Step := s.record.steps

end Sim

end Tve
