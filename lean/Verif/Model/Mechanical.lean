import Verif.Model.PyState
import Verif.Model.Helpers
import Verif.Model.Interpolation
import Verif.Model.Integrators

/-!
# Model of `src/tvemoves_rufbad/mechanical_step.py`

A pyomo model consists of its parameters and variables (mutable) and of the objective, which the code builds once as an
expression in them; here the objective is the value of this expression as a function of the components. Members of
components indexed by the vertices `0, …, N-1` (in the regularized model `1, …, N`) are stored in lists in this
order; all grids of the library have these vertices (C09, C22).
`numpy.polynomial.legendre.leggauss` is a parameter, as in the model of `BoundaryIntegrator`.
-/

namespace Tve

/-- the signature of `numpy.polynomial.legendre.leggauss` (quadrature_rules.py:5, 96) -/
abbrev LegGauss := ℕ → PyM (List ℝ × List ℝ)

/-- a boundary traction `(t, x, y) ↦ [g1, g2]`: an arbitrary Python function (simulation.py:237, mechanical_step.py:184) -/
abbrev Traction := ℝ → ℝ → ℝ → PyM (List ℝ)

/-- the coordinates of a grid point: `*grid.points[i]` (mechanical_step.py:107, 113, 252) -/
def pointArgs (g : Grid ℝ) (i : Vertex) : PyM (ℝ × ℝ) := do
  let p ← pyGet g.points i
  match p.data with
  | [x, y] => .ok (x, y)
  | _ => .error .typeError

/-- `MechanicalStepParams` (mechanical_step.py:29-36) -/
structure MechParams where
  initialTemperature : ℝ
  searchRadius : ℝ
  fps : ℝ
  regularization : Option ℝ

/-! ### without regularization -/

/-- the pyomo model created by `_model` (mechanical_step.py:71-167): the grid and `fps`, on which the objective depends,
the parameters and the variables -/
structure P1MechModel where
  grid : Grid ℝ
  fps : ℝ
  neumannVertices : List Vertex
  prevY1 : List ℝ
  prevY2 : List ℝ
  prevTheta : List ℝ
  g1 : PyDict Vertex ℝ
  g2 : PyDict Vertex ℝ
  y1 : List VarData
  y2 : List VarData

/-- one component of the traction at the Neumann vertices (mechanical_step.py:104-115); `traction` is the traction at a
fixed time -/
noncomputable def tractionParam (g : Grid ℝ) (nv : List Vertex) (traction : ℝ → ℝ → PyM (List ℝ)) (k : ℕ) :
    PyM (PyDict Vertex ℝ) := do
  let items ← pyMap nv fun i => do
    let (x, y) ← pointArgs g i
    let t ← traction x y
    let v ← pyGet t k
    return (i, v)
  return ⟨items⟩

/-- fix the variables of the Dirichlet vertices (mechanical_step.py:131-133) -/
def fixVertices (vs : List Vertex) (l : List VarData) : List VarData :=
  vs.foldl (fun l v => l.modify v VarData.fix) l

/-- `_model` (mechanical_step.py:71-148) -/
noncomputable def P1MechModel.new (grid : Grid ℝ) (initialTemperature searchRadius fps : ℝ)
    (traction : ℝ → ℝ → PyM (List ℝ)) : PyM P1MechModel := do
  let neumannVertices := pySet grid.neumann.vertices
  let dirichletVertices := pySet grid.dirichlet.vertices
  let prevY1 ← pyMap grid.vertices fun i => do let p ← pyGet grid.points i; p.getItem 0
  let prevY2 ← pyMap grid.vertices fun i => do let p ← pyGet grid.points i; p.getItem 1
  let prevTheta ← pyMap grid.vertices fun _ =>
    if initialTemperature < 0 then .error .valueError else .ok initialTemperature
  let g1 ← tractionParam grid neumannVertices traction 0
  let g2 ← tractionParam grid neumannVertices traction 1
  let y1 := fixVertices dirichletVertices (prevY1.map fun x => VarData.centred x searchRadius)
  let y2 := fixVertices dirichletVertices (prevY2.map fun x => VarData.centred x searchRadius)
  let _ ← P1Interpolation grid prevY1
  let _ ← P1Interpolation grid prevY2
  let _ ← P1Interpolation grid prevTheta
  let _ ← P1Interpolation grid (varValues y1)
  let _ ← P1Interpolation grid (varValues y2)
  let _ ← P1BoundaryInterp.new grid.neumann g1
  let _ ← P1BoundaryInterp.new grid.neumann g2
  return ⟨grid, fps, neumannVertices, prevY1, prevY2, prevTheta, g1, g2, y1, y2⟩

namespace P1MechModel

/-- `Deformation(P1Interpolation(grid, ...), P1Interpolation(grid, ...))` (mechanical_step.py:135-143) -/
noncomputable def deformation (grid : Grid ℝ) (a b : List ℝ) : PyM Deformation := do
  let i1 ← P1Interpolation grid a
  let i2 ← P1Interpolation grid b
  return ⟨i1, i2⟩

/-- `m.total_elastic_energy` (mechanical_step.py:150, 154-156) -/
noncomputable def totalElasticEnergy (m : P1MechModel) : PyM ℝ := do
  let deform ← deformation m.grid (varValues m.y1) (varValues m.y2)
  let prevTemp ← P1Interpolation m.grid m.prevTheta
  let rule ← dunavant2 ℝ
  let integrator ← Integrator.new rule m.grid.triangles m.grid.points
  integrator.call fun t c => do
    let strain ← deform.strain t c
    let temp ← prevTemp.call t c
    Helpers.totalElasticPotential strain temp

/-- `m.dissipation` (mechanical_step.py:151, 157-159) -/
noncomputable def dissipation (m : P1MechModel) : PyM ℝ := do
  let prevDeform ← deformation m.grid m.prevY1 m.prevY2
  let deform ← deformation m.grid (varValues m.y1) (varValues m.y2)
  let rule ← centroid ℝ
  let integrator ← Integrator.new rule m.grid.triangles m.grid.points
  integrator.call fun t c => do
    let prevStrain ← prevDeform.strain t c
    let strain ← deform.strain t c
    Helpers.dissipationPotential prevStrain strain

/-- `boundary_traction_potential` (mechanical_step.py:170-171) -/
noncomputable def boundaryTractionPotential (traction deform : Vec ℝ) : ℝ := traction.dot deform

/-- `m.boundary_traction_energy` (mechanical_step.py:145-148, 152, 160-162) -/
noncomputable def boundaryTractionEnergy (leg : LegGauss) (m : P1MechModel) : PyM ℝ := do
  let deform ← deformation m.grid (varValues m.y1) (varValues m.y2)
  let g1 ← P1BoundaryInterp.new m.grid.neumann m.g1
  let g2 ← P1BoundaryInterp.new m.grid.neumann m.g2
  let integrator ← BoundaryIntegrator.new leg 1 m.grid.neumann.edges m.grid.points
  integrator.call fun e t => do
    let a ← g1.call e t
    let b ← g2.call e t
    let y ← deform.onEdge e t
    return boundaryTractionPotential ⟨[a, b]⟩ y

/-- `m.objective` (mechanical_step.py:163-165) -/
noncomputable def objective (leg : LegGauss) (m : P1MechModel) : PyM ℝ := do
  let elastic ← m.totalElasticEnergy
  let boundary ← m.boundaryTractionEnergy leg
  let dissipation ← m.dissipation
  return elastic - boundary + m.fps * dissipation

end P1MechModel

/-- `class _MechanicalStep` (mechanical_step.py:174-193); the solver is an argument of `solve` -/
structure P1Mech where
  numVertices : ℕ
  searchRadius : ℝ
  model : P1MechModel
  traction : Traction
  grid : Grid ℝ

namespace P1Mech

/-- `_MechanicalStep.__init__` (mechanical_step.py:177-193) -/
noncomputable def new (grid : Grid ℝ) (initialTemperature searchRadius fps : ℝ) (traction : Traction) : PyM P1Mech := do
  let m ← P1MechModel.new grid initialTemperature searchRadius fps (fun x y => traction 0 x y)
  return ⟨grid.vertices.length, searchRadius, m, traction, grid⟩

/-- a list of pairs of numbers as an array of shape `(N, 2)` (mechanical_step.py:201, 206) -/
def pairs (a b : List ℝ) : NdArray := NdArray.of2 (List.zipWith (fun x y => [x, y]) a b)

/-- `_MechanicalStep.prev_y` (mechanical_step.py:198-201) -/
def prevY (s : P1Mech) : NdArray := pairs s.model.prevY1 s.model.prevY2

/-- `_MechanicalStep.y` (mechanical_step.py:203-206) -/
def y (s : P1Mech) : NdArray := pairs (varValues s.model.y1) (varValues s.model.y2)

/-- `_MechanicalStep.prev_theta` (mechanical_step.py:208-211) -/
def prevTheta (s : P1Mech) : NdArray := NdArray.of1 s.model.prevTheta

/-- access to the pyomo model of the step (mechanical_step.py:189, 200) -/
def onModel {α : Type} (f : PyS P1MechModel α) : PyS P1Mech α :=
  PyS.onAttr P1Mech.model (fun m s => { s with model := m }) f

/-- one pass of the loop of `update_prev_y` (mechanical_step.py:223-236) -/
noncomputable def updatePrevYAt (r : ℝ) (new1 new2 : List ℝ) (i : Vertex) : PyS P1MechModel Unit := do
  let a ← PyS.lift (pyGet new1 i)
  PyS.modify fun m => { m with prevY1 := m.prevY1.set i a }
  let b ← PyS.lift (pyGet new2 i)
  PyS.modify fun m => { m with prevY2 := m.prevY2.set i b }
  PyS.modify fun m => { m with y1 := m.y1.modify i (VarData.assign a) }
  PyS.modify fun m => { m with y1 := m.y1.modify i (VarData.setBounds (a - r) (a + r)) }
  PyS.modify fun m => { m with y2 := m.y2.modify i (VarData.assign b) }
  PyS.modify fun m => { m with y2 := m.y2.modify i (VarData.setBounds (b - r) (b + r)) }

/-- `_MechanicalStep.update_prev_y` (mechanical_step.py:213-236) -/
noncomputable def updatePrevY (a : NdArray) : PyS P1Mech Unit := do
  let n ← PyS.get P1Mech.numVertices
  if a.shape ≠ [n, 2] then PyS.raise .valueError
  else do
    let new1 ← PyS.lift (a.col 0)
    let new2 ← PyS.lift (a.col 1)
    let r ← PyS.get P1Mech.searchRadius
    let vertices ← PyS.get fun s => s.model.grid.vertices
    onModel (PyS.forEach vertices (updatePrevYAt r new1 new2))

/-- `_MechanicalStep.update_prev_theta` (mechanical_step.py:238-247) -/
noncomputable def updatePrevTheta (a : NdArray) : PyS P1Mech Unit := do
  let n ← PyS.get P1Mech.numVertices
  if a.shape ≠ [n] then PyS.raise .valueError
  else do
    let vertices ← PyS.get fun s => s.model.grid.vertices
    onModel (PyS.forEach vertices fun i => do
      let x ← PyS.lift (a.get1 i)
      assignNonNeg x fun x m => { m with prevTheta := m.prevTheta.set i x })

/-- one pass of the loop of `update_boundary_traction` (mechanical_step.py:251-252) -/
noncomputable def updateTractionAt (traction : Traction) (grid : Grid ℝ) (time : ℝ) (i : Vertex) :
    PyS P1MechModel Unit := do
  let (x, y) ← PyS.lift (pointArgs grid i)
  let t ← PyS.lift (traction time x y)
  match t with
  | [a, b] => do
    PyS.modify fun m => { m with g1 := m.g1.set i a }
    PyS.modify fun m => { m with g2 := m.g2.set i b }
  | _ => PyS.raise .valueError

/-- `_MechanicalStep.update_boundary_traction` (mechanical_step.py:249-252) -/
noncomputable def updateBoundaryTraction (time : ℝ) : PyS P1Mech Unit := do
  let traction ← PyS.get P1Mech.traction
  let grid ← PyS.get P1Mech.grid
  let vertices ← PyS.get fun s => s.model.neumannVertices
  onModel (PyS.forEach vertices (updateTractionAt traction grid time))

end P1Mech

/-! ### with regularization -/

/-- the pyomo model created by `_model_regularized` (mechanical_step.py:255-368); the member `[i, j]` of a component
indexed by vertices and C1 indices is the entry `j - 1` of the list `i - 1` -/
structure RegMechModel where
  grid : Grid ℝ
  refined : RefinedGrid ℝ
  fps : ℝ
  regularization : ℝ
  prevY1 : List (List ℝ)
  prevY2 : List (List ℝ)
  prevTheta : List ℝ
  y1 : List (List VarData)
  y2 : List (List VarData)

/-- the values of an indexed variable (mechanical_step.py:426-445) -/
def varValues2 (l : List (List VarData)) : List (List ℝ) := l.map varValues

/-- fix the values (not the derivatives) at the Dirichlet vertices (mechanical_step.py:308-310) -/
def fixValues (vs : List Vertex) (l : List (List VarData)) : List (List VarData) :=
  vs.foldl (fun l v => l.modify v fun row => row.modify 0 VarData.fix) l

/-- `_model_regularized` (mechanical_step.py:255-351) -/
noncomputable def RegMechModel.new (grid : Grid ℝ) (refined : RefinedGrid ℝ)
    (initialTemperature searchRadius fps regularization : ℝ) : PyM RegMechModel := do
  let initialY1 ← pyMap grid.points fun p => do let x ← p.getItem 0; return [x, 1, 0, 0, 0, 0]
  let initialY2 ← pyMap grid.points fun p => do let y ← p.getItem 1; return [y, 0, 1, 0, 0, 0]
  let prevY1 ← pyMap (List.range grid.vertices.length) fun i => pyGet initialY1 i
  let prevY2 ← pyMap (List.range grid.vertices.length) fun i => pyGet initialY2 i
  let prevTheta ← pyMap refined.toGrid.vertices fun _ =>
    if initialTemperature < 0 then .error .valueError else .ok initialTemperature
  let y1 := fixValues grid.dirichlet.vertices (prevY1.map fun row => row.map fun x => VarData.centred x searchRadius)
  let y2 := fixValues grid.dirichlet.vertices (prevY2.map fun row => row.map fun x => VarData.centred x searchRadius)
  let _ ← pyMap grid.dirichlet.edges grid.edgeVertices
  let _ ← C1Interpolation grid prevY1
  let _ ← C1Interpolation grid prevY2
  let _ ← P1Interpolation refined.toGrid prevTheta
  let _ ← C1Interpolation grid (varValues2 y1)
  let _ ← C1Interpolation grid (varValues2 y2)
  return ⟨grid, refined, fps, regularization, prevY1, prevY2, prevTheta, y1, y2⟩

/-- `_dirichlet_constraint_regularized` (mechanical_step.py:371-389) for the values `y` of one component: the two sides
of the equation with number `constraintId`. Any other number returns `None`, which pyomo rejects. -/
noncomputable def dirichletConstraint (y : List (List ℝ)) (edge : Edge) (edgeVertices : Vec ℝ × Vec ℝ)
    (constraintId : ℕ) (component : ℕ) : PyM (ℝ × ℝ) := do
  let (p, q) := edgeVertices
  let d ← q.sub p
  let i := edge.1
  let j := edge.2
  let yAt (v k : ℕ) : PyM ℝ := do
    let row ← pyGet y v
    pyGet row (k - 1)
  let d0 ← d.getItem 0
  let d1 ← d.getItem 1
  match constraintId with
  | 1 => return (← yAt i 1, ← p.getItem component)
  | 2 => return ((← yAt i 2) * d0 + (← yAt i 3) * d1, ← d.getItem component)
  | 3 => return ((← yAt i 4) * d0 ^ 2 + 2 * (← yAt i 5) * d0 * d1 + (← yAt i 6) * d1 ^ 2, 0)
  | 4 => return (← yAt j 1, ← q.getItem component)
  | 5 => return ((← yAt j 2) * d0 + (← yAt j 3) * d1, ← d.getItem component)
  | 6 => return ((← yAt j 4) * d0 ^ 2 + 2 * (← yAt j 5) * d0 * d1 + (← yAt j 6) * d1 ^ 2, 0)
  | _ => .error .valueError

namespace RegMechModel

/-- one of the constraints `m.y1_constraints`, `m.y2_constraints` (mechanical_step.py:318-337), as its two sides:
`edgeNumber` is the 1-based index of the Dirichlet edge, `component` is 0 for `y1` and 1 for `y2` -/
noncomputable def constraint (m : RegMechModel) (component edgeNumber constraintId : ℕ) : PyM (ℝ × ℝ) := do
  let edge ← pyGet m.grid.dirichlet.edges (edgeNumber - 1)
  let ev ← m.grid.edgeVertices edge
  dirichletConstraint (if component = 0 then varValues2 m.y1 else varValues2 m.y2) edge ev constraintId component

/-- `Deformation(RefinedInterpolation(C1Interpolation(grid, ...), refined_grid), ...)`
(mechanical_step.py:339-343, 347-351) -/
noncomputable def deformation (grid : Grid ℝ) (refined : RefinedGrid ℝ) (a b : List (List ℝ)) : PyM Deformation := do
  let i1 ← C1Interpolation grid a
  let i2 ← C1Interpolation grid b
  return ⟨RefinedInterpolation i1 refined, RefinedInterpolation i2 refined⟩

/-- `m.total_elastic_energy` (mechanical_step.py:345, 353-357) -/
noncomputable def totalElasticEnergy (m : RegMechModel) : PyM ℝ := do
  let deform ← deformation m.grid m.refined (varValues2 m.y1) (varValues2 m.y2)
  let prevTemp ← P1Interpolation m.refined.toGrid m.prevTheta
  let rule ← dunavant5 ℝ
  let integrator ← Integrator.new rule m.refined.toGrid.triangles m.refined.toGrid.points
  integrator.call fun t c => do
    let strain ← deform.strain t c
    let temp ← prevTemp.call t c
    Helpers.totalElasticPotential strain temp

/-- `m.hyper_elastic_energy` (mechanical_step.py:358-360) -/
noncomputable def hyperElasticEnergy (m : RegMechModel) : PyM ℝ := do
  let deform ← deformation m.grid m.refined (varValues2 m.y1) (varValues2 m.y2)
  let rule ← dunavant5 ℝ
  let integrator ← Integrator.new rule m.refined.toGrid.triangles m.refined.toGrid.points
  integrator.call fun t c => do
    let h ← deform.hyperStrain t c
    return Helpers.hyperElasticPotential h

/-- `m.dissipation` (mechanical_step.py:361-363) -/
noncomputable def dissipation (m : RegMechModel) : PyM ℝ := do
  let prevDeform ← deformation m.grid m.refined m.prevY1 m.prevY2
  let deform ← deformation m.grid m.refined (varValues2 m.y1) (varValues2 m.y2)
  let rule ← dunavant5 ℝ
  let integrator ← Integrator.new rule m.refined.toGrid.triangles m.refined.toGrid.points
  integrator.call fun t c => do
    let prevStrain ← prevDeform.strain t c
    let strain ← deform.strain t c
    Helpers.dissipationPotential prevStrain strain

/-- `m.objective` (mechanical_step.py:364-366) -/
noncomputable def objective (m : RegMechModel) : PyM ℝ := do
  let elastic ← m.totalElasticEnergy
  let hyper ← m.hyperElasticEnergy
  let dissipation ← m.dissipation
  return elastic + m.regularization * hyper + m.fps * dissipation

end RegMechModel

/-- `class _MechanicalStepRegularized` (mechanical_step.py:392-415) -/
structure RegMech where
  numVertices : ℕ
  searchRadius : ℝ
  model : RegMechModel

namespace RegMech

/-- `_MechanicalStepRegularized.__init__` (mechanical_step.py:395-415) -/
noncomputable def new (grid : Grid ℝ) (refined : RefinedGrid ℝ) (initialTemperature searchRadius fps regularization : ℝ) :
    PyM RegMech := do
  let m ← RegMechModel.new grid refined initialTemperature searchRadius fps regularization
  return ⟨grid.vertices.length, searchRadius, m⟩

/-- pairs of lists as an array of shape `(N, 2, 6)` (mechanical_step.py:426-432, 440-446) -/
def pairs (a b : List (List ℝ)) : NdArray := NdArray.of3 (List.zipWith (fun x y => [x, y]) a b)

/-- `_MechanicalStepRegularized.prev_y` (mechanical_step.py:420-432) -/
def prevY (s : RegMech) : NdArray := pairs s.model.prevY1 s.model.prevY2

/-- `_MechanicalStepRegularized.y` (mechanical_step.py:434-446) -/
def y (s : RegMech) : NdArray := pairs (varValues2 s.model.y1) (varValues2 s.model.y2)

/-- `_MechanicalStepRegularized.prev_theta` (mechanical_step.py:448-454) -/
def prevTheta (s : RegMech) : NdArray := NdArray.of1 s.model.prevTheta

/-- access to the pyomo model of the step (mechanical_step.py:395-415) -/
def onModel {α : Type} (f : PyS RegMechModel α) : PyS RegMech α :=
  PyS.onAttr RegMech.model (fun m s => { s with model := m }) f

/-- `component[i, j] = x`, with `i`, `j` counted from 1 (mechanical_step.py:456-483) -/
def set2 {α : Type} (l : List (List α)) (i j : ℕ) (f : α → α) : List (List α) :=
  l.modify (i - 1) fun row => row.modify (j - 1) f

/-- one pass of the loops of `update_prev_y` (mechanical_step.py:469-483) -/
noncomputable def updatePrevYAt (r : ℝ) (new1 new2 : List (List ℝ)) (i j : ℕ) : PyS RegMechModel Unit := do
  let row1 ← PyS.lift (pyGet new1 (i - 1))
  let a ← PyS.lift (pyGet row1 (j - 1))
  PyS.modify fun m => { m with prevY1 := set2 m.prevY1 i j fun _ => a }
  let row2 ← PyS.lift (pyGet new2 (i - 1))
  let b ← PyS.lift (pyGet row2 (j - 1))
  PyS.modify fun m => { m with prevY2 := set2 m.prevY2 i j fun _ => b }
  PyS.modify fun m => { m with y1 := set2 m.y1 i j (VarData.assign a) }
  PyS.modify fun m => { m with y1 := set2 m.y1 i j (VarData.setBounds (a - r) (a + r)) }
  PyS.modify fun m => { m with y2 := set2 m.y2 i j (VarData.assign b) }
  PyS.modify fun m => { m with y2 := set2 m.y2 i j (VarData.setBounds (b - r) (b + r)) }

/-- the members of `pyo.RangeSet(n)` (mechanical_step.py:264-269) -/
def rangeSet (n : ℕ) : List ℕ := (List.range n).map (· + 1)

/-- `_MechanicalStepRegularized.update_prev_y` (mechanical_step.py:456-483) -/
noncomputable def updatePrevY (a : NdArray) : PyS RegMech Unit := do
  let n ← PyS.get fun s => s.model.grid.vertices.length
  if a.shape ≠ [n, 2, 6] then PyS.raise .valueError
  else do
    let new1 ← PyS.lift (a.block 0)
    let new2 ← PyS.lift (a.block 1)
    let r ← PyS.get RegMech.searchRadius
    onModel (PyS.forEach (rangeSet n) fun i => PyS.forEach (rangeSet 6) fun j => updatePrevYAt r new1 new2 i j)

/-- `_MechanicalStepRegularized.update_prev_theta` (mechanical_step.py:485-494) -/
noncomputable def updatePrevTheta (a : NdArray) : PyS RegMech Unit := do
  let n ← PyS.get fun s => s.model.refined.toGrid.vertices.length
  if a.shape ≠ [n] then PyS.raise .valueError
  else onModel (PyS.forEach (rangeSet n) fun i => do
    let x ← PyS.lift (a.get1 (i - 1))
    assignNonNeg x fun x m => { m with prevTheta := m.prevTheta.set (i - 1) x })

end RegMech

/-! ### the factory and the common interface -/

/-- a mechanical step object: `AbstractMechanicalStep` (mechanical_step.py:39-68) -/
inductive MechStep
  | p1 (s : P1Mech)
  | reg (s : RegMech)

/-- `mechanical_step` (mechanical_step.py:497-526) -/
noncomputable def mechanicalStep (grid : Grid ℝ) (params : MechParams) (refined : Option (RefinedGrid ℝ))
    (traction : Traction) : PyM MechStep :=
  match params.regularization with
  | none => do
    let s ← P1Mech.new grid params.initialTemperature params.searchRadius params.fps traction
    return .p1 s
  | some reg =>
    match refined with
    | none => .error .valueError
    | some r => do
      let s ← RegMech.new grid r params.initialTemperature params.searchRadius params.fps reg
      return .reg s

namespace MechStep

/-- a method implemented by both classes (mechanical_step.py:39-68) -/
def dispatch {α : Type} (f : PyS P1Mech α) (g : PyS RegMech α) : PyS MechStep α
  | .p1 s => let r := f s; (r.1, .p1 r.2)
  | .reg s => let r := g s; (r.1, .reg r.2)

/-- `prev_y()` (mechanical_step.py:45, 198, 420) -/
def prevY : MechStep → NdArray
  | .p1 s => s.prevY
  | .reg s => s.prevY

/-- `y()` (mechanical_step.py:48, 203, 434) -/
def y : MechStep → NdArray
  | .p1 s => s.y
  | .reg s => s.y

/-- `prev_theta()` (mechanical_step.py:51, 208, 448) -/
def prevTheta : MechStep → NdArray
  | .p1 s => s.prevTheta
  | .reg s => s.prevTheta

/-- `update_prev_y` (mechanical_step.py:54, 213, 456) -/
noncomputable def updatePrevY (a : NdArray) : PyS MechStep Unit := dispatch (P1Mech.updatePrevY a) (RegMech.updatePrevY a)

/-- `update_prev_theta` (mechanical_step.py:61, 238, 485) -/
noncomputable def updatePrevTheta (a : NdArray) : PyS MechStep Unit :=
  dispatch (P1Mech.updatePrevTheta a) (RegMech.updatePrevTheta a)

/-- `update_boundary_traction`: the regularized class inherits the empty method of the protocol
(mechanical_step.py:67-68), which does nothing -/
noncomputable def updateBoundaryTraction (time : ℝ) : PyS MechStep Unit :=
  dispatch (P1Mech.updateBoundaryTraction time) (PyS.pure ())

end MechStep

end Tve
