import Verif.Model.Simulation
import Verif.Spec.Refine

/-!
# Specification vocabulary: arrays, optimisation problems and steps
-/

namespace Tve

/-- the entry `a[i, j]` of an array with `c` columns -/
noncomputable def NdArray.at2 (a : NdArray) (c i j : ℕ) : ℝ := a.data.getD (i * c + j) 0

/-- the entry `a[i, j, k]` of an array of shape `(N, c, d)` -/
noncomputable def NdArray.at3 (a : NdArray) (c d i j k : ℕ) : ℝ := a.data.getD ((i * c + j) * d + k) 0

/-- a numpy array of the given shape -/
def NdArray.Has (a : NdArray) (shape : List ℕ) : Prop := a.shape = shape ∧ a.Ok

/-- the variable has value `x` and search range `[x - r, x + r]` -/
def VarData.Around (v : VarData) (x r : ℝ) : Prop := v.value = x ∧ v.lb = x - r ∧ v.ub = x + r

/-- the row-major order of the entries `(i, 0)`, `(i, 1)` of two indexed components -/
def interleave {α : Type} (a b : List α) : List α := (List.zipWith (fun x y => [x, y]) a b).flatten

/-! ### what a problem posed to the solver says -/

namespace Problem

/-- deformation of the previous step -/
def prevY : Problem → NdArray
  | .mechP1 m => P1Mech.pairs m.prevY1 m.prevY2
  | .mechReg m => RegMech.pairs m.prevY1 m.prevY2
  | .thermP1 m => P1Mech.pairs m.prevY1 m.prevY2
  | .thermReg m => RegMech.pairs m.prevY1 m.prevY2

/-- deformation: the starting guess of a mechanical problem, the given new deformation of a thermal problem -/
def y : Problem → NdArray
  | .mechP1 m => P1Mech.pairs (varValues m.y1) (varValues m.y2)
  | .mechReg m => RegMech.pairs (varValues2 m.y1) (varValues2 m.y2)
  | .thermP1 m => P1Mech.pairs m.y1 m.y2
  | .thermReg m => RegMech.pairs m.y1 m.y2

/-- temperature of the previous step -/
def prevTheta : Problem → NdArray
  | .mechP1 m => NdArray.of1 m.prevTheta
  | .mechReg m => NdArray.of1 m.prevTheta
  | .thermP1 m => NdArray.of1 m.prevTheta
  | .thermReg m => NdArray.of1 m.prevTheta

/-- the variables of the problem in the order of `y().data` (mechanical) or `theta().data` (thermal) -/
def unknowns : Problem → List VarData
  | .mechP1 m => interleave m.y1 m.y2
  | .mechReg m => (interleave m.y1 m.y2).flatten
  | .thermP1 m => m.theta
  | .thermReg m => m.theta

/-- the values an outcome gives to the variables, in the same order -/
def answer (o : Outcome) : Problem → List ℝ
  | .mechP1 m => interleave (m.y1.mapIdx fun i _ => o.y1 i 0) (m.y2.mapIdx fun i _ => o.y2 i 0)
  | .mechReg m => (interleave (m.y1.mapIdx fun i row => row.mapIdx fun j _ => o.y1 i j)
      (m.y2.mapIdx fun i row => row.mapIdx fun j _ => o.y2 i j)).flatten
  | .thermP1 m => m.theta.mapIdx fun i _ => o.theta i
  | .thermReg m => m.theta.mapIdx fun i _ => o.theta i

/-- a mechanical problem -/
def IsMech : Problem → Prop
  | .mechP1 _ | .mechReg _ => True
  | _ => False

/-- a thermal problem -/
def IsTherm : Problem → Prop
  | .thermP1 _ | .thermReg _ => True
  | _ => False

end Problem

/-! ### parts of the state of a step -/

namespace MechStep

/-- the variables in the order of `y().data` -/
def unknowns (m : MechStep) : List VarData := m.problem.unknowns

/-- the search radius of the step -/
def searchRadius : MechStep → ℝ
  | .p1 s => s.searchRadius
  | .reg s => s.searchRadius

/-- the step without previous and current deformation -/
def eraseY : MechStep → MechStep
  | .p1 s => .p1 { s with model := { s.model with prevY1 := [], prevY2 := [], y1 := [], y2 := [] } }
  | .reg s => .reg { s with model := { s.model with prevY1 := [], prevY2 := [], y1 := [], y2 := [] } }

/-- the step without previous temperature -/
def eraseTheta : MechStep → MechStep
  | .p1 s => .p1 { s with model := { s.model with prevTheta := [] } }
  | .reg s => .reg { s with model := { s.model with prevTheta := [] } }

/-- the step without the values of the boundary traction -/
def eraseTraction : MechStep → MechStep
  | .p1 s => .p1 { s with model := { s.model with g1 := ⟨[]⟩, g2 := ⟨[]⟩ } }
  | .reg s => .reg s

/-- the grid of the step -/
def grid : MechStep → Grid ℝ
  | .p1 s => s.model.grid
  | .reg s => s.model.grid

/-- the shape of deformation arrays: `(N, 2)`, with regularization `(N, 2, 6)` -/
def yShape : MechStep → List ℕ
  | .p1 s => [s.model.grid.vertices.length, 2]
  | .reg s => [s.model.grid.vertices.length, 2, 6]

/-- the shape of temperature arrays: one entry per vertex of the grid, with regularization of the refined grid -/
def thetaShape : MechStep → List ℕ
  | .p1 s => [s.model.grid.vertices.length]
  | .reg s => [s.model.refined.toGrid.vertices.length]

/-- the function passed as boundary traction; the regularized step has none -/
def traction : MechStep → Option Traction
  | .p1 s => some s.traction
  | .reg _ => none

/-- the boundary traction at a vertex -/
def tractionAt (v : Vertex) : MechStep → Option (ℝ × ℝ)
  | .p1 s => match s.model.g1.get? v, s.model.g2.get? v with
    | some a, some b => some (a, b)
    | _, _ => none
  | .reg _ => none

end MechStep

namespace ThermStep

/-- the variables in the order of `theta().data` -/
def unknowns (m : ThermStep) : List VarData := m.problem.unknowns

/-- the search radius of the step -/
def searchRadius : ThermStep → ℝ
  | .p1 s => s.searchRadius
  | .reg s => s.searchRadius

/-- the step without previous deformation -/
def erasePrevY : ThermStep → ThermStep
  | .p1 s => .p1 { s with model := { s.model with prevY1 := [], prevY2 := [] } }
  | .reg s => .reg { s with model := { s.model with prevY1 := [], prevY2 := [] } }

/-- the step without new deformation -/
def eraseY : ThermStep → ThermStep
  | .p1 s => .p1 { s with model := { s.model with y1 := [], y2 := [] } }
  | .reg s => .reg { s with model := { s.model with y1 := [], y2 := [] } }

/-- the step without previous and current temperature -/
def eraseTheta : ThermStep → ThermStep
  | .p1 s => .p1 { s with model := { s.model with prevTheta := [], theta := [] } }
  | .reg s => .reg { s with model := { s.model with prevTheta := [], theta := [] } }

/-- the step without the value of the external temperature -/
def eraseExt : ThermStep → ThermStep
  | .p1 s => .p1 { s with model := { s.model with externalTemperature := 0 } }
  | .reg s => .reg s

/-- the shape of deformation arrays: `(N, 2)`, with regularization `(N, 2, 6)` -/
def yShape : ThermStep → List ℕ
  | .p1 s => [s.model.grid.vertices.length, 2]
  | .reg s => [s.model.grid.vertices.length, 2, 6]

/-- the shape of temperature arrays: one entry per vertex of the grid, with regularization of the refined grid -/
def thetaShape : ThermStep → List ℕ
  | .p1 s => [s.model.grid.vertices.length]
  | .reg s => [s.model.refined.toGrid.vertices.length]

/-- the function passed as external temperature; the regularized step has none -/
def ext : ThermStep → Option ExtTemp
  | .p1 s => some s.externalTemperature
  | .reg _ => none

/-- the external temperature of the current problem -/
def extTemp : ThermStep → Option ℝ
  | .p1 s => some s.model.externalTemperature
  | .reg _ => none

end ThermStep

/-! ### the states of a step a user can reach -/

/-- a refined grid passed to a step is a grid of the library as well -/
def RefinedOk (refined : Option (RefinedGrid ℝ)) : Prop :=
  ∀ r, refined = some r → ∃ nx ny s, LibraryGrid r.toGrid nx ny s

/-- mechanical steps obtained from the factory on a grid of the library, by any calls of the methods (also failing ones)
with any arrays, and any solver outcomes -/
inductive MechStep.Reachable : MechStep → Prop
  | new {g nx ny s params refined traction m} (G : LibraryGrid g nx ny s) (F : RefinedOk refined)
      (h : mechanicalStep g params refined traction = .ok m) : MechStep.Reachable m
  | updatePrevY {m a} (h : MechStep.Reachable m) (ha : a.Ok) : MechStep.Reachable (m.updatePrevY a).2
  | updatePrevTheta {m a} (h : MechStep.Reachable m) (ha : a.Ok) : MechStep.Reachable (m.updatePrevTheta a).2
  | updateBoundaryTraction {m time} (h : MechStep.Reachable m) : MechStep.Reachable (m.updateBoundaryTraction time).2
  | solve {m o} (h : MechStep.Reachable m) : MechStep.Reachable (m.load o)

/-- thermal steps obtained in the same way -/
inductive ThermStep.Reachable : ThermStep → Prop
  | new {g nx ny s prevY y prevTheta params ext refined m} (G : LibraryGrid g nx ny s) (F : RefinedOk refined)
      (h1 : prevY.Ok) (h2 : y.Ok) (h3 : prevTheta.Ok)
      (h : thermalStep g prevY y prevTheta params ext refined = .ok m) : ThermStep.Reachable m
  | updatePrevY {m a} (h : ThermStep.Reachable m) (ha : a.Ok) : ThermStep.Reachable (m.updatePrevY a).2
  | updateY {m a} (h : ThermStep.Reachable m) (ha : a.Ok) : ThermStep.Reachable (m.updateY a).2
  | updatePrevTheta {m a} (h : ThermStep.Reachable m) (ha : a.Ok) : ThermStep.Reachable (m.updatePrevTheta a).2
  | updateExternalTemperature {m time} (h : ThermStep.Reachable m) :
      ThermStep.Reachable (m.updateExternalTemperature time).2
  | solve {m o} (h : ThermStep.Reachable m) : ThermStep.Reachable (m.load o)

end Tve
