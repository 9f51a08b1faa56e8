import Verif.Spec.Steps

/-!
# Specification vocabulary: simulations
-/

namespace Tve

/-! ### parts of a problem posed to the solver -/

namespace Problem

/-- the boundary traction at a vertex, if the problem contains a boundary traction there -/
def tractionAt (v : Vertex) : Problem → Option (ℝ × ℝ)
  | .mechP1 m => match m.g1.get? v, m.g2.get? v with
    | some a, some b => some (a, b)
    | _, _ => none
  | _ => none

/-- the external temperature, if the problem contains one -/
def extTemp : Problem → Option ℝ
  | .thermP1 m => some m.externalTemperature
  | _ => none

/-- the grid of the problem -/
def grid : Problem → Grid ℝ
  | .mechP1 m => m.grid
  | .mechReg m => m.grid
  | .thermP1 m => m.grid
  | .thermReg m => m.grid

/-- the refined grid of the problem -/
def refined : Problem → Option (RefinedGrid ℝ)
  | .mechReg m => some m.refined
  | .thermReg m => some m.refined
  | _ => none

/-- the steps per unit of time -/
def fps : Problem → ℝ
  | .mechP1 m => m.fps
  | .mechReg m => m.fps
  | .thermP1 m => m.fps
  | .thermReg m => m.fps

/-- the problem after the solver has loaded its values -/
def load (o : Outcome) : Problem → Problem
  | .mechP1 m => .mechP1 { m with y1 := loadVars (fun i => o.y1 i 0) m.y1, y2 := loadVars (fun i => o.y2 i 0) m.y2 }
  | .mechReg m => .mechReg { m with y1 := loadVars2 o.y1 m.y1, y2 := loadVars2 o.y2 m.y2 }
  | .thermP1 m => .thermP1 { m with theta := loadVars o.theta m.theta }
  | .thermReg m => .thermReg { m with theta := loadVars o.theta m.theta }

/-- all constraints of the problem hold: only the regularized mechanical problem has any, six per component and Dirichlet
edge -/
def ConstraintsHold : Problem → Prop
  | .mechReg m => ∀ component < 2, ∀ edgeNumber, 1 ≤ edgeNumber → edgeNumber ≤ m.grid.dirichlet.edges.length →
      ∀ id, 1 ≤ id → id ≤ 6 → ∃ a, m.constraint component edgeNumber id = .ok (a, a)
  | _ => True

/-- the current values of the variables meet everything that is required of a solution: bounds, domains and constraints -/
def Feasible (p : Problem) : Prop :=
  (∀ v ∈ p.unknowns, v.lb ≤ v.value ∧ v.value ≤ v.ub) ∧ (p.IsTherm → ∀ v ∈ p.unknowns, 0 ≤ v.value) ∧ p.ConstraintsHold

end Problem

/-- the deformed position of a vertex in an array returned by `y()`: the entries `[v, 0]` and `[v, 1]`, with regularization
`[v, 0, 0]` and `[v, 1, 0]` (the other entries are derivatives) -/
noncomputable def NdArray.deformed (a : NdArray) (v : Vertex) : ℝ × ℝ :=
  match a.shape with
  | [_, _, _] => (a.at3 2 6 v 0 0, a.at3 2 6 v 1 0)
  | _ => (a.at2 2 v 0, a.at2 2 v 1)

/-- `lims` are the smallest and the largest element of `S` -/
def IsRange (lims : WithTop ℝ × WithBot ℝ) (S : Set ℝ) : Prop :=
  ∃ lo hi : ℝ, lims = ((lo : WithTop ℝ), (hi : WithBot ℝ)) ∧ IsLeast S lo ∧ IsGreatest S hi

/-! ### the objective -/

/-- the objective of the problem at the current values of its variables -/
noncomputable def Problem.objective (leg : LegGauss) : Problem → PyM ℝ
  | .mechP1 m => m.objective leg
  | .mechReg m => m.objective
  | .thermP1 m => m.objective leg
  | .thermReg m => m.objective

/-! ### contracts of the solver -/

/-- A call that returns normally leaves fixed variables alone. -/
def Solver.RespectsFixed (solver : Solver) : Prop := ∀ cs p, (solver cs p).err = none →
  List.Forall₂ (fun (v : VarData) x => v.fixed = true → x = v.value) p.unknowns (p.answer (solver cs p))

/-- A call that returns normally gives values within the bounds of the variables. -/
def Solver.RespectsBounds (solver : Solver) : Prop := ∀ cs p, (solver cs p).err = none →
  List.Forall₂ (fun (v : VarData) x => v.lb ≤ v.ub → v.lb ≤ x ∧ x ≤ v.ub) p.unknowns (p.answer (solver cs p))

/-- A call for a thermal problem that returns normally gives nonnegative temperatures, the domain of the variables. -/
def Solver.RespectsDomain (solver : Solver) : Prop := ∀ cs p, p.IsTherm → (solver cs p).err = none →
  ∀ x ∈ p.answer (solver cs p), 0 ≤ x

/-- A call that returns normally satisfies the constraints. -/
def Solver.RespectsConstraints (solver : Solver) : Prop := ∀ cs p, (solver cs p).err = none →
  (p.load (solver cs p)).ConstraintsHold

/-- A call that returns normally does not increase the objective. -/
def Solver.Decreases (leg : LegGauss) (solver : Solver) : Prop := ∀ cs p, (solver cs p).err = none →
  ∀ a, p.objective leg = .ok a → ∃ b ≤ a, (p.load (solver cs p)).objective leg = .ok b

/-- The solver does not raise if it starts at a point that meets all requirements. -/
def Solver.Succeeds (solver : Solver) : Prop := ∀ cs p, p.Feasible → (solver cs p).err = none

/-- The boundary data are defined for all arguments: two components of the traction, a nonnegative external temperature. -/
def BoundaryDataOk (ext : ExtTemp) (traction : Traction) : Prop :=
  (∀ t x y, ∃ a b, traction t x y = .ok [a, b]) ∧ ∀ t, ∃ e, 0 ≤ e ∧ ext t = .ok e

/-! ### simulations a user can reach -/

/-- the parameters are accepted by `SimulationParams`, the scale fits into the rectangle, and the refined grid and its
refinement for plotting stay above the absolute tolerance of `refine` -/
structure Setup (domain : RectDomain ℝ) (params : SimParams) : Prop where
  valid : ∃ a b c d e f, SimParams.new a b c d e f = .ok params
  width : params.scale ≤ domain.width
  height : params.scale ≤ domain.height
  fine : ∀ n : ℤ, params.refinementFactor = some n → 1 / 10 ^ 15 ≤ params.scale / n / 5

/-- simulations in which no call has raised so far: created and run any number of times -/
inductive Sim.Healthy (solver : Solver) (domain : RectDomain ℝ) (params : SimParams) (ext : ExtTemp)
    (traction : Traction) : Sim → Prop
  | new {it s} (S : Setup domain params) (h : Sim.new solver it domain params ext traction = .ok s) :
      Sim.Healthy solver domain params ext traction s
  | run {s s' n} (hs : Sim.Healthy solver domain params ext traction s) (h : s.run solver n = (.ok (), s')) :
      Sim.Healthy solver domain params ext traction s'

/-- all simulations: created and run any number of times, where calls of `run` may have raised -/
inductive Sim.Reachable (solver : Solver) (domain : RectDomain ℝ) (params : SimParams) (ext : ExtTemp)
    (traction : Traction) : Sim → Prop
  | new {it s} (S : Setup domain params) (h : Sim.new solver it domain params ext traction = .ok s) :
      Sim.Reachable solver domain params ext traction s
  | run {s n} (hs : Sim.Reachable solver domain params ext traction s) :
      Sim.Reachable solver domain params ext traction (s.run solver n).2

end Tve
