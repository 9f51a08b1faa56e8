import Verif.Spec.Optimal
import Verif.Spec.Grid

/-!
# Specification vocabulary: objects that differ only in the order in which boundary vertices and edges are listed
-/

namespace Tve

/-- the same boundary vertices and edges, possibly listed in another order -/
def Boundary.Reordered (b b' : Boundary) : Prop := b.vertices.Perm b'.vertices ∧ b.edges.Perm b'.edges

/-- the same grid, with the boundary vertices and edges possibly listed in another order -/
structure Grid.Reordered (g g' : Grid ℝ) : Prop where
  vertices : g.vertices = g'.vertices
  points : g.points = g'.points
  edges : g.edges = g'.edges
  triangles : g.triangles = g'.triangles
  mean : g.meanEdgeLength = g'.meanEdgeLength
  boundary : g.boundary.Reordered g'.boundary
  dirichlet : g.dirichlet.Reordered g'.dirichlet
  neumann : g.neumann.Reordered g'.neumann

/-- the same refined grid, with the boundary vertices and edges possibly listed in another order -/
structure RefinedGrid.Reordered (r r' : RefinedGrid ℝ) : Prop where
  fine : r.toGrid.Reordered r'.toGrid
  coarse : r.coarseGrid.Reordered r'.coarseGrid
  coarseTriangle : r.coarseTriangle = r'.coarseTriangle
  coarseBary : r.coarseBary = r'.coarseBary
  coarseEdge : r.coarseEdge = r'.coarseEdge
  coarseEdgeCoords : r.coarseEdgeCoords = r'.coarseEdgeCoords

/-- Two problems posed to the solver which agree in everything (grid, time step, parameters, variables with their values,
bounds and fixed flags) except for the order in which boundary vertices and edges are listed. The traction is stored in
dictionaries, so that no vertex occurs twice. -/
inductive Problem.Same : Problem → Problem → Prop
  | mechP1 {m m' : P1MechModel} (grid : m.grid.Reordered m'.grid) (fps : m.fps = m'.fps)
      (neumann : m.neumannVertices.Perm m'.neumannVertices) (prevY1 : m.prevY1 = m'.prevY1) (prevY2 : m.prevY2 = m'.prevY2)
      (prevTheta : m.prevTheta = m'.prevTheta) (g1 : m.g1.items.Perm m'.g1.items) (g2 : m.g2.items.Perm m'.g2.items)
      (keys1 : (m.g1.items.map Prod.fst).Nodup) (keys2 : (m.g2.items.map Prod.fst).Nodup) (y1 : m.y1 = m'.y1) (y2 : m.y2 = m'.y2) : Problem.Same (.mechP1 m) (.mechP1 m')
  | mechReg {m m' : RegMechModel} (grid : m.grid.Reordered m'.grid) (refined : m.refined.Reordered m'.refined)
      (fps : m.fps = m'.fps) (reg : m.regularization = m'.regularization) (prevY1 : m.prevY1 = m'.prevY1)
      (prevY2 : m.prevY2 = m'.prevY2) (prevTheta : m.prevTheta = m'.prevTheta) (y1 : m.y1 = m'.y1) (y2 : m.y2 = m'.y2) :
      Problem.Same (.mechReg m) (.mechReg m')
  | thermP1 {m m' : P1ThermModel} {g : Grid ℝ} (grid : m.grid.Reordered g) (rest : m' = { m with grid := g }) :
      Problem.Same (.thermP1 m) (.thermP1 m')
  | thermReg {m m' : RegThermModel} {g : Grid ℝ} {r : RefinedGrid ℝ} (grid : m.grid.Reordered g)
      (refined : m.refined.Reordered r) (rest : m' = { m with grid := g, refined := r }) :
      Problem.Same (.thermReg m) (.thermReg m')

/-- The answer of the solver does not depend on the order in which boundary vertices and edges are listed. -/
def Solver.OrderBlind (solver : Solver) : Prop :=
  ∀ cs cs' p p', List.Forall₂ Problem.Same cs cs' → Problem.Same p p' → solver cs p = solver cs' p'

/-- Two recorded steps with the same data, the same values wherever they are evaluated and the same grid. -/
structure Step.Same (s s' : Step) : Prop where
  yData : s.yData = s'.yData
  thetaData : s.thetaData = s'.thetaData
  y : ∀ x₁ x₂, s.y.call x₁ x₂ = s'.y.call x₁ x₂
  strain : ∀ x₁ x₂, s.y.strain x₁ x₂ = s'.y.strain x₁ x₂
  theta : ∀ x₁ x₂, s.theta.call x₁ x₂ = s'.theta.call x₁ x₂
  gradient : ∀ x₁ x₂, s.theta.gradient x₁ x₂ = s'.theta.gradient x₁ x₂
  grid : s.grid.Reordered s'.grid

/-- Two simulations with the same recorded steps, limits and times, which have posed the same problems. -/
structure Sim.Same (s s' : Sim) : Prop where
  steps : List.Forall₂ Step.Same s.steps s'.steps
  time : s.record.currentTime = s'.record.currentTime
  tau : s.record.tau = s'.record.tau
  maxTemp : s.maxTemp = s'.maxTemp
  xlims : s.record.xlims = s'.record.xlims
  ylims : s.record.ylims = s'.record.ylims
  calls : List.Forall₂ Problem.Same s.calls s'.calls

/-- `fix` arguments which name the same sides -/
def Fix.SameSides (a b : Fix) : Prop := ∀ f, (∀ st, f ≠ .unknown st) → (f ∈ a.options ↔ f ∈ b.options)

/-- calls of `run` with the given arguments, one after the other, also after calls that raised: what each call returns or
raises, and the simulation at the end -/
noncomputable def Sim.session (solver : Solver) : List ℤ → Sim → List (PyM Unit) × Sim
  | [], s => ([], s)
  | n :: ns, s =>
    let r := s.run solver n
    let t := Sim.session solver ns r.2
    (r.1 :: t.1, t.2)

/-- a solver that returns an optimal solution whenever there is one, always the same for the same set of optimal solutions -/
noncomputable def optimalSolver (leg : LegGauss) : Solver :=
  fun _ p => @Classical.epsilon _ ⟨⟨fun _ _ => 0, fun _ _ => 0, fun _ => 0, none⟩⟩ (p.IsOptimal leg)

end Tve
