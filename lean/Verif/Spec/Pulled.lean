import Verif.Spec.Rest
import Verif.Spec.Optimal
import Verif.Spec.Force

/-! Specification for C114: bodies pulled by boundary tractions. -/

namespace Tve

/-- at the given time the traction at the vertex `u` has a nonnegative component in direction `d` -/
def PulledAt (traction : Traction) (g : Grid ℝ) (time : ℝ) (d : ℝ × ℝ) (u : Vertex) : Prop :=
  ∃ a b, traction time (g.xy u).1 (g.xy u).2 = .ok [a, b] ∧ 0 ≤ a * d.1 + b * d.2

/-- at the given time the boundary is pulled in direction `d`: the component of the traction in this direction is nonnegative at all
vertices of the Neumann part of the boundary, and positive at some boundary vertex that is not fixed -/
def Pulled (traction : Traction) (g : Grid ℝ) (time : ℝ) (d : ℝ × ℝ) : Prop :=
  (∀ u ∈ g.neumann.vertices, PulledAt traction g time d u) ∧
  ∃ v ∈ g.boundary.vertices, v ∉ g.dirichlet.vertices ∧
    ∃ a b, traction time (g.xy v).1 (g.xy v).2 = .ok [a, b] ∧ 0 < a * d.1 + b * d.2

/-- the boundary traction of example.ipynb, where `eps` is the scale -/
noncomputable def notebookTraction (eps : ℝ) : Traction := fun t x y => by
  classical exact if t < 8 ∧ y > 1 - eps / 4 ∧ x ≥ 0.25 ∧ x ≤ 0.75 then .ok [0, 7] else .ok [0, 0]

/-- the external temperature of example.ipynb -/
noncomputable def notebookExternalTemperature : ExtTemp := fun t => by
  classical exact if t ≥ 8 then .ok 0.3 else .ok 0

/-- the parameters of example.ipynb: `SimulationParams(initial_temperature=0.0, search_radius=100, fps=fps, scale=eps)` -/
noncomputable def notebookParams (fps eps : ℝ) : SimParams := ⟨0, 100, fps, eps, none, none⟩

/-- the domain of example.ipynb: `RectangleDomain(width=1, height=2, fix=["lower"])` -/
noncomputable def notebookDomain : RectDomain ℝ := ⟨1, 2, .many [.lower]⟩

end Tve
