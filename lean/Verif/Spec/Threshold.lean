import Verif.Spec.Endures

/-! Specification for C113: the default arguments and the example of the README. -/

namespace Tve

/-- the default external temperature (simulation.py:236) -/
noncomputable def defaultExternalTemperature : ExtTemp := fun _ => .ok 0

/-- the default boundary traction (simulation.py:237-240) -/
noncomputable def defaultTraction : Traction := fun _ _ _ => .ok [0, 0]

/-- the parameters of the usage example in README.md: `SimulationParams(initial_temperature=0.0, search_radius=10.0, fps=3, scale=0.25)`, without regularization
(simulation.py:166-171) -/
noncomputable def readmeParams : SimParams := ⟨0, 10, 3, 1 / 4, none, none⟩

/-- the domain of the usage example in README.md: `RectangleDomain(width=1.0, height=1.0, fix=["lower"])` (domain.py:410-414) -/
noncomputable def readmeDomain : RectDomain ℝ := ⟨1, 1, .many [.lower]⟩

end Tve
