import Verif.Spec.Simulation

/-!
# Specification: assigning to the public attributes of a simulation
-/

namespace Tve

/-- `sim.params = p; sim.steps = l` (simulation.py:244, 263) -/
def Sim.assign (s : Sim) (p : SimParams) (l : List Step) : Sim := { s with params := p, record := { s.record with steps := l } }

end Tve
