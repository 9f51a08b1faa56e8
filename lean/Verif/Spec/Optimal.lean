import Verif.Spec.Simulation

/-!
# Specification vocabulary: optimal solutions of the problems posed to the solver
-/

namespace Tve

/-- the outcome is an admissible solution of the problem: within the bounds of the variables, with the values of the fixed
variables, nonnegative in thermal problems, and such that the constraints hold -/
def Problem.Admits (p : Problem) (o : Outcome) : Prop :=
  List.Forall₂ (fun (v : VarData) x => v.lb ≤ x ∧ x ≤ v.ub ∧ (v.fixed = true → x = v.value)) p.unknowns (p.answer o) ∧
  (p.IsTherm → ∀ x ∈ p.answer o, 0 ≤ x) ∧ (p.load o).ConstraintsHold

/-- the outcome is an optimal solution: it is admissible, its objective is defined, and no admissible solution with a defined
objective has a smaller one -/
def Problem.IsOptimal (leg : LegGauss) (p : Problem) (o : Outcome) : Prop :=
  p.Admits o ∧ ∃ v, (p.load o).objective leg = .ok v ∧
    ∀ o' v', p.Admits o' → (p.load o').objective leg = .ok v' → v ≤ v'

end Tve
