import Verif.Model.Float64

/-!
# Double precision version of the bounds given to the solver

As in `Model/Float64.lean`: numbers are the rational numbers denoted by doubles, every operation rounds.
-/

namespace Tve.F64

/-- the bounds of one component of the deformation in a mechanical step made from a state whose component is `x`
(mechanical_step.py:121-129, 228-236, 298-306, 475-483). At construction the bounds are expressions in the mutable parameter
`m.prev_y1[v]`, which pyomo evaluates with the same two operations. -/
def searchBounds (x radius : ℚ) : ℚ × ℚ := (fl (x - radius), fl (x + radius))

/-- the bounds of one temperature (thermal_step.py:224-230, 317-323, 432-435, 542-545): the variable is declared
`within=pyo.NonNegativeReals`, so the lower bound in effect is the larger one of `0` and the bound set -/
def temperatureBounds (theta radius : ℚ) : ℚ × ℚ := (max 0 (searchBounds theta radius).1, (searchBounds theta radius).2)

end Tve.F64
