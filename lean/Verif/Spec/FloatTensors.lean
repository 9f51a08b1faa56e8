import Verif.Model.FloatTensors
import Verif.Spec.FloatQuadrature
import Verif.Spec.Tensors
import Verif.Props.Rounding

/-!
# Specification vocabulary for tensors in double precision
-/

namespace Tve

/-- `y` is a double, and no double is closer to `x` -/
def Rounded (x y : ℚ) : Prop := IsDouble y ∧ ∀ d, IsDouble d → |y - x| ≤ |d - x|

/-- squares are computed with a relative error of at most `2⁻⁵²` -/
def F64.Squares (sq : ℚ → ℚ) : Prop := ∀ x, |sq x - x ^ 2| ≤ x ^ 2 / 2 ^ 52

end Tve
