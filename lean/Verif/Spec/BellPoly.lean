import Verif.Spec.Bell
import Mathlib.Algebra.MvPolynomial.PDeriv
import Mathlib.Algebra.MvPolynomial.Degrees

/-!
# Specification vocabulary: polynomials in two variables and their nodal data
-/

namespace Tve
open MvPolynomial

/-- The value of a polynomial in two variables at a point of the plane. -/
noncomputable def polyAt (q : MvPolynomial (Fin 2) ℝ) (z : ℝ × ℝ) : ℝ := MvPolynomial.eval ![z.1, z.2] q

/-- The six nodal values `u, u_x, u_y, u_xx, u_xy, u_yy` of a polynomial at a point. -/
noncomputable def nodal (q : MvPolynomial (Fin 2) ℝ) (z : ℝ × ℝ) : Fin 6 → ℝ :=
  ![polyAt q z, polyAt (pderiv 0 q) z, polyAt (pderiv 1 q) z, polyAt (pderiv 0 (pderiv 0 q)) z,
    polyAt (pderiv 0 (pderiv 1 q)) z, polyAt (pderiv 1 (pderiv 1 q)) z]

end Tve
