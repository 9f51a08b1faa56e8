import Verif.Model.Quadrature
import Mathlib.MeasureTheory.Integral.IntervalIntegral.Basic
import Mathlib.Algebra.MvPolynomial.Degrees

/-!
# Specification vocabulary for quadrature
-/

namespace Tve

open MeasureTheory

/-- The integral of `g` over the unit triangle `0 ≤ x, 0 ≤ y, x + y ≤ 1`. -/
noncomputable def unitTriangleIntegral (g : ℝ → ℝ → ℝ) : ℝ := ∫ x in (0 : ℝ)..1, ∫ y in (0 : ℝ)..(1 - x), g x y

/-- The value a rule assigns to `g` on the unit triangle (area 1/2), `g` being a function of the first two
barycentric coordinates. -/
noncomputable def TriRule.value (r : TriRule ℝ) (g : ℝ → ℝ → ℝ) : ℝ :=
  1 / 2 * ((r.points.zip r.weights).map (fun bw => bw.2 * g bw.1.l1 bw.1.l2)).sum

/-- The function of two variables given by a bivariate polynomial. -/
noncomputable def polyFun (p : MvPolynomial (Fin 2) ℝ) (x y : ℝ) : ℝ := MvPolynomial.eval ![x, y] p

/-- The rule integrates all polynomials of total degree at most `d` exactly. -/
def TriRule.ExactTo (r : TriRule ℝ) (d : ℕ) : Prop :=
  ∀ p : MvPolynomial (Fin 2) ℝ, p.totalDegree ≤ d → r.value (polyFun p) = unitTriangleIntegral (polyFun p)

/-- Sum of the absolute values of the coefficients. -/
noncomputable def coeffSum (p : MvPolynomial (Fin 2) ℝ) : ℝ := ∑ m ∈ p.support, |p.coeff m|

/-- The value of a Gauss rule on `[0, 1]`. -/
noncomputable def GaussRule.value (r : GaussRule ℝ) (g : ℝ → ℝ) : ℝ :=
  ((r.points.zip r.weights).map (fun pw => pw.2 * g pw.1)).sum

/-- `leggauss`' output `(points, weights)` integrates polynomials of degree at most `d` exactly on `[-1, 1]`. -/
def LegExact (pw : List ℝ × List ℝ) (d : ℕ) : Prop :=
  ∀ p : Polynomial ℝ, p.natDegree ≤ d →
    ((pw.1.zip pw.2).map (fun pw => pw.2 * p.eval pw.1)).sum = ∫ x in (-1 : ℝ)..1, p.eval x

end Tve
