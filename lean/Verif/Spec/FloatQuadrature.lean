import Verif.Model.FloatQuadrature
import Verif.Spec.Quadrature

/-!
# Specification vocabulary for quadrature in double precision
-/

namespace Tve

/-- the summation computes sums of up to `2⁵²` numbers with an error of at most `n · 2⁻⁵²` times the sum of the absolute values
(this holds for additions from left to right, `C108_sum`, and with a smaller error for compensated summation) -/
def F64.Accurate (S : F64.Summation) : Prop :=
  ∀ l : List ℚ, l.length ≤ 2 ^ 52 → |S l - l.sum| ≤ l.length / 2 ^ 52 * (l.map fun x => |x|).sum

/-- the rule whose weights and points are the real numbers denoted by the floats -/
noncomputable def TriRule.toReal (r : TriRule ℚ) : TriRule ℝ :=
  ⟨r.weights.map fun w : ℚ => (w : ℝ), r.points.map fun b : Bary ℚ => ⟨(b.l1 : ℝ), (b.l2 : ℝ), (b.l3 : ℝ)⟩⟩

/-- The rule integrates all polynomials of total degree at most `d` up to `ε` times the sum of the absolute values of the
coefficients. -/
def TriRule.ExactUpTo (r : TriRule ℝ) (d : ℕ) (ε : ℝ) : Prop :=
  ∀ p : MvPolynomial (Fin 2) ℝ, p.totalDegree ≤ d →
    |r.value (polyFun p) - unitTriangleIntegral (polyFun p)| ≤ ε * coeffSum p

end Tve
