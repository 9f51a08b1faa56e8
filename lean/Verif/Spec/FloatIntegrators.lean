import Verif.Model.FloatIntegrators
import Verif.Spec.FloatQuadrature
import Verif.Spec.Geometry

/-!
# Specification vocabulary for Gauss rules and boundary integrals in double precision
-/

namespace Tve

/-- the Python list of the points `P 0 … P (n-1)`, whose coordinates are floats -/
def floatPlanar (n : ℕ) (P : ℕ → ℚ × ℚ) : List (Vec ℚ) := (List.range n).map fun i => ⟨[(P i).1, (P i).2]⟩

/-- the point of the plane with the given floats as coordinates -/
noncomputable def realPoint (p : ℚ × ℚ) : ℝ × ℝ := ((p.1 : ℝ), (p.2 : ℝ))

/-- sum of the absolute values of the coefficients of a polynomial in one variable -/
noncomputable def coeffSum1 (p : Polynomial ℝ) : ℝ := ∑ i ∈ p.support, |p.coeff i|

/-- floats `points`, `weights` returned by `leggauss` integrate the polynomials of degree at most `d` over `[-1, 1]` up to `ε` times
the sum of the absolute values of the coefficients -/
def LegExactUpTo (points weights : List ℚ) (d : ℕ) (ε : ℝ) : Prop :=
  ∀ p : Polynomial ℝ, p.natDegree ≤ d →
    |((points.zip weights).map fun q : ℚ × ℚ => (q.2 : ℝ) * p.eval (q.1 : ℝ)).sum - ∫ x in (-1 : ℝ)..1, p.eval x| ≤
      ε * coeffSum1 p

/-- the rule whose points and weights are the real numbers denoted by the floats -/
noncomputable def GaussRule.toReal (r : GaussRule ℚ) : GaussRule ℝ :=
  ⟨r.points.map fun w : ℚ => (w : ℝ), r.weights.map fun w : ℚ => (w : ℝ)⟩

end Tve
