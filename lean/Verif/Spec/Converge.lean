import Verif.Model.Domain
import Verif.Model.Mechanical
import Mathlib.MeasureTheory.Integral.IntervalIntegral.Basic

/-!
# Specification vocabulary: integrals along the sides of a rectangle, soundness of Gauss rules
-/

namespace Tve

open MeasureTheory

/-- the integral of `f` along a side of the rectangle `[0, w] × [0, h]` -/
noncomputable def sideIntegral (w h : ℝ) (f : ℝ × ℝ → ℝ) : FixOption → ℝ
  | .lower => ∫ x in (0 : ℝ)..w, f (x, 0)
  | .right => ∫ y in (0 : ℝ)..h, f (w, y)
  | .upper => ∫ x in (0 : ℝ)..w, f (x, h)
  | .left => ∫ y in (0 : ℝ)..h, f (0, y)
  | .unknown _ => 0

/-- the four sides of a rectangle -/
def allSides : List FixOption := [.lower, .right, .upper, .left]

/-- `leggauss(1)` returns as many points as weights, the points lie in `[-1, 1]` and the weights sum up to `2` -/
def LegSound (leg : LegGauss) : Prop :=
  ∃ Q W, leg 1 = .ok (Q, W) ∧ Q.length = W.length ∧ (∀ q ∈ Q, -1 ≤ q ∧ q ≤ 1) ∧ W.sum = 2

end Tve
