import Verif.Model.FloatLocate
import Verif.Model.Integrators

/-!
# Double precision version of `src/tvemoves_rufbad/quadrature_rules.py` (rules on triangles) and of the integration over
triangles of `src/tvemoves_rufbad/integrators.py`

As in `Model/Float64.lean`: numbers are the rational numbers denoted by doubles, every operation rounds. The result of the
Python builtin `sum` on floats depends on the version of Python (rounded additions from left to right up to 3.11, compensated
summation from 3.12 on), so it is a parameter `S` of the model.
-/

namespace Tve.F64

/-- the builtin `sum` on a list of floats (used at quadrature_rules.py:19 and integrators.py:31-38) -/
abbrev Summation := List ℚ → ℚ

/-- `sum` of Python 3.11: rounded additions from left to right, starting with the integer 0 (quadrature_rules.py:19,
integrators.py:31-38) -/
def sum311 : Summation := fun l => l.foldl (fun a x => fl (a + x)) 0

/-- the default relative tolerance of `math.isclose`, the literal `1e-09` (quadrature_rules.py:19) -/
def relTol : ℚ := fl (1 / 10 ^ 9)

/-- `math.isclose(a, b)` (quadrature_rules.py:19), as in CPython: equal, or the rounded difference is at most one of the
rounded products of the tolerance with the numbers, or at most 0 -/
def isclose (a b : ℚ) : Bool :=
  decide (a = b) || decide (|fl (b - a)| ≤ |fl (relTol * b)|) || decide (|fl (b - a)| ≤ |fl (relTol * a)|) ||
    decide (|fl (b - a)| ≤ 0)

/-- `BarycentricCoordinates.__init__` (tensors.py:127-128) -/
def newBary (l1 l2 : ℚ) : Bary ℚ := ⟨l1, l2, fl (fl (1 - l1) - l2)⟩

/-- `TriangleQuadratureRule.__init__` (quadrature_rules.py:12-23) -/
def newRule (S : Summation) (weights : List ℚ) (points : List (ℚ × ℚ)) : PyM (TriRule ℚ) :=
  if points.any (fun p => decide (p.1 < 0) || decide (p.2 < 0) || decide (fl (p.1 + p.2) > 1)) then .error .valueError
  else if !isclose (S weights) 1 then .error .valueError
  else .ok ⟨weights, points.map fun p => newBary p.1 p.2⟩

/-- `CENTROID` (quadrature_rules.py:29) -/
def centroid (S : Summation) : PyM (TriRule ℚ) := newRule S [1] [(fl (1 / 3), fl (1 / 3))]

/-- `VERTEX` (quadrature_rules.py:30) -/
def vertexRule (S : Summation) : PyM (TriRule ℚ) :=
  newRule S [fl (1 / 3), fl (1 / 3), fl (1 / 3)] [(1, 0), (0, 1), (0, 0)]

/-- `DUNAVANT2` (quadrature_rules.py:34-36) -/
def dunavant2 (S : Summation) : PyM (TriRule ℚ) :=
  newRule S [fl (1 / 3), fl (1 / 3), fl (1 / 3)] [(fl (2 / 3), fl (1 / 6)), (fl (1 / 6), fl (2 / 3)), (fl (1 / 6), fl (1 / 6))]

/-- `DUNAVANT3` (quadrature_rules.py:37-40) -/
def dunavant3 (S : Summation) : PyM (TriRule ℚ) :=
  newRule S
    [fl (-fl (5 / 10) - fl (625 / 10000)), fl (fl (5 / 10) + fl (fl (625 / 10000) / 3)),
      fl (fl (5 / 10) + fl (fl (625 / 10000) / 3)), fl (fl (5 / 10) + fl (fl (625 / 10000) / 3))]
    [(fl (1 / 3), fl (1 / 3)), (fl (6 / 10), fl (2 / 10)), (fl (2 / 10), fl (6 / 10)), (fl (2 / 10), fl (2 / 10))]

/-- a literal with 15 decimals (quadrature_rules.py:41-79) -/
def lit15 (n : ℕ) : ℚ := fl (n / 10 ^ 15)

/-- `DUNAVANT4` (quadrature_rules.py:41-58) -/
def dunavant4 (S : Summation) : PyM (TriRule ℚ) :=
  newRule S
    [lit15 223381589678011, lit15 223381589678011, lit15 223381589678011,
     lit15 109951743655322, lit15 109951743655322, lit15 109951743655322]
    [(lit15 108103018168070, lit15 445948490915965),
     (lit15 445948490915965, lit15 108103018168070),
     (lit15 445948490915965, lit15 445948490915965),
     (lit15 816847572980459, lit15 91576213509771),
     (lit15 91576213509771, lit15 816847572980459),
     (lit15 91576213509771, lit15 91576213509771)]

/-- `DUNAVANT5` (quadrature_rules.py:60-79) -/
def dunavant5 (S : Summation) : PyM (TriRule ℚ) :=
  newRule S
    [lit15 225000000000000,
     lit15 132394152788506, lit15 132394152788506, lit15 132394152788506,
     lit15 125939180544827, lit15 125939180544827, lit15 125939180544827]
    [(fl (1 / 3), fl (1 / 3)),
     (lit15 59715871789770, lit15 470142064105115),
     (lit15 470142064105115, lit15 59715871789770),
     (lit15 470142064105115, lit15 470142064105115),
     (lit15 797426985353087, lit15 101286507323456),
     (lit15 101286507323456, lit15 797426985353087),
     (lit15 101286507323456, lit15 101286507323456)]

/-- the area of a triangle in `Integrator.__init__` (integrators.py:21-25); the determinant of a 2x2 matrix (tensors.py:272-283)
multiplies the entries of the permutations `(0, 1)` and `(1, 0)`; multiplying by `1` or `-1` and adding to `0` is exact -/
def triangleArea (p q r : Point) : ℚ :=
  let first := sub q p
  let second := sub r p
  |fl (fl (fl (first.1 * second.2) - fl (first.2 * second.1)) / 2)|

/-- `Integrator.__call__` (integrators.py:27-38) for an integrator with the given rule and areas and an integrand with the
given floats as values -/
def integrate (S : Summation) (rule : TriRule ℚ) (areas : List ℚ) (triangles : List Tri) (f : Tri → Bary ℚ → ℚ) : ℚ :=
  S ((areas.zip triangles).map fun at' =>
    fl (at'.1 * S ((rule.points.zip rule.weights).map fun pw => fl (pw.2 * f at'.2 pw.1))))

end Tve.F64
