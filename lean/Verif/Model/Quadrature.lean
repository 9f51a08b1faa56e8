import Verif.Model.Tensors
import Mathlib.Algebra.Order.Group.Unbundled.Abs

/-!
# Model of `src/tvemoves_rufbad/quadrature_rules.py`
-/

namespace Tve

/-- `class TriangleQuadratureRule` (quadrature_rules.py:9-26): weights and barycentric points. -/
structure TriRule (K : Type) where
  weights : List K
  points : List (Bary K)

/-- `math.isclose(a, b)` with the default tolerances `rel_tol=1e-9`, `abs_tol=0` (used at quadrature_rules.py:19). -/
def isclose {K : Type} [Field K] [LinearOrder K] (a b : K) : Bool :=
  decide (|a - b| ≤ max (1 / 1000000000 * max |a| |b|) 0)

/-- `TriangleQuadratureRule.__init__` (quadrature_rules.py:12-23). -/
def TriRule.new {K : Type} [Field K] [LinearOrder K] (weights : List K) (points : List (K × K)) : PyM (TriRule K) :=
  if points.any (fun p => decide (p.1 < 0) || decide (p.2 < 0) || decide (p.1 + p.2 > 1)) then .error .valueError
  else if !isclose weights.sum 1 then .error .valueError
  else .ok ⟨weights, points.map (fun p => Bary.new p.1 p.2)⟩

section constants
variable (K : Type) [Field K] [LinearOrder K]

/-- `CENTROID` (quadrature_rules.py:29) -/
def centroid : PyM (TriRule K) := TriRule.new [1] [(1 / 3, 1 / 3)]

/-- `VERTEX` (quadrature_rules.py:30) -/
def vertexRule : PyM (TriRule K) := TriRule.new [1 / 3, 1 / 3, 1 / 3] [(1, 0), (0, 1), (0, 0)]

/-- `DUNAVANT2` (quadrature_rules.py:34-36) -/
def dunavant2 : PyM (TriRule K) :=
  TriRule.new [1 / 3, 1 / 3, 1 / 3] [(2 / 3, 1 / 6), (1 / 6, 2 / 3), (1 / 6, 1 / 6)]

/-- `DUNAVANT3` (quadrature_rules.py:37-40) -/
def dunavant3 : PyM (TriRule K) :=
  TriRule.new
    [-(5 / 10) - 625 / 10000, 5 / 10 + 625 / 10000 / 3, 5 / 10 + 625 / 10000 / 3, 5 / 10 + 625 / 10000 / 3]
    [(1 / 3, 1 / 3), (6 / 10, 2 / 10), (2 / 10, 6 / 10), (2 / 10, 2 / 10)]

/-- `DUNAVANT4` (quadrature_rules.py:41-58); decimal literals as exact rationals. -/
def dunavant4 : PyM (TriRule K) :=
  TriRule.new
    [223381589678011 / 10 ^ 15, 223381589678011 / 10 ^ 15, 223381589678011 / 10 ^ 15,
     109951743655322 / 10 ^ 15, 109951743655322 / 10 ^ 15, 109951743655322 / 10 ^ 15]
    [(108103018168070 / 10 ^ 15, 445948490915965 / 10 ^ 15),
     (445948490915965 / 10 ^ 15, 108103018168070 / 10 ^ 15),
     (445948490915965 / 10 ^ 15, 445948490915965 / 10 ^ 15),
     (816847572980459 / 10 ^ 15, 91576213509771 / 10 ^ 15),
     (91576213509771 / 10 ^ 15, 816847572980459 / 10 ^ 15),
     (91576213509771 / 10 ^ 15, 91576213509771 / 10 ^ 15)]

/-- `DUNAVANT5` (quadrature_rules.py:60-79); decimal literals as exact rationals. -/
def dunavant5 : PyM (TriRule K) :=
  TriRule.new
    [225 / 1000,
     132394152788506 / 10 ^ 15, 132394152788506 / 10 ^ 15, 132394152788506 / 10 ^ 15,
     125939180544827 / 10 ^ 15, 125939180544827 / 10 ^ 15, 125939180544827 / 10 ^ 15]
    [(1 / 3, 1 / 3),
     (59715871789770 / 10 ^ 15, 470142064105115 / 10 ^ 15),
     (470142064105115 / 10 ^ 15, 59715871789770 / 10 ^ 15),
     (470142064105115 / 10 ^ 15, 470142064105115 / 10 ^ 15),
     (797426985353087 / 10 ^ 15, 101286507323456 / 10 ^ 15),
     (101286507323456 / 10 ^ 15, 797426985353087 / 10 ^ 15),
     (101286507323456 / 10 ^ 15, 101286507323456 / 10 ^ 15)]

end constants

/-- `class GaussQuadratureRule` (quadrature_rules.py:91-104). -/
structure GaussRule (K : Type) where
  points : List K
  weights : List K

/-- `GaussQuadratureRule.__init__` (quadrature_rules.py:94-101). `numpy.polynomial.legendre.leggauss` is the
external parameter `leggauss` (it returns points and weights on `[-1, 1]`). -/
def GaussRule.new {K : Type} [Field K] (leggauss : ℕ → PyM (List K × List K)) (degree : ℕ) : PyM (GaussRule K) := do
  let pw ← leggauss degree
  return ⟨pw.1.map (fun p => (1 + p) / 2), pw.2.map (fun w => w / 2)⟩

end Tve
