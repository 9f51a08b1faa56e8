import Verif.Model.FloatIntegrators
import Verif.Model.Interpolation

/-!
# Double precision version of piecewise affine interpolation

`P1BoundaryInterpolation`, `P1Interpolation` and `Deformation` of `src/tvemoves_rufbad/interpolation.py` and
`transform_gradient` of `src/tvemoves_rufbad/bell_finite_element.py`. As in `Model/FloatTensors.lean`: every operation rounds, the
builtin `sum` is a parameter `S`.
-/

namespace Tve.F64

/-- `_get_a` (bell_finite_element.py:102-108) -/
def getA (tv : Vec ℚ × Vec ℚ × Vec ℚ) : PyM (ℚ × ℚ × ℚ) := do
  let p1 := tv.1
  let p2 := tv.2.1
  let p3 := tv.2.2
  let a1 := fl (fl ((← p2.getItem 0) * (← p3.getItem 1)) - fl ((← p3.getItem 0) * (← p2.getItem 1)))
  let a2 := fl (fl ((← p3.getItem 0) * (← p1.getItem 1)) - fl ((← p1.getItem 0) * (← p3.getItem 1)))
  let a3 := fl (fl ((← p1.getItem 0) * (← p2.getItem 1)) - fl ((← p2.getItem 0) * (← p1.getItem 1)))
  return (a1, a2, a3)

/-- `_get_b` (bell_finite_element.py:111-113) -/
def getB (tv : Vec ℚ × Vec ℚ × Vec ℚ) : PyM (ℚ × ℚ × ℚ) := do
  let p1 := tv.1
  let p2 := tv.2.1
  let p3 := tv.2.2
  return (fl ((← p2.getItem 1) - (← p3.getItem 1)), fl ((← p3.getItem 1) - (← p1.getItem 1)),
    fl ((← p1.getItem 1) - (← p2.getItem 1)))

/-- `_get_c` (bell_finite_element.py:116-118) -/
def getC (tv : Vec ℚ × Vec ℚ × Vec ℚ) : PyM (ℚ × ℚ × ℚ) := do
  let p1 := tv.1
  let p2 := tv.2.1
  let p3 := tv.2.2
  return (fl ((← p3.getItem 0) - (← p2.getItem 0)), fl ((← p1.getItem 0) - (← p3.getItem 0)),
    fl ((← p2.getItem 0) - (← p1.getItem 0)))

/-- `transform_gradient` (bell_finite_element.py:204-218) -/
def transformGradient (S : Summation) (tv : Vec ℚ × Vec ℚ × Vec ℚ) (g : Vec ℚ) : PyM (Vec ℚ) := do
  let a ← getA tv
  let delta := fl (S [a.1, a.2.1, a.2.2] / 2)
  let b ← getB tv
  let c ← getC tv
  let m ← Mat.new [[b.1, b.2.1, b.2.2], [c.1, c.2.1, c.2.2]]
  let trafo ← M.truediv m (fl (2 * delta))
  M.dot S trafo g

/-- `P1Interpolation.gradient` (interpolation.py:69-76) -/
def p1Gradient (S : Summation) (grid : Grid ℚ) (params : List ℚ) (t : Tri) : PyM (Vec ℚ) := do
  let u1 ← pyGet params t.1
  let u2 ← pyGet params t.2.1
  let u3 ← pyGet params t.2.2
  let tv ← grid.triangleVertices t
  transformGradient S tv ⟨[u1, u2, u3]⟩

/-- `P1Interpolation.on_edge` (interpolation.py:78-80) -/
def p1OnEdge (params : List ℚ) (e : Edge) (t : ℚ) : PyM ℚ := do
  let u1 ← pyGet params e.1
  let u2 ← pyGet params e.2
  return fl (fl (t * u1) + fl (fl (1 - t) * u2))

/-- `P1BoundaryInterpolation.__call__` (interpolation.py:46-48) -/
def p1BoundaryCall (params : PyDict Vertex ℚ) (e : Edge) (t : ℚ) : PyM ℚ := do
  let u1 ← params.get e.1
  let u2 ← params.get e.2
  return fl (fl (t * u1) + fl (fl (1 - t) * u2))

/-- `Deformation.__call__` (interpolation.py:274-282) of two piecewise affine functions -/
def p1DeformationCall (params1 params2 : List ℚ) (t : Tri) (c : Bary ℚ) : PyM (Vec ℚ) := do
  let a ← p1Call params1 t c
  let b ← p1Call params2 t c
  return ⟨[a, b]⟩

/-- `Deformation.strain` (interpolation.py:284-294) of two piecewise affine functions on the same grid -/
def p1Strain (S : Summation) (grid : Grid ℚ) (params1 params2 : List ℚ) (t : Tri) : PyM (Mat ℚ) := do
  let a ← p1Gradient S grid params1 t
  let b ← p1Gradient S grid params2 t
  a.stack b

/-- `Deformation.on_edge` (interpolation.py:296-301) of two piecewise affine functions -/
def p1DeformationOnEdge (params1 params2 : List ℚ) (e : Edge) (t : ℚ) : PyM (Vec ℚ) := do
  let a ← p1OnEdge params1 e t
  let b ← p1OnEdge params2 e t
  return ⟨[a, b]⟩

end Tve.F64
