import Verif.Model.FloatTensors

/-!
# Double precision version of `GaussQuadratureRule` (`src/tvemoves_rufbad/quadrature_rules.py`) and of
`src/tvemoves_rufbad/integrators.py`

As in `Model/FloatQuadrature.lean`: every operation rounds, the builtin `sum` is a parameter `S`.
-/

namespace Tve.F64

/-- `GaussQuadratureRule.__init__` (quadrature_rules.py:94-101): numpy's `1 + points`, `/ 2` and `weights /= 2` round every entry;
`leggauss` (it returns floats) is a parameter as in `Model/Quadrature.lean` -/
def newGauss (leggauss : ℕ → PyM (List ℚ × List ℚ)) (degree : ℕ) : PyM (GaussRule ℚ) := do
  let pw ← leggauss degree
  return ⟨pw.1.map fun p => fl (fl (1 + p) / 2), pw.2.map fun w => fl (w / 2)⟩

/-- the length of one edge in `BoundaryIntegrator.__init__` (integrators.py:47); `pyo.sqrt` of a float is `math.sqrt` -/
def boundaryEdgeLength (S : Summation) (points : List (Vec ℚ)) (e : Edge) : PyM ℚ := do
  let p ← pyGet points e.1
  let q ← pyGet points e.2
  let d ← V.sub p q
  return F64.sqrt (V.normsqr S d)

/-- `BoundaryIntegrator.__init__` (integrators.py:44-47) -/
def newBoundaryIntegrator (S : Summation) (leggauss : ℕ → PyM (List ℚ × List ℚ)) (degree : ℕ) (edges : List Edge)
    (points : List (Vec ℚ)) : PyM (BoundaryIntegrator ℚ) := do
  let q ← newGauss leggauss degree
  let lengths ← pyMap edges (boundaryEdgeLength S points)
  return ⟨edges, q, lengths⟩

/-- `BoundaryIntegrator.__call__` (integrators.py:49-62); the integrand may raise -/
def callBoundary (S : Summation) (I : BoundaryIntegrator ℚ) (integrand : Edge → ℚ → PyM ℚ) : PyM ℚ := do
  let terms ← pyMap (I.lengths.zip I.edges) fun (len, e) => do
    let inner ← pyMap (I.quadrature.points.zip I.quadrature.weights) fun (point, weight) => do
      let v ← integrand e point
      return fl (weight * v)
    return fl (len * S inner)
  return S terms

/-- the area of one triangle in `Integrator.__init__` (integrators.py:21-25) -/
def integratorArea (points : List (Vec ℚ)) (t : Tri) : PyM ℚ := do
  let pi ← pyGet points t.1
  let pj ← pyGet points t.2.1
  let pk ← pyGet points t.2.2
  let first ← V.sub pj pi
  let second ← V.sub pk pi
  let m ← first.stack second
  let d ← M.det m
  return |fl (d / 2)|

/-- `Integrator.__init__` (integrators.py:13-25) -/
def newIntegrator (quadrature : TriRule ℚ) (triangles : List Tri) (points : List (Vec ℚ)) : PyM (Integrator ℚ) := do
  let areas ← pyMap triangles (integratorArea points)
  return ⟨triangles, quadrature, areas⟩

/-- `Integrator.__call__` (integrators.py:27-38); the integrand may raise -/
def callIntegrator (S : Summation) (I : Integrator ℚ) (integrand : Tri → Bary ℚ → PyM ℚ) : PyM ℚ := do
  let terms ← pyMap (I.areas.zip I.triangles) fun (area, t) => do
    let inner ← pyMap (I.quadrature.points.zip I.quadrature.weights) fun (point, weight) => do
      let v ← integrand t point
      return fl (weight * v)
    return fl (area * S inner)
  return S terms

end Tve.F64
