import Verif.Model.Quadrature

/-!
# Model of `src/tvemoves_rufbad/integrators.py`
-/

namespace Tve

/-- `Vertex = int` (domain.py:17): vertex ids are non-negative in every modelled grid. -/
abbrev Vertex := ℕ
/-- `Edge` (domain.py:18) -/
abbrev Edge := Vertex × Vertex
/-- `Triangle` (domain.py:19) -/
abbrev Tri := Vertex × Vertex × Vertex

/-- `class Integrator` (integrators.py:10-12): the stored attributes. -/
structure Integrator (K : Type) where
  triangles : List Tri
  quadrature : TriRule K
  areas : List K

/-- the area of one triangle (integrators.py:21-25) -/
def triangleArea {K : Type} [Field K] [LinearOrder K] (points : List (Vec K)) (t : Tri) : PyM K := do
  let pi ← pyGet points t.1
  let pj ← pyGet points t.2.1
  let pk ← pyGet points t.2.2
  let first ← pj.sub pi
  let second ← pk.sub pi
  let m ← first.stack second
  let d ← m.det
  return |d / 2|

/-- `Integrator.__init__` (integrators.py:13-25) -/
def Integrator.new {K : Type} [Field K] [LinearOrder K] (quadrature : TriRule K) (triangles : List Tri)
    (points : List (Vec K)) : PyM (Integrator K) := do
  let areas ← pyMap triangles (triangleArea points)
  return ⟨triangles, quadrature, areas⟩

/-- `Integrator.__call__` (integrators.py:27-38); the integrand may raise. -/
def Integrator.call {K : Type} [Field K] (I : Integrator K) (integrand : Tri → Bary K → PyM K) : PyM K := do
  let terms ← pyMap (I.areas.zip I.triangles) fun (area, t) => do
    let inner ← pyMap (I.quadrature.points.zip I.quadrature.weights) fun (point, weight) => do
      let v ← integrand t point
      return weight * v
    return area * inner.sum
  return terms.sum

/-- `class BoundaryIntegrator` (integrators.py:41-47): the stored attributes. -/
structure BoundaryIntegrator (K : Type) where
  edges : List Edge
  quadrature : GaussRule K
  lengths : List K

/-- the length of one edge (integrators.py:47) -/
def edgeLength {K : Type} [Field K] [PySqrt K] (points : List (Vec K)) (e : Edge) : PyM K := do
  let pi ← pyGet points e.1
  let pj ← pyGet points e.2
  let d ← pi.sub pj
  return PySqrt.sqrt d.normsqr

/-- `BoundaryIntegrator.__init__` (integrators.py:44-47) -/
def BoundaryIntegrator.new {K : Type} [Field K] [PySqrt K] (leggauss : ℕ → PyM (List K × List K)) (degree : ℕ)
    (edges : List Edge) (points : List (Vec K)) : PyM (BoundaryIntegrator K) := do
  let q ← GaussRule.new leggauss degree
  let lengths ← pyMap edges (edgeLength points)
  return ⟨edges, q, lengths⟩

/-- `BoundaryIntegrator.__call__` (integrators.py:49-62); the integrand may raise. -/
def BoundaryIntegrator.call {K : Type} [Field K] (I : BoundaryIntegrator K) (integrand : Edge → K → PyM K) :
    PyM K := do
  let terms ← pyMap (I.lengths.zip I.edges) fun (len, e) => do
    let inner ← pyMap (I.quadrature.points.zip I.quadrature.weights) fun (point, weight) => do
      let v ← integrand e point
      return weight * v
    return len * inner.sum
  return terms.sum

end Tve
