import Verif.Model.Bell
import Verif.Model.Refine
import Verif.Model.PyReal

/-!
# Model of `src/tvemoves_rufbad/interpolation.py`

Values are real numbers. In the optimisation steps the parameters are solver variables and the same code builds
expressions in them; the model describes the values of these expressions at an assignment of the variables.
-/

namespace Tve

/-- `class Interpolation(Protocol)` (interpolation.py:15-34): an object with these methods. Objects are modelled by their
methods, so the dynamic dispatch of Python is function application. `grid` is the part of the grid that belongs to
the base class `Grid`. -/
structure Interp where
  grid : Grid ℝ
  call : Tri → Bary ℝ → PyM ℝ
  gradient : Tri → Bary ℝ → PyM (Vec ℝ)
  hessian : Tri → Bary ℝ → PyM (Mat ℝ)
  onEdge : Edge → ℝ → PyM ℝ

/-- `class P1BoundaryInterpolation` (interpolation.py:37-48) -/
structure P1BoundaryInterp where
  boundary : Boundary
  params : PyDict Vertex ℝ

/-- `P1BoundaryInterpolation.__init__` (interpolation.py:40-44) -/
def P1BoundaryInterp.new (boundary : Boundary) (params : PyDict Vertex ℝ) : PyM P1BoundaryInterp :=
  if params.items.length ≠ boundary.vertices.length then .error .valueError else .ok ⟨boundary, params⟩

/-- `P1BoundaryInterpolation.__call__` (interpolation.py:46-48) -/
noncomputable def P1BoundaryInterp.call (I : P1BoundaryInterp) (e : Edge) (t : ℝ) : PyM ℝ := do
  let u1 ← I.params.get e.1
  let u2 ← I.params.get e.2
  return t * u1 + (1 - t) * u2

namespace P1

/-- `P1Interpolation.__call__` (interpolation.py:60-67) -/
noncomputable def call (params : List ℝ) (t : Tri) (c : Bary ℝ) : PyM ℝ := do
  let u1 ← pyGet params t.1
  let u2 ← pyGet params t.2.1
  let u3 ← pyGet params t.2.2
  return c.l1 * u1 + c.l2 * u2 + c.l3 * u3

/-- `P1Interpolation.gradient` (interpolation.py:69-76) -/
noncomputable def gradient (grid : Grid ℝ) (params : List ℝ) (t : Tri) (_c : Bary ℝ) : PyM (Vec ℝ) := do
  let u1 ← pyGet params t.1
  let u2 ← pyGet params t.2.1
  let u3 ← pyGet params t.2.2
  let tv ← grid.triangleVertices t
  Bell.transformGradient tv ⟨[u1, u2, u3]⟩

/-- `P1Interpolation.on_edge` (interpolation.py:78-80) -/
noncomputable def onEdge (params : List ℝ) (e : Edge) (t : ℝ) : PyM ℝ := do
  let u1 ← pyGet params e.1
  let u2 ← pyGet params e.2
  return t * u1 + (1 - t) * u2

/-- `P1Interpolation.hessian` (interpolation.py:82-85) -/
def hessian (_t : Tri) (_c : Bary ℝ) : PyM (Mat ℝ) := .error .notImplemented

end P1

/-- `P1Interpolation.__init__` (interpolation.py:54-58), returning the object -/
noncomputable def P1Interpolation (grid : Grid ℝ) (params : List ℝ) : PyM Interp :=
  if params.length ≠ grid.vertices.length then .error .valueError
  else .ok ⟨grid, P1.call params, P1.gradient grid params, P1.hessian, P1.onEdge params⟩

namespace C1

/-- `C1Interpolation._triangle_params` (interpolation.py:107-112) -/
def triangleParams (params : List (List ℝ)) (t : Tri) : PyM (Vec ℝ) := do
  let v1 ← pyGet params t.1
  let v2 ← pyGet params t.2.1
  let v3 ← pyGet params t.2.2
  return ((⟨v1⟩ : Vec ℝ).extend ⟨v2⟩).extend ⟨v3⟩

/-- `C1Interpolation.__call__` (interpolation.py:114-124) -/
noncomputable def call (grid : Grid ℝ) (params : List (List ℝ)) (t : Tri) (c : Bary ℝ) : PyM ℝ := do
  let tv ← grid.triangleVertices t
  let p ← triangleParams params t
  Bell.interpolation tv c p

/-- `C1Interpolation.gradient` (interpolation.py:126-134) -/
noncomputable def gradient (grid : Grid ℝ) (params : List (List ℝ)) (t : Tri) (c : Bary ℝ) : PyM (Vec ℝ) := do
  let tv ← grid.triangleVertices t
  let p ← triangleParams params t
  Bell.interpolationGradient tv c p

/-- `C1Interpolation.hessian` (interpolation.py:136-143) -/
noncomputable def hessian (grid : Grid ℝ) (params : List (List ℝ)) (t : Tri) (c : Bary ℝ) : PyM (Mat ℝ) := do
  let tv ← grid.triangleVertices t
  let p ← triangleParams params t
  Bell.interpolationHessian tv c p

/-- `C1Interpolation.on_edge` (interpolation.py:145-151) -/
noncomputable def onEdge (grid : Grid ℝ) (params : List (List ℝ)) (e : Edge) (t : ℝ) : PyM ℝ := do
  let v1 ← pyGet params e.1
  let v2 ← pyGet params e.2
  let p1 ← pyGet grid.points e.1
  let p2 ← pyGet grid.points e.2
  Bell.interpolationOnEdge (p1, p2) t ((⟨v1⟩ : Vec ℝ).extend ⟨v2⟩)

end C1

/-- `C1Interpolation.__init__` (interpolation.py:91-105), returning the object -/
noncomputable def C1Interpolation (grid : Grid ℝ) (params : List (List ℝ)) : PyM Interp :=
  if params.any fun p => p.length != 6 then .error .valueError
  else if params.length ≠ grid.vertices.length then .error .valueError
  else .ok ⟨grid, C1.call grid params, C1.gradient grid params, C1.hessian grid params, C1.onEdge grid params⟩

/-- `RefinedInterpolation._to_coarse_parameters` (interpolation.py:171-176) -/
noncomputable def toCoarseParameters (r : RefinedGrid ℝ) (t : Tri) (c : Bary ℝ) : PyM (Tri × Bary ℝ) := do
  let b ← r.toCoarseBarycentricPoint ⟨t, c⟩
  return (b.triangle, b.coordinates)

/-- `class RefinedInterpolation` (interpolation.py:154-204) -/
noncomputable def RefinedInterpolation (coarse : Interp) (r : RefinedGrid ℝ) : Interp where
  grid := r.toGrid
  call t c := do
    let (t', c') ← toCoarseParameters r t c
    coarse.call t' c'
  gradient t c := do
    let (t', c') ← toCoarseParameters r t c
    coarse.gradient t' c'
  hessian t c := do
    let (t', c') ← toCoarseParameters r t c
    coarse.hessian t' c'
  onEdge e t := do
    let (e', t') ← r.toCoarseEdgePoint e t
    coarse.onEdge e' t'

/-- `class EuclideanInterpolation` (interpolation.py:207-212) -/
structure EuclInterp where
  base : Interp

namespace EuclInterp

/-- `EuclideanInterpolation._to_barycentric_inputs` (interpolation.py:214-220) -/
noncomputable def toBarycentricInputs (I : EuclInterp) (x y : ℝ) : PyM (Tri × Bary ℝ) := do
  let b ← I.base.grid.toBarycentricPoint ⟨[x, y]⟩
  match b with
  | none => .error .valueError
  | some b => return (b.triangle, b.coordinates)

/-- `EuclideanInterpolation.__call__` (interpolation.py:222-223) -/
noncomputable def call (I : EuclInterp) (x y : ℝ) : PyM ℝ := do
  let (t, c) ← I.toBarycentricInputs x y
  I.base.call t c

/-- `EuclideanInterpolation.gradient` (interpolation.py:225-227) -/
noncomputable def gradient (I : EuclInterp) (x y : ℝ) : PyM (Vec ℝ) := do
  let (t, c) ← I.toBarycentricInputs x y
  I.base.gradient t c

/-- `EuclideanInterpolation.hessian` (interpolation.py:229-231) -/
noncomputable def hessian (I : EuclInterp) (x y : ℝ) : PyM (Mat ℝ) := do
  let (t, c) ← I.toBarycentricInputs x y
  I.base.hessian t c

end EuclInterp

/-- `class EuclideanDeformation` (interpolation.py:234-241) -/
structure EuclDeformation where
  y1 : EuclInterp
  y2 : EuclInterp

namespace EuclDeformation

/-- `EuclideanDeformation.__getitem__` (interpolation.py:243-245) -/
def getItem (d : EuclDeformation) (i : ℤ) : PyM EuclInterp := pyIdx [d.y1, d.y2] i

/-- `EuclideanDeformation.__call__` (interpolation.py:247-251) -/
noncomputable def call (d : EuclDeformation) (x y : ℝ) : PyM (Vec ℝ) := do
  let a ← d.y1.call x y
  let b ← d.y2.call x y
  return ⟨[a, b]⟩

/-- `EuclideanDeformation.strain` (interpolation.py:253-255) -/
noncomputable def strain (d : EuclDeformation) (x y : ℝ) : PyM (Mat ℝ) := do
  let a ← d.y1.gradient x y
  let b ← d.y2.gradient x y
  a.stack b

/-- `EuclideanDeformation.hyper_strain` (interpolation.py:257-261) -/
noncomputable def hyperStrain (d : EuclDeformation) (x y : ℝ) : PyM (Ten3 ℝ) := do
  let a ← d.y1.hessian x y
  let b ← d.y2.hessian x y
  a.stack b

end EuclDeformation

/-- `class Deformation` (interpolation.py:264-268) -/
structure Deformation where
  y1 : Interp
  y2 : Interp

namespace Deformation

/-- `Deformation.__getitem__` (interpolation.py:270-272) -/
def getItem (d : Deformation) (i : ℤ) : PyM Interp := pyIdx [d.y1, d.y2] i

/-- `Deformation.__call__` (interpolation.py:274-282) -/
noncomputable def call (d : Deformation) (t : Tri) (c : Bary ℝ) : PyM (Vec ℝ) := do
  let a ← d.y1.call t c
  let b ← d.y2.call t c
  return ⟨[a, b]⟩

/-- `Deformation.strain` (interpolation.py:284-294) -/
noncomputable def strain (d : Deformation) (t : Tri) (c : Bary ℝ) : PyM (Mat ℝ) := do
  let a ← d.y1.gradient t c
  let b ← d.y2.gradient t c
  a.stack b

/-- `Deformation.on_edge` (interpolation.py:296-301) -/
noncomputable def onEdge (d : Deformation) (e : Edge) (t : ℝ) : PyM (Vec ℝ) := do
  let a ← d.y1.onEdge e t
  let b ← d.y2.onEdge e t
  return ⟨[a, b]⟩

/-- `Deformation.hyper_strain` (interpolation.py:303-309) -/
noncomputable def hyperStrain (d : Deformation) (t : Tri) (c : Bary ℝ) : PyM (Ten3 ℝ) := do
  let a ← d.y1.hessian t c
  let b ← d.y2.hessian t c
  a.stack b

end Deformation

end Tve
