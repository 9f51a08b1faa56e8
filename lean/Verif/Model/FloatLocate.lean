import Verif.Model.Float64
import Verif.Model.Domain

/-!
# Double precision version of the point location of `src/tvemoves_rufbad/domain.py` and of the evaluation of piecewise affine
functions at Euclidean points

As in `Model/Float64.lean`: numbers are the rational numbers denoted by doubles, every operation rounds. Points are pairs.
-/

namespace Tve.F64

/-- a point (a `Vector` with two entries) (tensors.py:11-17) -/
abbrev Point := ℚ × ℚ

/-- `_sign` (domain.py:44-46) -/
def sign (p1 p2 p3 : Point) : ℚ :=
  fl (fl (fl (p1.1 - p3.1) * fl (p2.2 - p3.2)) - fl (fl (p2.1 - p3.1) * fl (p1.2 - p3.2)))

/-- `eps` (domain.py:51): the literal `1e-10` -/
def eps : ℚ := fl (1 / 10 ^ 10)

/-- `_triangle_contains_point` (domain.py:49-61) -/
def containsPoint (p1 p2 p3 p : Point) : Bool :=
  let d1 := sign p p1 p2
  let d2 := sign p p2 p3
  let d3 := sign p p3 p1
  let hasNeg := decide (d1 < -eps) || decide (d2 < -eps) || decide (d3 < -eps)
  let hasPos := decide (d1 > eps) || decide (d2 > eps) || decide (d3 > eps)
  !(hasNeg && hasPos)

/-- the difference of two points (tensors.py:41-44) -/
def sub (p q : Point) : Point := (fl (p.1 - q.1), fl (p.2 - q.2))

/-- `Vector.dot` (tensors.py:71-73): `sum` starts with the integer 0, adding it is exact. (From Python 3.12 on, `sum` compensates
rounding errors, which does not change sums of two numbers.) -/
def dot (v w : Point) : ℚ := fl (fl (v.1 * w.1) + fl (v.2 * w.2))

/-- `_to_barycentric_coordinates` (domain.py:64-85) and `BarycentricCoordinates.__init__` (tensors.py:127-128). The division by
`denom = 0`, which raises in Python, is 0 here (see `baryDenom`). -/
def baryDenom (p1 p2 p3 : Point) : ℚ :=
  let v1 := sub p2 p1
  let v2 := sub p3 p1
  fl (fl (dot v1 v1 * dot v2 v2) - fl (dot v1 v2 * dot v1 v2))

@[inherit_doc baryDenom]
def bary (p1 p2 p3 p : Point) : Bary ℚ :=
  let v1 := sub p2 p1
  let v2 := sub p3 p1
  let v3 := sub p p1
  let d11 := dot v1 v1
  let d12 := dot v1 v2
  let d22 := dot v2 v2
  let d31 := dot v3 v1
  let d32 := dot v3 v2
  let denom := baryDenom p1 p2 p3
  let v := fl (fl (fl (d22 * d31) - fl (d12 * d32)) / denom)
  let w := fl (fl (fl (d11 * d32) - fl (d12 * d31)) / denom)
  let u := fl (fl (1 - v) - w)
  ⟨u, v, fl (fl (1 - u) - v)⟩

/-- `Grid.to_barycentric_point` (domain.py:124-138) -/
def locate (points : List Point) (p : Point) : List Tri → PyM (Option (BPoint ℚ))
  | [] => .ok none
  | t :: ts => do
    let p1 ← pyGet points t.1
    let p2 ← pyGet points t.2.1
    let p3 ← pyGet points t.2.2
    if containsPoint p1 p2 p3 p then
      if baryDenom p1 p2 p3 = 0 then .error .zeroDivision else .ok (some ⟨t, bary p1 p2 p3 p⟩)
    else locate points p ts

/-- `P1Interpolation.__call__` (interpolation.py:60-67) -/
def p1Call (params : List ℚ) (t : Tri) (c : Bary ℚ) : PyM ℚ := do
  let a ← pyGet params t.1
  let b ← pyGet params t.2.1
  let d ← pyGet params t.2.2
  return fl (fl (fl (c.l1 * a) + fl (c.l2 * b)) + fl (c.l3 * d))

/-- `EuclideanInterpolation.__call__` of a `P1Interpolation` (interpolation.py:214-223) -/
def p1Eval (points : List Point) (triangles : List Tri) (params : List ℚ) (p : Point) : PyM ℚ := do
  let b ← locate points p triangles
  match b with
  | none => .error .valueError
  | some b => p1Call params b.triangle b.coordinates

/-- the points of `RectangleDomain.grid` (domain.py:555-561) with `nh` vertices per row and `nv` rows -/
def gridPoints (nh nv : ℕ) (scale : ℚ) : List Point :=
  (RectGrid.vertices nh nv).map fun v => (fl ((v % nh : ℕ) * scale), fl ((v / nh : ℕ) * scale))

end Tve.F64
