import Verif.Model.Float64
import Verif.Model.Refine

/-!
# Double precision version of grid creation and refinement (`src/tvemoves_rufbad/domain.py`)

The functions of `Model/Domain.lean` and `Model/Refine.lean` that compute with coordinates once more; as in `Model/Float64.lean`
numbers are the rational numbers denoted by doubles, and every operation rounds. Functions that only handle vertex numbers
(`orientPair`, `orientList`, `refineBoundaries`, `setCoarseEdge`, the index loops, everything of a grid but its points) are
those of the exact model.
-/

namespace Tve.F64

/-- `math.sqrt` (correctly rounded, ties to even) (`pyo.sqrt`, tensors.py:69, domain.py:120) -/
def sqrt (x : ℚ) : ℚ :=
  if x ≤ 0 then 0
  else
    let e := Int.log 2 x / 2 - 52
    let y := x / 4 ^ e
    let m := Nat.sqrt ⌊y⌋₊
    let r := if y < (m + 1 / 2) ^ 2 then m else if (m + 1 / 2) ^ 2 < y then m + 1 else if m % 2 = 0 then m else m + 1
    r * 2 ^ e

/-- `Vector.__add__` (tensors.py:36-39) -/
def vadd (v w : Vec ℚ) : PyM (Vec ℚ) :=
  if v.size ≠ w.size then .error .valueError else .ok ⟨List.zipWith (fun x y => fl (x + y)) v.data w.data⟩

/-- `Vector.__sub__` (tensors.py:41-44) -/
def vsub (v w : Vec ℚ) : PyM (Vec ℚ) :=
  if v.size ≠ w.size then .error .valueError else .ok ⟨List.zipWith (fun x y => fl (x - y)) v.data w.data⟩

/-- `Vector.__mul__` and `__rmul__` (tensors.py:46-50) -/
def smul (v : Vec ℚ) (s : ℚ) : Vec ℚ := ⟨v.data.map fun x => fl (x * s)⟩

/-- `sum` of floats, from left to right (Python up to 3.11; from 3.12 on rounding errors are compensated, which does not
change sums of at most two numbers) (domain.py:120) -/
def sum (l : List ℚ) : ℚ := l.foldl (fun a x => fl (a + x)) 0

/-- `Vector.norm` (tensors.py:63-69) -/
def norm (v : Vec ℚ) : ℚ := sqrt (sum (v.data.map fun x => fl (x * x)))

/-- `(self.points[i1] - self.points[i2]).norm()` (domain.py:121) -/
def edgeLength (points : List (Vec ℚ)) (e : Edge) : PyM ℚ := do
  let p ← pyGet points e.1
  let q ← pyGet points e.2
  let d ← vsub p q
  return norm d

/-- `Grid.__init__` (domain.py:101-122) -/
def gridNew (vertices : List Vertex) (edges : List Edge) (triangles : List Tri) (boundary dirichlet neumann : Boundary)
    (points : List (Vec ℚ)) : PyM (Grid ℚ) :=
  match edges with
  | [] => .ok ⟨vertices, edges, triangles, boundary, dirichlet, neumann, points, none⟩
  | _ :: _ => do
    let lengths ← pyMap edges (edgeLength points)
    return ⟨vertices, edges, triangles, boundary, dirichlet, neumann, points, some (fl (sum lengths / edges.length))⟩

/-- the tolerance of `Grid._points_coincide` (domain.py:211) -/
def tolerance (g : Grid ℚ) : ℚ :=
  match g.meanEdgeLength with
  | some m => fl (m / 10 ^ 7)
  | none => fl (1 / 10 ^ 15)

/-- `Grid._points_coincide` (domain.py:210-212) -/
def pointsCoincide (g : Grid ℚ) (p1 p2 : Vec ℚ) : PyM Bool := do
  let d ← vsub p1 p2
  return decide (norm d < tolerance g)

/-- the generator expression of `Grid.point_to_vertex` (domain.py:186-190) -/
def findPoint (g : Grid ℚ) (point : Vec ℚ) : List (Vec ℚ) → ℕ → PyM (Option Vertex)
  | [], _ => .ok none
  | q :: qs, i => do
    let b ← pointsCoincide g point q
    if b then return some i else findPoint g point qs (i + 1)

/-- `Grid.point_to_vertex` (domain.py:183-192) -/
def pointToVertex (g : Grid ℚ) (point : Vec ℚ) : PyM (Option Vertex) := findPoint g point g.points 0

/-- `Grid.append_edge` (domain.py:214-227); the integer `num_edges_old` is converted to a float without rounding (it is less
than `2 ^ 53`) -/
def appendEdge (g : Grid ℚ) (e : Edge) : PyM (Grid ℚ) :=
  if e ∉ g.edges ∧ (e.2, e.1) ∉ g.edges then do
    let numOld : ℚ := g.edges.length
    let newLength ← edgeLength g.points e
    let mean := match g.meanEdgeLength with
      | none => newLength
      | some m => fl (fl (fl (m * numOld) / (numOld + 1)) + fl (newLength / (numOld + 1)))
    return { g with edges := g.edges ++ [e], meanEdgeLength := some mean }
  else .ok g

/-- `points` (domain.py:555-561) -/
def gridVecs (nh nv : ℕ) (scale : ℚ) : List (Vec ℚ) :=
  (RectGrid.vertices nh nv).map fun v => ⟨[fl ((v % nh : ℕ) * scale), fl ((v / nh : ℕ) * scale)]⟩

open RectGrid in
/-- `RectangleDomain.grid` (domain.py:420-571) -/
def grid (it : SetIter) (d : RectDomain ℚ) (scale : ℚ) : PyM (Grid ℚ) :=
  if scale = 0 then .error .zeroDivision
  else do
    let nh := (numCells d.width scale + 1).toNat
    let nv := (numCells d.height scale + 1).toNat
    let s ← tagState it nh nv d.fix
    gridNew (vertices nh nv) (edges nh nv) (triangles nh nv)
      ⟨boundaryVertices it nh nv, boundaryEdges nh nv⟩
      ⟨dirichletVertices s, it.edge 1 s.dirichletEdges⟩
      ⟨neumannVertices s, it.edge 2 s.neumannEdges⟩
      (gridVecs nh nv scale)

/-- `1 - a / n - b / n, a / n` as barycentric coordinates (domain.py:722-724, 756-766, 779-788; tensors.py:127-128) -/
def refBary (n k l : ℕ) : Bary ℚ :=
  let l1 := fl (fl (1 - fl (k / n)) - fl (l / n))
  let l2 := fl (k / n)
  ⟨l1, l2, fl (fl (1 - l1) - l2)⟩

/-- one iteration of the vertex loop (domain.py:715-740) -/
def refineVertex (n : ℕ) (p1 p2 p3 : Vec ℚ) (s : VertState ℚ) (kl : ℕ × ℕ) : PyM (VertState ℚ) :=
  if kl.1 = 0 ∧ kl.2 = 0 then .ok s
  else if kl.1 = n ∧ kl.2 = 0 then .ok s
  else if kl.1 = 0 ∧ kl.2 = n then .ok s
  else do
    let c := (refBary n kl.1 kl.2).assertBounds 0 1
    let a ← vadd (smul p1 c.l1) (smul p2 c.l2)
    let q ← vadd a (smul p3 c.l3)
    let old ← pointToVertex s.grid q
    match old with
    | none => return ⟨{ s.grid with vertices := s.grid.vertices ++ [s.nextVertex]
                                    points := s.grid.points ++ [q] }, s.nextVertex + 1, s.tv.set kl s.nextVertex⟩
    | some v => return ⟨s.grid, s.nextVertex, s.tv.set kl v⟩

/-- one iteration of the lower-triangle loop (domain.py:746-766) -/
def refineLower (n : ℕ) (triangle : Tri) (tv : PyDict (ℕ × ℕ) Vertex) (s : RefState ℚ) (kl : ℕ × ℕ) :
    PyM (RefState ℚ) := do
  let (k, l) := kl
  let a ← tv.get (k, l)
  let b ← tv.get (k + 1, l)
  let c ← tv.get (k, l + 1)
  let _ ← pyGet s.grid.points a
  let _ ← pyGet s.grid.points b
  return { s with
    grid := { s.grid with triangles := s.grid.triangles ++ [(a, b, c)] }
    coarseTriangle := s.coarseTriangle.set (a, b, c) triangle
    coarseBary := s.coarseBary.set (a, b, c) (refBary n k l, refBary n (k + 1) l, refBary n k (l + 1)) }

/-- one iteration of the upper-triangle loop (domain.py:771-789) -/
def refineUpper (n : ℕ) (triangle : Tri) (tv : PyDict (ℕ × ℕ) Vertex) (s : RefState ℚ) (kl : ℕ × ℕ) :
    PyM (RefState ℚ) := do
  let (k, l) := kl
  let a ← tv.get (k, l + 1)
  let b ← tv.get (k - 1, l + 1)
  let c ← tv.get (k, l)
  return { s with
    grid := { s.grid with triangles := s.grid.triangles ++ [(a, b, c)] }
    coarseTriangle := s.coarseTriangle.set (a, b, c) triangle
    coarseBary := s.coarseBary.set (a, b, c) (refBary n k (l + 1), refBary n (k - 1) (l + 1), refBary n k l) }

/-- `assure_orientation_and_weights` (domain.py:853-856) -/
def orientWeights (correct : Bool) (p : ℚ × ℚ) : ℚ × ℚ := if correct then p else (fl (1 - p.2), fl (1 - p.1))

/-- one iteration of the edge loop (domain.py:805-826) -/
def refineEdges (hc vc dc : Bool) (tv : PyDict (ℕ × ℕ) Vertex) (g : Grid ℚ) (kl : ℕ × ℕ) : PyM (Grid ℚ) := do
  let (k, l) := kl
  let a ← tv.get (k, l)
  let b ← tv.get (k + 1, l)
  let g ← appendEdge g (orientPair hc (a, b))
  let c ← tv.get (k, l + 1)
  let g ← appendEdge g (orientPair vc (b, c))
  appendEdge g (orientPair dc (a, c))

/-- one iteration of the coarse-edge loop (domain.py:858-901) -/
def refineCoarseEdges (n : ℕ) (hc vc dc : Bool) (ch cv cd : Edge) (tv : PyDict (ℕ × ℕ) Vertex)
    (s : RefState ℚ) (i : ℕ) : PyM (RefState ℚ) := do
  let w : ℚ × ℚ := (fl (1 - fl (i / n)), fl (1 - fl ((i + 1 : ℕ) / n)))
  let a ← tv.get (i, 0)
  let b ← tv.get (i + 1, 0)
  let s := setCoarseEdge s (orientPair hc (a, b)) ch (orientWeights hc w)
  let a ← tv.get (n - i, i)
  let b ← tv.get (n - (i + 1), i + 1)
  let s := setCoarseEdge s (orientPair vc (a, b)) cv (orientWeights vc w)
  let a ← tv.get (0, n - i)
  let b ← tv.get (0, n - (i + 1))
  return setCoarseEdge s (orientPair dc (a, b)) cd (orientWeights dc w)

/-- `abs(x) < 1e-15` (domain.py:699-701) -/
def tiny (x : ℚ) : Bool := decide (|x| < fl (1 / 10 ^ 15))

/-- `_refine_equilateral_triangle` (domain.py:683-901) -/
def refineTriangle (coarse : Grid ℚ) (n : ℕ) (s : RefState ℚ) (triangle : Tri) : PyM (RefState ℚ) := do
  let (i1, i2, i3) := triangle
  let (p1, p2, p3) ← coarse.triangleVertices triangle
  let y1 ← p1.getItem 1
  let y2 ← p2.getItem 1
  if !tiny (fl (y1 - y2)) then .error .assertion
  else do
    let x2 ← p2.getItem 0
    let x3 ← p3.getItem 0
    if !tiny (fl (x2 - x3)) then .error .assertion
    else do
      let last ← pyIdx s.grid.vertices (-1)
      let tv0 := ((PyDict.empty.set (0, 0) i1).set (n, 0) i2).set (0, n) i3
      let vs ← pyFor (vertexIndices n) ⟨s.grid, last + 1, tv0⟩ (refineVertex n p1 p2 p3)
      let tv := vs.tv
      let s ← pyFor (lowerIndices n) { s with grid := vs.grid } (refineLower n triangle tv)
      let s ← pyFor (upperIndices n) s (refineUpper n triangle tv)
      let hc := decide ((i1, i2) ∈ coarse.edges)
      let vc := decide ((i2, i3) ∈ coarse.edges)
      let dc := decide ((i3, i1) ∈ coarse.edges)
      let g ← pyFor (lowerIndices n) s.grid (refineEdges hc vc dc tv)
      let ch := orientPair hc (i1, i2)
      let cv := orientPair vc (i2, i3)
      let cd := orientPair dc (i3, i1)
      let hvs ← pyMap (List.range (n + 1)) fun i => tv.get (i, 0)
      let vvs ← pyMap (List.range (n + 1)) fun i => tv.get (n - i, i)
      let g := [(ch, orientList hc hvs), (cv, orientList vc vvs)].foldl (refineBoundaries coarse) g
      pyFor (List.range n) { s with grid := g } (refineCoarseEdges n hc vc dc ch cv cd tv)

/-- `RectangleDomain.refine` (domain.py:634-680) -/
def refine (grid : Grid ℚ) (factor : ℤ) : PyM (RefinedGrid ℚ) := do
  if factor < 1 then .error .valueError
  else do
    let ig ← gridNew grid.vertices [] [] ⟨grid.boundary.vertices, []⟩ ⟨grid.dirichlet.vertices, []⟩
      ⟨grid.neumann.vertices, []⟩ grid.points
    let s ← pyFor grid.triangles ⟨ig, PyDict.empty, PyDict.empty, PyDict.empty, PyDict.empty⟩
      (refineTriangle grid factor.toNat)
    let g ← gridNew s.grid.vertices s.grid.edges s.grid.triangles s.grid.boundary s.grid.dirichlet s.grid.neumann
      s.grid.points
    return ⟨g, grid, s.coarseTriangle, s.coarseBary, s.coarseEdge, s.coarseEdgeCoords⟩

end Tve.F64
