import Verif.Model.Domain

/-!
# Model of grid refinement (`src/tvemoves_rufbad/domain.py`, lines 301-375 and 634-916)
-/

namespace Tve

variable {K : Type}

/-- `class RefinedGrid` (domain.py:307-338): the base class attributes and the additional ones. -/
structure RefinedGrid (K : Type) where
  toGrid : Grid K
  coarseGrid : Grid K
  coarseTriangle : PyDict Tri Tri
  coarseBary : PyDict Tri (Bary K × Bary K × Bary K)
  coarseEdge : PyDict Edge Edge
  coarseEdgeCoords : PyDict Edge (K × K)

namespace RefinedGrid

/-- `RefinedGrid.coarse` (domain.py:340-342) -/
def coarse (r : RefinedGrid K) : Grid K := r.coarseGrid

/-- the lookup of the stored rotation of a triangle (domain.py:346-354) -/
def storedTriangle (r : RefinedGrid K) (t : Tri) : PyM Tri :=
  if t ∈ r.toGrid.triangles then .ok t
  else if (t.2.1, t.2.2, t.1) ∈ r.toGrid.triangles then .ok (t.2.1, t.2.2, t.1)
  else if (t.2.2, t.1, t.2.1) ∈ r.toGrid.triangles then .ok (t.2.2, t.1, t.2.1)
  else .error .valueError

/-- `RefinedGrid.to_coarse_barycentric_point` (domain.py:344-361) -/
def toCoarseBarycentricPoint [Field K] (r : RefinedGrid K) (f : BPoint K) : PyM (BPoint K) := do
  let t ← r.storedTriangle f.triangle
  let ct ← r.coarseTriangle.get t
  let p := f.coordinates
  let (q1, q2, q3) ← r.coarseBary.get t
  return ⟨ct, Bary.new (p.l1 * q1.l1 + p.l2 * q2.l1 + p.l3 * q3.l1)
    (p.l1 * q1.l2 + p.l2 * q2.l2 + p.l3 * q3.l2)⟩

/-- `RefinedGrid.to_coarse_edge_point` (domain.py:363-375) -/
def toCoarseEdgePoint [Field K] (r : RefinedGrid K) (e : Edge) (t : K) : PyM (Edge × K) :=
  if !r.coarseEdge.contains e || !r.coarseEdgeCoords.contains e then .error .valueError
  else do
    let ce ← r.coarseEdge.get e
    let (t1, t2) ← r.coarseEdgeCoords.get e
    return (ce, t * t1 + (1 - t) * t2)

end RefinedGrid

/-! ### `_refine_equilateral_triangle` -/

/-- `1 - a / n - b / n, a / n` as barycentric coordinates (domain.py:722-724 and the copies in 756-766, 779-788) -/
def refBary [Field K] (n : ℕ) (k l : ℕ) : Bary K := Bary.new (1 - (k : K) / n - (l : K) / n) ((k : K) / n)

/-- The variables of the vertex loop (domain.py:704-740). `triangle_points` (domain.py:709-712, 731) is written but
never read and is left out. -/
structure VertState (K : Type) where
  grid : Grid K
  nextVertex : Vertex
  tv : PyDict (ℕ × ℕ) Vertex

/-- one iteration of the vertex loop (domain.py:715-740) -/
def refineVertex [Field K] [LinearOrder K] [PySqrt K] (n : ℕ) (p1 p2 p3 : Vec K) (s : VertState K) (kl : ℕ × ℕ) :
    PyM (VertState K) :=
  if kl.1 = 0 ∧ kl.2 = 0 then .ok s
  else if kl.1 = n ∧ kl.2 = 0 then .ok s
  else if kl.1 = 0 ∧ kl.2 = n then .ok s
  else do
    let c := (refBary n kl.1 kl.2 : Bary K).assertBounds 0 1
    let a ← (p1.smul c.l1).add (p2.smul c.l2)
    let q ← a.add (p3.smul c.l3)
    let old ← s.grid.pointToVertex q
    match old with
    | none => return ⟨{ s.grid with vertices := s.grid.vertices ++ [s.nextVertex]
                                    points := s.grid.points ++ [q] }, s.nextVertex + 1, s.tv.set kl s.nextVertex⟩
    | some v => return ⟨s.grid, s.nextVertex, s.tv.set kl v⟩

/-- `for l in range(n + 1): for k in range(n + 1 - l)` (domain.py:713-714), as pairs `(k, l)` -/
def vertexIndices (n : ℕ) : List (ℕ × ℕ) :=
  (List.range (n + 1)).flatMap fun l => (List.range (n + 1 - l)).map fun k => (k, l)

/-- `for l in range(n): for k in range(n - l)` (domain.py:744-745, 803-804) -/
def lowerIndices (n : ℕ) : List (ℕ × ℕ) :=
  (List.range n).flatMap fun l => (List.range (n - l)).map fun k => (k, l)

/-- `for l in range(n - 1): for k in range(1, n - l)` (domain.py:769-770) -/
def upperIndices (n : ℕ) : List (ℕ × ℕ) :=
  (List.range (n - 1)).flatMap fun l => (List.range (n - l - 1)).map fun k => (k + 1, l)

/-- The objects mutated by `_refine_equilateral_triangle` (domain.py:687-691). -/
structure RefState (K : Type) where
  grid : Grid K
  coarseTriangle : PyDict Tri Tri
  coarseBary : PyDict Tri (Bary K × Bary K × Bary K)
  coarseEdge : PyDict Edge Edge
  coarseEdgeCoords : PyDict Edge (K × K)

/-- one iteration of the lower-triangle loop (domain.py:746-766); the points fetched at 751-752 are not used -/
def refineLower [Field K] (n : ℕ) (triangle : Tri) (tv : PyDict (ℕ × ℕ) Vertex) (s : RefState K) (kl : ℕ × ℕ) :
    PyM (RefState K) := do
  let (k, l) := kl
  let a ← tv.get (k, l)
  let b ← tv.get (k + 1, l)
  let c ← tv.get (k, l + 1)
  let _ ← pyGet s.grid.points a
  let _ ← pyGet s.grid.points b
  return { s with
    grid := { s.grid with triangles := s.grid.triangles ++ [(a, b, c)] }
    coarseTriangle := s.coarseTriangle.set (a, b, c) triangle
    coarseBary := s.coarseBary.set (a, b, c) (refBary n k l, refBary n (k + 1) l, refBary n k (l + 1)) }

/-- one iteration of the upper-triangle loop (domain.py:771-789) -/
def refineUpper [Field K] (n : ℕ) (triangle : Tri) (tv : PyDict (ℕ × ℕ) Vertex) (s : RefState K) (kl : ℕ × ℕ) :
    PyM (RefState K) := do
  let (k, l) := kl
  let a ← tv.get (k, l + 1)
  let b ← tv.get (k - 1, l + 1)
  let c ← tv.get (k, l)
  return { s with
    grid := { s.grid with triangles := s.grid.triangles ++ [(a, b, c)] }
    coarseTriangle := s.coarseTriangle.set (a, b, c) triangle
    coarseBary := s.coarseBary.set (a, b, c) (refBary n k (l + 1), refBary n (k - 1) (l + 1), refBary n k l) }

/-- `assure_orientation` on a pair (domain.py:797-799) -/
def orientPair (correct : Bool) (e : Edge) : Edge := if correct then e else (e.2, e.1)

/-- `assure_orientation` on a list (domain.py:800-801) -/
def orientList (correct : Bool) (l : List Vertex) : List Vertex := if correct then l else l.reverse

/-- `assure_orientation_and_weights` (domain.py:853-856) -/
def orientWeights [Field K] (correct : Bool) (p : K × K) : K × K := if correct then p else (1 - p.2, 1 - p.1)

/-- one iteration of the edge loop (domain.py:805-826) -/
def refineEdges [Field K] [PySqrt K] (hc vc dc : Bool) (tv : PyDict (ℕ × ℕ) Vertex) (g : Grid K) (kl : ℕ × ℕ) :
    PyM (Grid K) := do
  let (k, l) := kl
  let a ← tv.get (k, l)
  let b ← tv.get (k + 1, l)
  let g ← g.appendEdge (orientPair hc (a, b))
  let c ← tv.get (k, l + 1)
  let g ← g.appendEdge (orientPair vc (b, c))
  g.appendEdge (orientPair dc (a, c))

/-- `_refine_boundary_edge` (domain.py:904-916) -/
def refineBoundaryEdge (edge : Edge) (edgeVertices : List Vertex) (boundary ib : Boundary) : Boundary :=
  if edge ∉ boundary.edges then ib
  else ⟨ib.vertices ++ edgeVertices.tail.dropLast, ib.edges ++ (edgeVertices.dropLast.zip edgeVertices.tail)⟩

/-- one iteration of the boundary loop (domain.py:845-851) -/
def refineBoundaries (coarse : Grid K) (g : Grid K) (eev : Edge × List Vertex) : Grid K :=
  { g with
    boundary := refineBoundaryEdge eev.1 eev.2 coarse.boundary g.boundary
    dirichlet := refineBoundaryEdge eev.1 eev.2 coarse.dirichlet g.dirichlet
    neumann := refineBoundaryEdge eev.1 eev.2 coarse.neumann g.neumann }

/-- one assignment of the pair `coarse_edge[f] = c`, `coarse_edge_coordinates[f] = w` (domain.py:862-869 and the two
copies) -/
def setCoarseEdge (s : RefState K) (f c : Edge) (w : K × K) : RefState K :=
  { s with coarseEdge := s.coarseEdge.set f c, coarseEdgeCoords := s.coarseEdgeCoords.set f w }

/-- one iteration of the coarse-edge loop (domain.py:858-901) -/
def refineCoarseEdges [Field K] (n : ℕ) (hc vc dc : Bool) (ch cv cd : Edge) (tv : PyDict (ℕ × ℕ) Vertex)
    (s : RefState K) (i : ℕ) : PyM (RefState K) := do
  let w : K × K := (1 - (i : K) / n, 1 - ((i + 1 : ℕ) : K) / n)
  let a ← tv.get (i, 0)
  let b ← tv.get (i + 1, 0)
  let s := setCoarseEdge s (orientPair hc (a, b)) ch (orientWeights hc w)
  let a ← tv.get (n - i, i)
  let b ← tv.get (n - (i + 1), i + 1)
  let s := setCoarseEdge s (orientPair vc (a, b)) cv (orientWeights vc w)
  let a ← tv.get (0, n - i)
  let b ← tv.get (0, n - (i + 1))
  return setCoarseEdge s (orientPair dc (a, b)) cd (orientWeights dc w)

/-- `abs(x) < 1e-15` (domain.py:699-701) -/
def tiny [Field K] [LinearOrder K] (x : K) : Bool := decide (|x| < 1 / 10 ^ 15)

/-- `_refine_equilateral_triangle` (domain.py:683-901) -/
def refineTriangle [Field K] [LinearOrder K] [PySqrt K] (coarse : Grid K) (n : ℕ) (s : RefState K) (triangle : Tri) :
    PyM (RefState K) := do
  let (i1, i2, i3) := triangle
  let (p1, p2, p3) ← coarse.triangleVertices triangle
  let y1 ← p1.getItem 1
  let y2 ← p2.getItem 1
  if !tiny (y1 - y2) then .error .assertion
  else do
    let x2 ← p2.getItem 0
    let x3 ← p3.getItem 0
    if !tiny (x2 - x3) then .error .assertion
    else do
      let last ← pyIdx s.grid.vertices (-1)
      let tv0 := ((PyDict.empty.set (0, 0) i1).set (n, 0) i2).set (0, n) i3
      let vs ← pyFor (vertexIndices n) ⟨s.grid, last + 1, tv0⟩ (refineVertex n p1 p2 p3)
      let tv := vs.tv
      let s ← pyFor (lowerIndices n) { s with grid := vs.grid } (refineLower n triangle tv)
      let s ← pyFor (upperIndices n) s (refineUpper n triangle tv)
      let hc := decide ((i1, i2) ∈ coarse.edges)
      let vc := decide ((i2, i3) ∈ coarse.edges)
      let dc := decide ((i3, i1) ∈ coarse.edges)
      let g ← pyFor (lowerIndices n) s.grid (refineEdges hc vc dc tv)
      let ch := orientPair hc (i1, i2)
      let cv := orientPair vc (i2, i3)
      let cd := orientPair dc (i3, i1)
      let hvs ← pyMap (List.range (n + 1)) fun i => tv.get (i, 0)
      let vvs ← pyMap (List.range (n + 1)) fun i => tv.get (n - i, i)
      let g := [(ch, orientList hc hvs), (cv, orientList vc vvs)].foldl (refineBoundaries coarse) g
      pyFor (List.range n) { s with grid := g } (refineCoarseEdges n hc vc dc ch cv cd tv)

/-- `RectangleDomain.refine` (domain.py:634-680) -/
def RectDomain.refine [Field K] [LinearOrder K] [PySqrt K] (_d : RectDomain K) (grid : Grid K) (factor : ℤ) :
    PyM (RefinedGrid K) := do
  if factor < 1 then .error .valueError
  else do
    let ig ← Grid.new grid.vertices [] [] ⟨grid.boundary.vertices, []⟩ ⟨grid.dirichlet.vertices, []⟩
      ⟨grid.neumann.vertices, []⟩ grid.points
    let s ← pyFor grid.triangles ⟨ig, PyDict.empty, PyDict.empty, PyDict.empty, PyDict.empty⟩
      (refineTriangle grid factor.toNat)
    let g ← Grid.new s.grid.vertices s.grid.edges s.grid.triangles s.grid.boundary s.grid.dirichlet s.grid.neumann
      s.grid.points
    return ⟨g, grid, s.coarseTriangle, s.coarseBary, s.coarseEdge, s.coarseEdgeCoords⟩

end Tve
