import Verif.Model.Refine
import Verif.Model.PyState

/-!
# Object identity: grids as objects that share lists

The other files model a grid as a value. Here the lists a grid consists of are objects in a heap, which may be shared and are
changed in place, as in Python. This is a second model of `Grid.__init__`, `Grid.append_edge`, `RectangleDomain.grid` and
`RectangleDomain.refine` (domain.py:101-122, 213-227, 420-571, 634-916), at the granularity of list allocations,
`append` and `extend`. What the operations compute from the contents of the lists they read is taken from the value model.

Simplifications: a `Vector` is identified with the list of its entries (its attributes are never reassigned); the vectors of
a list are copied one by one by `deepcopy` (it would keep two equal references equal; no grid of the library has
the same vector object twice); the four dictionaries of a refinement are created by `refine` and held by nobody
else, so they are values.
-/

namespace Tve

variable {K : Type}

/-- the identity of an object (the lists and objects created in domain.py:420-571, 634-681) -/
abbrev Addr := ℕ

/-- a `Boundary` (domain.py:36-41): a frozen pair of references to lists -/
structure BoundaryObj where
  vertices : Addr
  edges : Addr

/-- the attributes of a `Grid` object (domain.py:101-122): references to lists and the mean edge length -/
structure GridObj (K : Type) where
  vertices : Addr
  edges : Addr
  triangles : Addr
  boundary : BoundaryObj
  dirichlet : BoundaryObj
  neumann : BoundaryObj
  points : Addr
  mean : Option K

/-- all list objects, by the type of their entries, and all grid objects (the lists and objects created in domain.py:420-571, 634-681) -/
structure Heap (K : Type) where
  /-- the lists of numbers: the entries of a `Vector` -/
  nums : List (List K)
  /-- the lists of vectors -/
  vecs : List (List Addr)
  ints : List (List Vertex)
  pairs : List (List Edge)
  tris : List (List Tri)
  grids : List (GridObj K)

/-- the dictionaries filled by a refinement (domain.py:650-653) -/
structure RefMaps (K : Type) where
  coarseTriangle : PyDict Tri Tri
  coarseBary : PyDict Tri (Bary K × Bary K × Bary K)
  coarseEdge : PyDict Edge Edge
  coarseEdgeCoords : PyDict Edge (K × K)

/-- a `RefinedGrid` object (domain.py:307-338): its base class part, the coarse grid object and the dictionaries -/
structure RefinedObj (K : Type) where
  grid : Addr
  coarse : Addr
  maps : RefMaps K

namespace Heap

/-- the contents of a list of vectors (domain.py:101-118) -/
def points (h : Heap K) (a : Addr) : List (Vec K) := (h.vecs.getD a []).map fun p => ⟨h.nums.getD p []⟩

/-- the contents of a boundary (domain.py:35-41) -/
def boundary (h : Heap K) (b : BoundaryObj) : Boundary := ⟨h.ints.getD b.vertices [], h.pairs.getD b.edges []⟩

/-- the contents of the lists of a grid object (domain.py:101-118) -/
def grid (h : Heap K) (o : GridObj K) : Grid K :=
  ⟨h.ints.getD o.vertices [], h.pairs.getD o.edges [], h.tris.getD o.triangles [], h.boundary o.boundary,
    h.boundary o.dirichlet, h.boundary o.neumann, h.points o.points, o.mean⟩

/-- what a reader of the grid object `a` sees (domain.py:101-118) -/
def value (h : Heap K) (a : Addr) : Option (Grid K) := (h.grids[a]?).map h.grid

/-! ### allocation, `append`, `extend` -/

/-- a new list of numbers (the lists and objects created in domain.py:420-571, 634-681) -/
def newNums (l : List K) : PyS (Heap K) Addr := fun h => (.ok h.nums.length, { h with nums := h.nums ++ [l] })
/-- a new list of vectors (the lists and objects created in domain.py:420-571, 634-681) -/
def newVecs (l : List Addr) : PyS (Heap K) Addr := fun h => (.ok h.vecs.length, { h with vecs := h.vecs ++ [l] })
/-- a new list of vertices (the lists and objects created in domain.py:420-571, 634-681) -/
def newInts (l : List Vertex) : PyS (Heap K) Addr := fun h => (.ok h.ints.length, { h with ints := h.ints ++ [l] })
/-- a new list of edges (the lists and objects created in domain.py:420-571, 634-681) -/
def newPairs (l : List Edge) : PyS (Heap K) Addr := fun h => (.ok h.pairs.length, { h with pairs := h.pairs ++ [l] })
/-- a new list of triangles (the lists and objects created in domain.py:420-571, 634-681) -/
def newTris (l : List Tri) : PyS (Heap K) Addr := fun h => (.ok h.tris.length, { h with tris := h.tris ++ [l] })
/-- a new grid object (the lists and objects created in domain.py:420-571, 634-681) -/
def newObj (o : GridObj K) : PyS (Heap K) Addr := fun h => (.ok h.grids.length, { h with grids := h.grids ++ [o] })

/-- `extend` for a list of vertices; `append(x)` is `extend([x])` (domain.py:549-551, 913, 736) -/
def extendInts (a : Addr) (l : List Vertex) : PyS (Heap K) Unit :=
  PyS.modify fun h => { h with ints := h.ints.modify a (· ++ l) }
/-- `extend` for a list of edges (domain.py:227, 914) -/
def extendPairs (a : Addr) (l : List Edge) : PyS (Heap K) Unit :=
  PyS.modify fun h => { h with pairs := h.pairs.modify a (· ++ l) }
/-- `append` for a list of triangles (domain.py:753, 776) -/
def appendTri (a : Addr) (t : Tri) : PyS (Heap K) Unit :=
  PyS.modify fun h => { h with tris := h.tris.modify a (· ++ [t]) }
/-- `append` for a list of vectors (domain.py:737) -/
def appendVec (a : Addr) (p : Addr) : PyS (Heap K) Unit :=
  PyS.modify fun h => { h with vecs := h.vecs.modify a (· ++ [p]) }
/-- assignment to `_mean_edge_length` (domain.py:101-122) -/
def setMean (a : Addr) (m : Option K) : PyS (Heap K) Unit :=
  PyS.modify fun h => { h with grids := h.grids.modify a fun o => { o with mean := m } }

/-- a grid object; in Python there are no dangling references, here they raise (the lists and objects created in domain.py:420-571, 634-681) -/
def obj (a : Addr) : PyS (Heap K) (GridObj K) := PyS.read fun h => pyGet h.grids a

/-- a loop with local variables `σ` (domain.py:655-665, 716-741) -/
def forLoop {σ ι : Type} (l : List ι) (s : σ) (f : σ → ι → PyS (Heap K) σ) : PyS (Heap K) σ :=
  match l with
  | [] => PyS.pure s
  | a :: t => PyS.bind (f s a) fun s' => forLoop t s' f

/-- `[Vector(...) for ...]`: new vectors with the given entries, and `deepcopy` of such vectors (domain.py:555-561, 647) -/
def newVectors (l : List (Vec K)) : PyS (Heap K) (List Addr) :=
  forLoop l [] fun acc p => do
    let a ← newNums p.data
    return acc ++ [a]

/-- a new list of new vectors (domain.py:555-561, 647) -/
def newPoints (l : List (Vec K)) : PyS (Heap K) Addr := do
  let ps ← newVectors l
  newVecs ps

/-- `Grid.__init__` (domain.py:101-122): keeps the lists it is given; `o.mean` is ignored -/
def newGrid [Field K] [PySqrt K] (o : GridObj K) : PyS (Heap K) Addr := do
  let v ← PyS.get fun h => h.grid o
  let g ← PyS.lift (Grid.new v.vertices v.edges v.triangles v.boundary v.dirichlet v.neumann v.points)
  newObj { o with mean := g.meanEdgeLength }

/-- `Grid.append_edge` (domain.py:213-227) -/
def appendEdge [Field K] [PySqrt K] (a : Addr) (e : Edge) : PyS (Heap K) Unit := do
  let o ← obj a
  let g ← PyS.get fun h => h.grid o
  if e ∉ g.edges ∧ (e.2, e.1) ∉ g.edges then do
    let numOld : K := (g.edges.length : K)
    let newLength ← PyS.lift (gridEdgeLength g.points e)
    let mean := match g.meanEdgeLength with
      | none => newLength
      | some m => m * numOld / (numOld + 1) + newLength / (numOld + 1)
    setMean a (some mean)
    extendPairs o.edges [e]
  else PyS.pure ()

/-! ### `RectangleDomain.grid` -/

/-- `RectangleDomain.grid` (domain.py:420-571): every list of the new grid is created by a comprehension, a literal, `list(...)`
or `+` -/
def rectGrid [Field K] [LinearOrder K] [FloorRing K] [PySqrt K] (it : SetIter) (d : RectDomain K) (scale : K) :
    PyS (Heap K) Addr := do
  let g ← PyS.lift (d.grid it scale)
  let vertices ← newInts g.vertices
  let edges ← newPairs g.edges
  let triangles ← newTris g.triangles
  let bv ← newInts g.boundary.vertices
  let be ← newPairs g.boundary.edges
  let dv ← newInts g.dirichlet.vertices
  let nv ← newInts g.neumann.vertices
  let de ← newPairs g.dirichlet.edges
  let ne ← newPairs g.neumann.edges
  let points ← newPoints g.points
  newGrid ⟨vertices, edges, triangles, ⟨bv, be⟩, ⟨dv, de⟩, ⟨nv, ne⟩, points, none⟩

/-! ### `RectangleDomain.refine` -/

/-- one iteration of the vertex loop (domain.py:715-740); the local variables are `next_vertex` and `triangle_vertices` -/
def refineVertex [Field K] [LinearOrder K] [PySqrt K] (ig : Addr) (n : ℕ) (p1 p2 p3 : Vec K)
    (s : Vertex × PyDict (ℕ × ℕ) Vertex) (kl : ℕ × ℕ) : PyS (Heap K) (Vertex × PyDict (ℕ × ℕ) Vertex) :=
  if kl.1 = 0 ∧ kl.2 = 0 then PyS.pure s
  else if kl.1 = n ∧ kl.2 = 0 then PyS.pure s
  else if kl.1 = 0 ∧ kl.2 = n then PyS.pure s
  else do
    let c := (refBary n kl.1 kl.2 : Bary K).assertBounds 0 1
    let a ← PyS.lift ((p1.smul c.l1).add (p2.smul c.l2))
    let q ← PyS.lift (a.add (p3.smul c.l3))
    let o ← obj ig
    let old ← PyS.read fun h => (h.grid o).pointToVertex q
    match old with
    | none => do
      extendInts o.vertices [s.1]
      let p ← newNums q.data
      appendVec o.points p
      return (s.1 + 1, s.2.set kl s.1)
    | some v => return (s.1, s.2.set kl v)

/-- one iteration of the lower-triangle loop (domain.py:746-766) -/
def refineLower [Field K] (ig : Addr) (n : ℕ) (triangle : Tri) (tv : PyDict (ℕ × ℕ) Vertex) (s : RefMaps K)
    (kl : ℕ × ℕ) : PyS (Heap K) (RefMaps K) := do
  let (k, l) := kl
  let a ← PyS.lift (tv.get (k, l))
  let b ← PyS.lift (tv.get (k + 1, l))
  let c ← PyS.lift (tv.get (k, l + 1))
  let o ← obj ig
  let _ ← PyS.read fun h => pyGet (h.grid o).points a
  let _ ← PyS.read fun h => pyGet (h.grid o).points b
  appendTri o.triangles (a, b, c)
  return { s with
    coarseTriangle := s.coarseTriangle.set (a, b, c) triangle
    coarseBary := s.coarseBary.set (a, b, c) (refBary n k l, refBary n (k + 1) l, refBary n k (l + 1)) }

/-- one iteration of the upper-triangle loop (domain.py:771-789) -/
def refineUpper [Field K] (ig : Addr) (n : ℕ) (triangle : Tri) (tv : PyDict (ℕ × ℕ) Vertex) (s : RefMaps K)
    (kl : ℕ × ℕ) : PyS (Heap K) (RefMaps K) := do
  let (k, l) := kl
  let a ← PyS.lift (tv.get (k, l + 1))
  let b ← PyS.lift (tv.get (k - 1, l + 1))
  let c ← PyS.lift (tv.get (k, l))
  let o ← obj ig
  appendTri o.triangles (a, b, c)
  return { s with
    coarseTriangle := s.coarseTriangle.set (a, b, c) triangle
    coarseBary := s.coarseBary.set (a, b, c) (refBary n k (l + 1), refBary n (k - 1) (l + 1), refBary n k l) }

/-- one iteration of the edge loop (domain.py:805-826) -/
def refineEdges [Field K] [PySqrt K] (ig : Addr) (hc vc dc : Bool) (tv : PyDict (ℕ × ℕ) Vertex) (kl : ℕ × ℕ) :
    PyS (Heap K) Unit := do
  let (k, l) := kl
  let a ← PyS.lift (tv.get (k, l))
  let b ← PyS.lift (tv.get (k + 1, l))
  appendEdge ig (orientPair hc (a, b))
  let c ← PyS.lift (tv.get (k, l + 1))
  appendEdge ig (orientPair vc (b, c))
  appendEdge ig (orientPair dc (a, c))

/-- `_refine_boundary_edge` (domain.py:904-916) -/
def refineBoundaryEdge (edge : Edge) (edgeVertices : List Vertex) (boundary ib : BoundaryObj) : PyS (Heap K) Unit := do
  let b ← PyS.get fun h => h.boundary boundary
  if edge ∉ b.edges then PyS.pure ()
  else do
    extendInts ib.vertices edgeVertices.tail.dropLast
    extendPairs ib.edges (edgeVertices.dropLast.zip edgeVertices.tail)

/-- one iteration of the boundary loop (domain.py:845-851) -/
def refineBoundaries (coarse ig : Addr) (eev : Edge × List Vertex) : PyS (Heap K) Unit := do
  let c ← obj coarse
  let o ← obj ig
  refineBoundaryEdge eev.1 eev.2 c.boundary o.boundary
  refineBoundaryEdge eev.1 eev.2 c.dirichlet o.dirichlet
  refineBoundaryEdge eev.1 eev.2 c.neumann o.neumann

/-- `_refine_equilateral_triangle` (domain.py:683-901); the assignments to the dictionaries at the end are those of the value
model -/
def refineTriangle [Field K] [LinearOrder K] [PySqrt K] (coarse ig : Addr) (n : ℕ) (s : RefMaps K) (triangle : Tri) :
    PyS (Heap K) (RefMaps K) := do
  let (i1, i2, i3) := triangle
  let co ← obj coarse
  let (p1, p2, p3) ← PyS.read fun h => (h.grid co).triangleVertices triangle
  let y1 ← PyS.lift (p1.getItem 1)
  let y2 ← PyS.lift (p2.getItem 1)
  if !tiny (y1 - y2) then PyS.raise .assertion
  else do
    let x2 ← PyS.lift (p2.getItem 0)
    let x3 ← PyS.lift (p3.getItem 0)
    if !tiny (x2 - x3) then PyS.raise .assertion
    else do
      let o ← obj ig
      let last ← PyS.read fun h => pyIdx (h.grid o).vertices (-1)
      let tv0 := ((PyDict.empty.set (0, 0) i1).set (n, 0) i2).set (0, n) i3
      let vs ← forLoop (vertexIndices n) (last + 1, tv0) (refineVertex ig n p1 p2 p3)
      let tv := vs.2
      let s ← forLoop (lowerIndices n) s (refineLower ig n triangle tv)
      let s ← forLoop (upperIndices n) s (refineUpper ig n triangle tv)
      let cg ← PyS.get fun h => h.grid co
      let hc := decide ((i1, i2) ∈ cg.edges)
      let vc := decide ((i2, i3) ∈ cg.edges)
      let dc := decide ((i3, i1) ∈ cg.edges)
      PyS.forEach (lowerIndices n) (refineEdges ig hc vc dc tv)
      let ch := orientPair hc (i1, i2)
      let cv := orientPair vc (i2, i3)
      let cd := orientPair dc (i3, i1)
      let hvs ← PyS.lift (pyMap (List.range (n + 1)) fun i => tv.get (i, 0))
      let vvs ← PyS.lift (pyMap (List.range (n + 1)) fun i => tv.get (n - i, i))
      PyS.forEach [(ch, orientList hc hvs), (cv, orientList vc vvs)] (refineBoundaries coarse ig)
      let o ← obj ig
      let g ← PyS.get fun h => h.grid o
      let s ← PyS.lift (pyFor (List.range n)
        (⟨g, s.coarseTriangle, s.coarseBary, s.coarseEdge, s.coarseEdgeCoords⟩ : RefState K)
        (refineCoarseEdges n hc vc dc ch cv cd tv))
      return ⟨s.coarseTriangle, s.coarseBary, s.coarseEdge, s.coarseEdgeCoords⟩

/-- the intermediate grid (domain.py:640-648): copies of some lists of the coarse grid -/
def newIntermediate [Field K] [PySqrt K] (cg : Grid K) : PyS (Heap K) Addr := do
  let vertices ← newInts cg.vertices
  let edges ← newPairs []
  let triangles ← newTris []
  let bv ← newInts cg.boundary.vertices
  let be ← newPairs []
  let dv ← newInts cg.dirichlet.vertices
  let de ← newPairs []
  let nv ← newInts cg.neumann.vertices
  let ne ← newPairs []
  let points ← newPoints cg.points
  newGrid ⟨vertices, edges, triangles, ⟨bv, be⟩, ⟨dv, de⟩, ⟨nv, ne⟩, points, none⟩

/-- `RectangleDomain.refine` (domain.py:634-680) -/
def refine [Field K] [LinearOrder K] [PySqrt K] (coarse : Addr) (factor : ℤ) : PyS (Heap K) (RefinedObj K) :=
  if factor < 1 then PyS.raise .valueError
  else do
    let c ← obj coarse
    let cg ← PyS.get fun h => h.grid c
    let ig ← newIntermediate cg
    let maps ← forLoop cg.triangles (⟨PyDict.empty, PyDict.empty, PyDict.empty, PyDict.empty⟩ : RefMaps K)
      (refineTriangle coarse ig factor.toNat)
    let o ← obj ig
    let r ← newGrid o
    return ⟨r, coarse, maps⟩

end Heap

end Tve
