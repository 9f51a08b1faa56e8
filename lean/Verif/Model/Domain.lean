import Verif.Model.Integrators
import Mathlib.Algebra.Order.Floor.Defs
import Mathlib.Data.List.Sort

/-!
# Model of `src/tvemoves_rufbad/domain.py`

Floats are elements of an ordered field `K`. Plotting (`plot`, `_plot_vertices`, `_plot_edges`, `_adjust_xlim`,
`_adjust_ylim`) is modelled in `Model/Plot.lean`. Mutation of a grid is state passing; that this is justified (no list is shared between grids)
is proved in `Props/Storage.lean` about the model with objects in memory of `Model/Storage.lean`.
-/

namespace Tve

variable {K : Type}

/-- `class BarycentricPoint` (domain.py:25-30) -/
structure BPoint (K : Type) where
  triangle : Tri
  coordinates : Bary K
  deriving DecidableEq

/-- `class Boundary` (domain.py:36-41) -/
structure Boundary where
  vertices : List Vertex
  edges : List Edge
  deriving DecidableEq

/-- the constant `1e-10` of `_triangle_contains_point` (domain.py:51) -/
def containsEps [Field K] : K := 1 / 10 ^ 10

/-- `_sign` (domain.py:44-46) -/
def signOf [Field K] (p1 p2 p3 : Vec K) : PyM K := do
  let x1 ← p1.getItem 0
  let y1 ← p1.getItem 1
  let x2 ← p2.getItem 0
  let y2 ← p2.getItem 1
  let x3 ← p3.getItem 0
  let y3 ← p3.getItem 1
  return (x1 - x3) * (y2 - y3) - (x2 - x3) * (y1 - y3)

/-- `_triangle_contains_point` (domain.py:49-61) -/
def triangleContainsPoint [Field K] [LinearOrder K] (p1 p2 p3 p : Vec K) : PyM Bool := do
  let d1 ← signOf p p1 p2
  let d2 ← signOf p p2 p3
  let d3 ← signOf p p3 p1
  let hasNeg := d1 < -containsEps ∨ d2 < -containsEps ∨ d3 < -containsEps
  let hasPos := d1 > containsEps ∨ d2 > containsEps ∨ d3 > containsEps
  return !(decide hasNeg && decide hasPos)

/-- `_to_barycentric_coordinates` (domain.py:64-85) -/
def toBarycentricCoordinates [Field K] [DecidableEq K] (p1 p2 p3 p : Vec K) : PyM (Bary K) := do
  let v1 ← p2.sub p1
  let v2 ← p3.sub p1
  let v3 ← p.sub p1
  let d11 := v1.dot v1
  let d12 := v1.dot v2
  let d22 := v2.dot v2
  let d31 := v3.dot v1
  let d32 := v3.dot v2
  let denom := d11 * d22 - d12 * d12
  let v ← pyDiv (d22 * d31 - d12 * d32) denom
  let w ← pyDiv (d11 * d32 - d12 * d31) denom
  let u := 1 - v - w
  return Bary.new u v

/-- `class Grid` (domain.py:98-122): the attributes of a grid object. -/
structure Grid (K : Type) where
  vertices : List Vertex
  edges : List Edge
  triangles : List Tri
  boundary : Boundary
  dirichlet : Boundary
  neumann : Boundary
  points : List (Vec K)
  meanEdgeLength : Option K

/-- `(self.points[i1] - self.points[i2]).norm()` (domain.py:121) -/
def gridEdgeLength [Field K] [PySqrt K] (points : List (Vec K)) (e : Edge) : PyM K := do
  let p ← pyGet points e.1
  let q ← pyGet points e.2
  let d ← p.sub q
  return d.norm

/-- `Grid.__init__` (domain.py:101-122) -/
def Grid.new [Field K] [PySqrt K] (vertices : List Vertex) (edges : List Edge) (triangles : List Tri)
    (boundary dirichlet neumann : Boundary) (points : List (Vec K)) : PyM (Grid K) :=
  match edges with
  | [] => .ok ⟨vertices, edges, triangles, boundary, dirichlet, neumann, points, none⟩
  | _ :: _ => do
    let lengths ← pyMap edges (gridEdgeLength points)
    return ⟨vertices, edges, triangles, boundary, dirichlet, neumann, points,
      some (lengths.sum / (edges.length : K))⟩

namespace Grid

/-- the loop of `Grid.to_barycentric_point` (domain.py:133-138) -/
def locate [Field K] [LinearOrder K] (points : List (Vec K)) (p : Vec K) : List Tri → PyM (Option (BPoint K))
  | [] => .ok none
  | t :: ts => do
    let p1 ← pyGet points t.1
    let p2 ← pyGet points t.2.1
    let p3 ← pyGet points t.2.2
    let b ← triangleContainsPoint p1 p2 p3 p
    if b then do
      let c ← toBarycentricCoordinates p1 p2 p3 p
      return some ⟨t, c⟩
    else locate points p ts

/-- `Grid.to_barycentric_point` (domain.py:124-138) -/
def toBarycentricPoint [Field K] [LinearOrder K] (g : Grid K) (p : Vec K) : PyM (Option (BPoint K)) :=
  locate g.points p g.triangles

/-- `Grid.triangle_vertices` (domain.py:167-173) -/
def triangleVertices (g : Grid K) (t : Tri) : PyM (Vec K × Vec K × Vec K) :=
  if t ∉ g.triangles then .error .valueError
  else do
    let p1 ← pyGet g.points t.1
    let p2 ← pyGet g.points t.2.1
    let p3 ← pyGet g.points t.2.2
    return (p1, p2, p3)

/-- `Grid.edge_vertices` (domain.py:175-181) -/
def edgeVertices (g : Grid K) (e : Edge) : PyM (Vec K × Vec K) :=
  if e ∉ g.edges then .error .valueError
  else do
    let p1 ← pyGet g.points e.1
    let p2 ← pyGet g.points e.2
    return (p1, p2)

/-- the tolerance of `Grid._points_coincide` (domain.py:211) -/
def tolerance [Field K] (g : Grid K) : K :=
  match g.meanEdgeLength with
  | some m => m / 10 ^ 7
  | none => 1 / 10 ^ 15

/-- `Grid._points_coincide` (domain.py:210-212) -/
def pointsCoincide [Field K] [LinearOrder K] [PySqrt K] (g : Grid K) (p1 p2 : Vec K) : PyM Bool := do
  let d ← p1.sub p2
  return decide (d.norm < g.tolerance)

/-- the generator expression of `Grid.point_to_vertex` (domain.py:186-190): first index from `i` on whose point
coincides with `point` -/
def findPoint [Field K] [LinearOrder K] [PySqrt K] (g : Grid K) (point : Vec K) :
    List (Vec K) → ℕ → PyM (Option Vertex)
  | [], _ => .ok none
  | q :: qs, i => do
    let b ← g.pointsCoincide point q
    if b then return some i else findPoint g point qs (i + 1)

/-- `Grid.point_to_vertex` (domain.py:183-192) -/
def pointToVertex [Field K] [LinearOrder K] [PySqrt K] (g : Grid K) (point : Vec K) : PyM (Option Vertex) :=
  g.findPoint point g.points 0

/-- `Grid._contains_point` (domain.py:194-195) -/
def containsPoint [Field K] [LinearOrder K] [PySqrt K] (g : Grid K) (point : Vec K) : PyM Bool := do
  return (← g.pointToVertex point).isSome

/-- `Grid._contains_edge` (domain.py:197-198) -/
def containsEdge (g : Grid K) (e : Edge) : Bool := decide (e ∈ g.edges ∨ (e.2, e.1) ∈ g.edges)

/-- `Grid._contains_triangle` (domain.py:200-208) -/
def containsTriangle (g : Grid K) (t : Tri) : Bool :=
  decide (t ∈ g.triangles ∨ (t.2.1, t.2.2, t.1) ∈ g.triangles ∨ (t.2.2, t.1, t.2.1) ∈ g.triangles)

/-- `Grid.append_edge` (domain.py:214-227) -/
def appendEdge [Field K] [PySqrt K] (g : Grid K) (e : Edge) : PyM (Grid K) :=
  if e ∉ g.edges ∧ (e.2, e.1) ∉ g.edges then do
    let numOld : K := (g.edges.length : K)
    let newLength ← gridEdgeLength g.points e
    let mean := match g.meanEdgeLength with
      | none => newLength
      | some m => m * numOld / (numOld + 1) + newLength / (numOld + 1)
    return { g with edges := g.edges ++ [e], meanEdgeLength := some mean }
  else .ok g

end Grid

/-- `sorted(l)` for a list of ints (domain.py:234, 282) -/
def sortedNat (l : List ℕ) : List ℕ := l.mergeSort (fun a b => a ≤ b)

/-- `_boundaries_coincide` (domain.py:279-298) -/
def boundariesCoincide (b other : Boundary) (ren : PyDict Vertex Vertex) : PyM Bool := do
  let ovs ← pyMap other.vertices ren.get
  if sortedNat b.vertices ≠ sortedNat ovs then return false
  else if b.edges.length ≠ other.edges.length then return false
  else do
    let oes ← pyMap other.edges fun (i1, i2) => do
      let j1 ← ren.get i1
      let j2 ← ren.get i2
      return (j1, j2)
    return !(oes.any fun e => decide (e ∉ b.edges ∧ (e.2, e.1) ∉ b.edges))

/-- the loop building `other_to_self_vertex` (domain.py:239-244); `none` is the early `return False` -/
def Grid.renumbering [Field K] [LinearOrder K] [PySqrt K] (self : Grid K) :
    List (Vec K) → ℕ → PyDict Vertex Vertex → PyM (Option (PyDict Vertex Vertex))
  | [], _, d => .ok (some d)
  | p :: ps, i, d => do
    let v ← self.pointToVertex p
    match v with
    | none => return none
    | some v => Grid.renumbering self ps (i + 1) (d.set i v)

/-- `any(not f(x) for x in l)` with a body that may raise; stops at the first hit (domain.py:249, 257, 292) -/
def pyAnyNot {α : Type} (f : α → PyM Bool) : List α → PyM Bool
  | [] => .ok false
  | a :: t => do
    let b ← f a
    if b then pyAnyNot f t else return true

/-- `Grid.__eq__` (domain.py:229-276) for an `other` that is a `Grid` -/
def Grid.eq [Field K] [LinearOrder K] [PySqrt K] (self other : Grid K) : PyM Bool := do
  if sortedNat self.vertices ≠ sortedNat other.vertices then return false
  else if self.points.length ≠ other.points.length then return false
  else do
    let r ← self.renumbering other.points 0 PyDict.empty
    match r with
    | none => return false
    | some ren =>
      if self.edges.length ≠ other.edges.length then return false
      else do
        let b ← pyAnyNot (fun (e : Edge) => do
          let j1 ← ren.get e.1
          let j2 ← ren.get e.2
          return self.containsEdge (j1, j2)) other.edges
        if b then return false
        else if self.triangles.length ≠ other.triangles.length then return false
        else do
          let b ← pyAnyNot (fun (t : Tri) => do
            let j1 ← ren.get t.1
            let j2 ← ren.get t.2.1
            let j3 ← ren.get t.2.2
            return self.containsTriangle (j1, j2, j3)) other.triangles
          if b then return false
          else do
            let c ← boundariesCoincide self.boundary other.boundary ren
            if !c then return false
            else do
              let c ← boundariesCoincide self.dirichlet other.dirichlet ren
              if !c then return false
              else do
                let c ← boundariesCoincide self.neumann other.neumann ren
                if !c then return false else return true

/-! ### `RectangleDomain` -/

/-- `FixOption` (domain.py:404), plus any other string: `match` (domain.py:524-544) has no default case. -/
inductive FixOption
  | lower | right | upper | left
  | unknown (s : String)
  deriving DecidableEq

/-- the `fix` argument (domain.py:414) -/
inductive Fix
  | none
  | one (f : FixOption)
  | many (fs : List FixOption)
  deriving DecidableEq

/-- The iteration order of Python sets: at each use (`site`) some reordering of the elements. Every theorem
quantifies over it. (domain.py:472-553) -/
structure SetIter where
  vert : ℕ → List Vertex → List Vertex
  edge : ℕ → List Edge → List Edge
  fix : ℕ → List FixOption → List FixOption
  vert_perm : ∀ s l, (vert s l).Perm l
  edge_perm : ∀ s l, (edge s l).Perm l
  fix_perm : ∀ s l, (fix s l).Perm l

/-- `set(l)`: elements without repetition, here in order of first insertion (iteration goes through `SetIter`) (domain.py:472-522) -/
def pySet {α : Type} [DecidableEq α] (l : List α) : List α :=
  l.foldl (fun s a => if a ∈ s then s else s ++ [a]) []

/-- `s.update(l)`, `s.union(l)` on sets (domain.py:515-545) -/
def pySetUpdate {α : Type} [DecidableEq α] (s l : List α) : List α :=
  l.foldl (fun s a => if a ∈ s then s else s ++ [a]) s

/-- `s.difference_update(l)` (domain.py:529, 534, 539, 544) -/
def pySetDiff {α : Type} [DecidableEq α] (s l : List α) : List α := s.filter (fun a => decide (a ∉ l))

/-- `int(x)`: truncation towards zero (domain.py:426-427) -/
def pyInt [Ring K] [LinearOrder K] [FloorRing K] (x : K) : ℤ := if 0 ≤ x then ⌊x⌋ else ⌈x⌉

/-- the numbers of vertices per row and column (domain.py:426-427). As a natural number: faithful for
`width / scale > -2`, where `int(...) + 1` is not negative. -/
def numVertices [Field K] [LinearOrder K] [FloorRing K] (len scale : K) : PyM ℕ := do
  let q ← pyDiv len scale
  return (pyInt q + 1).toNat

namespace RectGrid

/-- `pair_to_vertex` (domain.py:429-431) -/
def pv (nh i j : ℕ) : Vertex := j * nh + i

/-- domain.py:433 -/
def vertices (nh nv : ℕ) : List Vertex := List.range (nh * nv)

/-- domain.py:435-439 -/
def horizontalEdges (nh nv : ℕ) : List Edge :=
  (List.range nv).flatMap fun j => (List.range (nh - 1)).map fun i => (pv nh i j, pv nh (i + 1) j)

/-- domain.py:440-444 -/
def verticalEdges (nh nv : ℕ) : List Edge :=
  (List.range nh).flatMap fun i => (List.range (nv - 1)).map fun j => (pv nh i j, pv nh i (j + 1))

/-- domain.py:445-449 -/
def diagonalEdges (nh nv : ℕ) : List Edge :=
  (List.range (nh - 1)).flatMap fun i => (List.range (nv - 1)).map fun j => (pv nh i j, pv nh (i + 1) (j + 1))

/-- domain.py:450 -/
def edges (nh nv : ℕ) : List Edge := horizontalEdges nh nv ++ verticalEdges nh nv ++ diagonalEdges nh nv

/-- domain.py:452-460 -/
def lowerTriangles (nh nv : ℕ) : List Tri :=
  (List.range (nh - 1)).flatMap fun i => (List.range (nv - 1)).map fun j =>
    (pv nh i j, pv nh (i + 1) j, pv nh (i + 1) (j + 1))

/-- domain.py:461-469 -/
def upperTriangles (nh nv : ℕ) : List Tri :=
  (List.range (nh - 1)).flatMap fun i => (List.range (nv - 1)).map fun j =>
    (pv nh (i + 1) (j + 1), pv nh i (j + 1), pv nh i j)

/-- domain.py:470 -/
def triangles (nh nv : ℕ) : List Tri := lowerTriangles nh nv ++ upperTriangles nh nv

/-- the boundary vertices of the four sides (domain.py:472, 477-479, 487-489, 497), before `set` -/
def sideVertices (nh nv : ℕ) : FixOption → List Vertex
  | .lower => (List.range nh).map fun i => pv nh i 0
  | .right => (List.range nv).map fun j => pv nh (nh - 1) j
  | .upper => (List.range nh).map fun i => pv nh i (nv - 1)
  | .left => (List.range nv).map fun j => pv nh 0 j
  | .unknown _ => []

/-- the boundary edges of the four sides (domain.py:473-476, 480-486, 490-496, 498-501) -/
def sideEdges (nh nv : ℕ) : FixOption → List Edge
  | .lower => (List.range (nh - 1)).map fun i => (pv nh i 0, pv nh (i + 1) 0)
  | .right => (List.range (nv - 1)).map fun j => (pv nh (nh - 1) j, pv nh (nh - 1) (j + 1))
  | .upper => (List.range (nh - 1)).map fun i => (pv nh i (nv - 1), pv nh (i + 1) (nv - 1))
  | .left => (List.range (nv - 1)).map fun j => (pv nh 0 j, pv nh 0 (j + 1))
  | .unknown _ => []

/-- `boundary_vertices` (domain.py:503-507) -/
def boundaryVertices (it : SetIter) (nh nv : ℕ) : List Vertex :=
  it.vert 0 (pySetUpdate (pySetUpdate (pySetUpdate (pySet (sideVertices nh nv .lower))
    (sideVertices nh nv .right)) (sideVertices nh nv .upper)) (sideVertices nh nv .left))

/-- `boundary_edges` (domain.py:508-510) -/
def boundaryEdges (nh nv : ℕ) : List Edge :=
  sideEdges nh nv .lower ++ sideEdges nh nv .right ++ sideEdges nh nv .upper ++ sideEdges nh nv .left

/-- The variables mutated by the `fix` loop (domain.py:514-516). -/
structure TagState where
  tags : PyDict Vertex ℤ
  dirichletEdges : List Edge
  neumannEdges : List Edge

/-- `for i in side: boundary_vertices_tags[i] -= 1` (domain.py:526-527 and the three copies) -/
def decrementTags (tags : PyDict Vertex ℤ) (side : List Vertex) : PyM (PyDict Vertex ℤ) :=
  pyFor side tags fun tags i => do
    let t ← tags.get i
    return tags.set i (t - 1)

/-- one case of the `match` (domain.py:525-544) -/
def fixSide (it : SetIter) (nh nv : ℕ) (s : TagState) (f : FixOption) : PyM TagState :=
  match f with
  | .unknown _ => .ok s
  | _ => do
    let tags ← decrementTags s.tags (it.vert 1 (pySet (sideVertices nh nv f)))
    return ⟨tags, pySetUpdate s.dirichletEdges (sideEdges nh nv f),
      pySetDiff s.neumannEdges (sideEdges nh nv f)⟩

/-- `fixes` (domain.py:518-522) -/
def fixes (it : SetIter) : Fix → List FixOption
  | .none => []
  | .one f => [f]
  | .many fs => it.fix 0 (pySet fs)

/-- the tags and edge sets after the `fix` loop (domain.py:514-544) -/
def tagState (it : SetIter) (nh nv : ℕ) (fix : Fix) : PyM TagState :=
  pyFor (fixes it fix)
    ⟨⟨(boundaryVertices it nh nv).map fun i => (i, 1)⟩, [], pySet (boundaryEdges nh nv)⟩
    (fixSide it nh nv)

/-- `neumann_vertices` (domain.py:546-549) -/
def neumannVertices (s : TagState) : List Vertex := (s.tags.items.filter fun kt => kt.2 ≥ 0).map (·.1)

/-- `dirichlet_vertices` (domain.py:545-551) -/
def dirichletVertices (s : TagState) : List Vertex := (s.tags.items.filter fun kt => kt.2 ≤ 0).map (·.1)

/-- `points` (domain.py:555-561) -/
def points [Field K] (nh nv : ℕ) (scale : K) : List (Vec K) :=
  (vertices nh nv).map fun v => ⟨[((v % nh : ℕ) : K) * scale, ((v / nh : ℕ) : K) * scale]⟩

end RectGrid

/-- `class RectangleDomain` (domain.py:407-418) -/
structure RectDomain (K : Type) where
  width : K
  height : K
  fix : Fix

open RectGrid in
/-- `RectangleDomain.grid` (domain.py:420-571) -/
def RectDomain.grid [Field K] [LinearOrder K] [FloorRing K] [PySqrt K] (it : SetIter) (d : RectDomain K)
    (scale : K) : PyM (Grid K) := do
  let nh ← numVertices d.width scale
  let nv ← numVertices d.height scale
  let s ← tagState it nh nv d.fix
  Grid.new (vertices nh nv) (edges nh nv) (triangles nh nv)
    ⟨boundaryVertices it nh nv, boundaryEdges nh nv⟩
    ⟨dirichletVertices s, it.edge 1 s.dirichletEdges⟩
    ⟨neumannVertices s, it.edge 2 s.neumannEdges⟩
    (points nh nv scale)

/-- `RectangleDomain.curves` (domain.py:573-614). The counts are natural numbers; `range` of a negative count is
empty in Python as well. -/
def RectDomain.curves [Field K] [DecidableEq K] (d : RectDomain K) (numPoints numHorizontal : ℕ)
    (numVertical : Option ℕ) : PyM (List (List (Vec K))) := do
  let numVertical := numVertical.getD numHorizontal
  let allH := numHorizontal + 2
  let allV := numVertical + 2
  let hs ← pyMap (List.range allH) fun j => pyMap (List.range numPoints) fun i => do
    let x ← pyDiv ((i : K) * d.width) ((numPoints : K) - 1)
    let y ← pyDiv ((j : K) * d.height) ((allH : K) - 1)
    return (⟨[x, y]⟩ : Vec K)
  let vs ← pyMap (List.range allV) fun j => pyMap (List.range numPoints) fun i => do
    let x ← pyDiv ((j : K) * d.width) ((allV : K) - 1)
    let y ← pyDiv ((i : K) * d.height) ((numPoints : K) - 1)
    return (⟨[x, y]⟩ : Vec K)
  return hs ++ vs

end Tve
