import Verif.Model.Refine
import Verif.Model.PyReal
import Verif.Spec.Grid
import Mathlib.Data.List.Cycle
import Mathlib.Data.Set.Function

/-!
# Specification vocabulary: the grids a user can obtain from the library
-/

namespace Tve

/-- `LibraryGrid g nx ny s`: the grid `g` was obtained from `RectangleDomain.grid(scale)` with a scale that fits into
both sides of the rectangle, followed by any number of calls of `refine` with factors `n ≥ 1`; it has `nx × ny`
square cells of side `s`. Only refinements to cells of side at least `1e-15` are allowed: this is the absolute
tolerance with which `refine` identifies points. -/
inductive LibraryGrid : Grid ℝ → ℕ → ℕ → ℝ → Prop
  | grid {it : SetIter} {d : RectDomain ℝ} {s : ℝ} {g : Grid ℝ} (hs : 0 < s) (hw : s ≤ d.width) (hh : s ≤ d.height)
      (hg : d.grid it s = .ok g) : LibraryGrid g (cells d.width s) (cells d.height s) s
  | refine {d : RectDomain ℝ} {g : Grid ℝ} {nx ny : ℕ} {s : ℝ} {n : ℕ} {r : RefinedGrid ℝ}
      (hg : LibraryGrid g nx ny s) (hn : 1 ≤ n) (hs : 1 / 10 ^ 15 ≤ s / n) (hr : d.refine g n = .ok r) :
      LibraryGrid r.toGrid (n * nx) (n * ny) (s / n)

/-- Points closer than this are identified by `point_to_vertex`: the mean edge length divided by `1e7`
(`1e-15` for a grid without edges). -/
noncomputable def Grid.pointTol (g : Grid ℝ) : ℝ := if g.edges = [] then 1 / 10 ^ 15 else g.meanLength / 10 ^ 7

/-- the stored mean edge length is the mean edge length -/
def Grid.MeanExact (g : Grid ℝ) : Prop := g.meanEdgeLength = if g.edges = [] then none else some g.meanLength

/-- a triangle up to rotation -/
def Tri.cycle (t : Tri) : Cycle Vertex := ([t.1, t.2.1, t.2.2] : List Vertex)

/-- an edge with renamed vertices, without orientation -/
def Edge.rename (σ : Vertex → Vertex) (e : Edge) : Sym2 Vertex := s(σ e.1, σ e.2)

/-- a triangle with renamed vertices, up to rotation -/
def Tri.rename (σ : Vertex → Vertex) (t : Tri) : Cycle Vertex := Tri.cycle (σ t.1, σ t.2.1, σ t.2.2)

/-- `b'` is `b` after renaming vertices by `σ`, up to order and up to the orientation of edges -/
def Boundary.Renames (σ : Vertex → Vertex) (b b' : Boundary) : Prop :=
  (b'.vertices.map σ).Perm b.vertices ∧ (b'.edges.map (Edge.rename σ)).Perm (b.edges.map Edge.undirected)

/-- `g'` is the mesh `g` with its vertices renumbered by `σ`: corresponding vertices are closer than the tolerance, and
edges, triangles and boundaries agree up to order, reversal of edges and rotation of triangles. -/
structure SameMesh (g g' : Grid ℝ) (σ : Vertex → Vertex) : Prop where
  size : g'.points.length = g.points.length
  bij : Set.BijOn σ {v | v < g'.points.length} {v | v < g.points.length}
  close : ∀ v q q', g'.At v q' → g.At (σ v) q → dist2 q' q < g.pointTol
  edges : (g'.edges.map (Edge.rename σ)).Perm (g.edges.map Edge.undirected)
  triangles : (g'.triangles.map (Tri.rename σ)).Perm (g.triangles.map Tri.cycle)
  boundary : Boundary.Renames σ g.boundary g'.boundary
  dirichlet : Boundary.Renames σ g.dirichlet g'.dirichlet
  neumann : Boundary.Renames σ g.neumann g'.neumann

/-- nothing is listed twice -/
structure Grid.Simple (g : Grid ℝ) : Prop where
  edges : (g.edges.map Edge.undirected).Nodup
  triangles : (g.triangles.map Tri.cycle).Nodup
  boundary : (g.boundary.edges.map Edge.undirected).Nodup
  dirichlet : (g.dirichlet.edges.map Edge.undirected).Nodup
  neumann : (g.neumann.edges.map Edge.undirected).Nodup

/-- different vertices are at least `δ` apart -/
def Grid.Separated (g : Grid ℝ) (δ : ℝ) : Prop :=
  ∀ v v' q q', g.At v q → g.At v' q' → v ≠ v' → δ ≤ dist2 q q'

/-- the point with parameter `t` on the edge from `p` to `q`: `t = 1` at `p`, `t = 0` at `q` -/
def edgePoint (p q : ℝ × ℝ) (t : ℝ) : ℝ × ℝ := t • p + (1 - t) • q

/-- the segment between two points -/
def onSegment (p q z : ℝ × ℝ) : Prop := ∃ t, 0 ≤ t ∧ t ≤ 1 ∧ z = edgePoint p q t

/-- an edge of the fine grid lies on an edge of the coarse grid -/
def OnCoarseEdge (g fine : Grid ℝ) (e : Edge) : Prop :=
  ∃ c ∈ g.edges, onSegment (g.xy c.1) (g.xy c.2) (fine.xy e.1) ∧ onSegment (g.xy c.1) (g.xy c.2) (fine.xy e.2)

/-- horizontal or vertical -/
def AxisParallel (g : Grid ℝ) (e : Edge) : Prop := (g.xy e.1).1 = (g.xy e.2).1 ∨ (g.xy e.1).2 = (g.xy e.2).2

/-- `fine` is one of the `n` edges into which `e` is divided, with the orientation of `e` -/
def IsPiece (n : ℕ) (g : Grid ℝ) (e : Edge) (fine : Grid ℝ) (f : Edge) : Prop :=
  ∃ k < n, fine.At f.1 (edgePoint (g.xy e.1) (g.xy e.2) (1 - k / n)) ∧
    fine.At f.2 (edgePoint (g.xy e.1) (g.xy e.2) (1 - (k + 1) / n))

/-- `v` is one of the `n - 1` inner subdivision points of `e` -/
def IsInnerPoint (n : ℕ) (g : Grid ℝ) (e : Edge) (fine : Grid ℝ) (v : Vertex) : Prop :=
  ∃ k, 1 ≤ k ∧ k < n ∧ fine.At v (edgePoint (g.xy e.1) (g.xy e.2) (1 - (k : ℕ) / n))

/-- The boundary `b'` of the fine grid is the `n`-fold subdivision of the boundary `b`: its edges are exactly the pieces
of the edges of `b`, each listed once and among the edges of the grid; its vertices are the vertices of `b` and the inner
subdivision points of the edges of `b`. -/
structure Subdivided (n : ℕ) (g : Grid ℝ) (b : Boundary) (fine : Grid ℝ) (b' : Boundary) : Prop where
  edges : ∀ f, f ∈ b'.edges ↔ ∃ e ∈ b.edges, IsPiece n g e fine f
  nodup_edges : b'.edges.Nodup
  num_edges : b'.edges.length = n * b.edges.length
  sub_edges : ∀ f ∈ b'.edges, f ∈ fine.edges
  vertices : ∀ v, v ∈ b'.vertices ↔ v ∈ b.vertices ∨ ∃ e ∈ b.edges, IsInnerPoint n g e fine v
  nodup_vertices : b'.vertices.Nodup

end Tve
