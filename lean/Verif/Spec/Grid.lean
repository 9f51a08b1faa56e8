import Verif.Model.Domain
import Verif.Spec.Geometry
import Mathlib.Data.Sym.Sym2

/-!
# Specification vocabulary for grids

Statements about grids are made through the public attributes `vertices`, `edges`, `triangles`, `points`,
`boundary`, `dirichlet`, `neumann` only.
-/

namespace Tve

/-- an edge without its orientation -/
def Edge.undirected (e : Edge) : Sym2 Vertex := s(e.1, e.2)

/-- the set of vertices of a triangle -/
def Tri.vertexSet (t : Tri) : Finset Vertex := {t.1, t.2.1, t.2.2}

/-- the three sides of a triangle -/
def Tri.sides (t : Tri) : List (Sym2 Vertex) := [s(t.1, t.2.1), s(t.2.1, t.2.2), s(t.2.2, t.1)]

/-- vertex `v` of the grid lies at the point `q` of the plane -/
def Grid.At (g : Grid ℝ) (v : Vertex) (q : ℝ × ℝ) : Prop := g.points[v]? = some (vec2 q)

/-- the grid has integer vertex ids `0, …, N-1`, one planar point per vertex, and only refers to its vertices -/
structure Grid.WellFormed (g : Grid ℝ) : Prop where
  vertices : g.vertices = List.range g.points.length
  planar : ∀ v < g.points.length, ∃ q, g.At v q
  edges : ∀ e ∈ g.edges, e.1 ∈ g.vertices ∧ e.2 ∈ g.vertices
  triangles : ∀ t ∈ g.triangles, t.1 ∈ g.vertices ∧ t.2.1 ∈ g.vertices ∧ t.2.2 ∈ g.vertices
  boundary : (∀ v ∈ g.boundary.vertices, v ∈ g.vertices) ∧ ∀ e ∈ g.boundary.edges, e ∈ g.edges
  dirichlet : (∀ v ∈ g.dirichlet.vertices, v ∈ g.vertices) ∧ ∀ e ∈ g.dirichlet.edges, e ∈ g.edges
  neumann : (∀ v ∈ g.neumann.vertices, v ∈ g.vertices) ∧ ∀ e ∈ g.neumann.edges, e ∈ g.edges

/-- the coordinates of a vertex -/
noncomputable def Grid.xy (g : Grid ℝ) (v : Vertex) : ℝ × ℝ :=
  match g.points[v]? with
  | some ⟨[x, y]⟩ => (x, y)
  | _ => (0, 0)

/-- the average Euclidean length of the edges -/
noncomputable def Grid.meanLength (g : Grid ℝ) : ℝ := (g.edges.map (edgeLen g.xy)).sum / (g.edges.length : ℝ)

/-- Euclidean distance in the plane -/
noncomputable def dist2 (p q : ℝ × ℝ) : ℝ := Real.sqrt ((p.1 - q.1) ^ 2 + (p.2 - q.2) ^ 2)

/-- the vertex is an endpoint of one of the edges -/
def IsEndpoint (v : Vertex) (es : List Edge) : Prop := ∃ e ∈ es, v = e.1 ∨ v = e.2

/-- Number of grid cells of size `s` along a side of length `w`; `RectangleDomain(w, h).grid(s)` has
`int(w / s) + 1 = cells w s + 1` vertices per row. -/
noncomputable def cells (w s : ℝ) : ℕ := ⌊w / s⌋₊

/-- a point lies on the given side of the rectangle `[0, w] × [0, h]` -/
def OnSide (w h : ℝ) : FixOption → ℝ × ℝ → Prop
  | .lower, q => q.2 = 0
  | .right, q => q.1 = w
  | .upper, q => q.2 = h
  | .left, q => q.1 = 0
  | .unknown _, _ => False

/-- the options listed by a `fix` argument -/
def Fix.options : Fix → List FixOption
  | .none => []
  | .one f => [f]
  | .many fs => fs

/-- the closed triangle of a grid triangle -/
def Grid.region (g : Grid ℝ) (t : Tri) : Set (ℝ × ℝ) :=
  {z | ∃ p q r, g.At t.1 p ∧ g.At t.2.1 q ∧ g.At t.2.2 r ∧ z ∈ closedTriangle p q r}

end Tve
