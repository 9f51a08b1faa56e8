import Verif.Spec.Thermal
import Verif.Spec.Grid

/-!
# Specification vocabulary: similarities of the plane
-/

namespace Tve

/-- a similarity of the plane: exchange the axes if `swap`, multiply by `κ` (for `κ < 0` this turns by half a turn), and move the
origin to `c` -/
structure Similarity where
  κ : ℝ
  swap : Bool
  c : ℝ × ℝ

namespace Similarity

/-- exchange the coordinates of a direction if `swap` -/
def dir (T : Similarity) (z : ℝ × ℝ) : ℝ × ℝ := if T.swap then (z.2, z.1) else z

/-- the image of a point -/
def map (T : Similarity) (z : ℝ × ℝ) : ℝ × ℝ := (T.κ * (T.dir z).1 + T.c.1, T.κ * (T.dir z).2 + T.c.2)

/-- the image of a triangle; exchanging the axes reverses its orientation -/
def tri (T : Similarity) (σ : Vertex → Vertex) (t : Tri) : Tri :=
  if T.swap then (σ t.2.2, σ t.2.1, σ t.1) else (σ t.1, σ t.2.1, σ t.2.2)

/-- magnification by `κ` -/
def magnify (κ : ℝ) : Similarity := ⟨κ, false, (0, 0)⟩

/-- half a turn of the rectangle `[0, w] × [0, h]` -/
def turn (w h : ℝ) : Similarity := ⟨-1, false, (w, h)⟩

/-- exchange of the axes -/
def exchange : Similarity := ⟨1, true, (0, 0)⟩

end Similarity

/-- the triangulation of `g'` is the image of the triangulation of `g`: the vertex `σ v` of `g'` lies at the image of the vertex `v`
of `g`, and three vertices form a triangle if and only if their images do -/
structure Grid.MeshImage (T : Similarity) (σ : Vertex → Vertex) (g g' : Grid ℝ) : Prop where
  count : g'.points.length = g.points.length
  point : ∀ v q, g.At v q → g'.At (σ v) (T.map q)
  triangles : ∀ a ∈ g.vertices, ∀ b ∈ g.vertices, ∀ c ∈ g.vertices, (a, b, c) ∈ g.triangles ↔ T.tri σ (a, b, c) ∈ g'.triangles

/-- `g'` is the image of the grid `g`: the triangulation is, and the vertices `v, w` form a boundary edge, a Dirichlet edge or a
Neumann edge, or are fixed, if and only if their images do or are -/
structure Grid.Image (T : Similarity) (σ : Vertex → Vertex) (g g' : Grid ℝ) : Prop extends Grid.MeshImage T σ g g' where
  boundary : ∀ v ∈ g.vertices, ∀ w ∈ g.vertices,
    s(v, w) ∈ g.boundary.edges.map Edge.undirected ↔ s(σ v, σ w) ∈ g'.boundary.edges.map Edge.undirected
  dirichlet : ∀ v ∈ g.vertices, ∀ w ∈ g.vertices,
    s(v, w) ∈ g.dirichlet.edges.map Edge.undirected ↔ s(σ v, σ w) ∈ g'.dirichlet.edges.map Edge.undirected
  neumann : ∀ v ∈ g.vertices, ∀ w ∈ g.vertices,
    s(v, w) ∈ g.neumann.edges.map Edge.undirected ↔ s(σ v, σ w) ∈ g'.neumann.edges.map Edge.undirected
  neumannVertices : ∀ v ∈ g.vertices, v ∈ g.neumann.vertices ↔ σ v ∈ g'.neumann.vertices
  dirichletVertices : ∀ v ∈ g.vertices, v ∈ g.dirichlet.vertices ↔ σ v ∈ g'.dirichlet.vertices

/-- the side on which the opposite side lies after half a turn -/
def FixOption.turned : FixOption → FixOption
  | .lower => .upper
  | .upper => .lower
  | .left => .right
  | .right => .left
  | .unknown s => .unknown s

/-- the side after an exchange of the axes -/
def FixOption.exchanged : FixOption → FixOption
  | .lower => .left
  | .left => .lower
  | .upper => .right
  | .right => .upper
  | .unknown s => .unknown s

/-- the deformation `y'` (an array returned by `y()` without regularization) is the image of the deformation `y` of a
grid with `n` vertices -/
def NdArray.ImageDeformation (T : Similarity) (σ : Vertex → Vertex) (n : ℕ) (y y' : NdArray) : Prop :=
  y.Has [n, 2] ∧ y'.Has [n, 2] ∧ ∀ v < n, y'.deformed (σ v) = T.map (y.deformed v)

/-- the deformation `y'` (an array returned by `y()` with regularization) is the image of the deformation `y` of a grid with `n`
vertices under a similarity that does not exchange the axes: the first derivatives at the images of the vertices are the same, the
second derivatives are divided by `κ` -/
def NdArray.ImageDeformationC1 (T : Similarity) (σ : Vertex → Vertex) (n : ℕ) (y y' : NdArray) : Prop :=
  y.Has [n, 2, 6] ∧ y'.Has [n, 2, 6] ∧ ∀ v < n, y'.deformed (σ v) = T.map (y.deformed v) ∧
    ∀ i < 2, (∀ j ∈ [1, 2], y'.at3 2 6 (σ v) i j = y.at3 2 6 v i j) ∧ ∀ j ∈ [3, 4, 5], y'.at3 2 6 (σ v) i j = y.at3 2 6 v i j / T.κ

/-- the temperature `θ'` has the same values at the images of the vertices -/
def NdArray.ImageTemperature (σ : Vertex → Vertex) (n : ℕ) (θ θ' : NdArray) : Prop :=
  θ.Has [n] ∧ θ'.Has [n] ∧ ∀ v < n, θ'.data.getD (σ v) 0 = θ.data.getD v 0

/-- the traction `traction'` at the image of a point is the traction there, turned and with exchanged axes like the body -/
def Traction.Image (T : Similarity) (traction traction' : Traction) : Prop :=
  ∀ t q, ∃ f : ℝ × ℝ, traction t q.1 q.2 = .ok [f.1, f.2] ∧
    traction' t (T.map q).1 (T.map q).2 = .ok [SignType.sign T.κ * (T.dir f).1, SignType.sign T.κ * (T.dir f).2]

/-- numpy's `leggauss(1)`: the midpoint rule -/
def LegMidpoint (leg : LegGauss) : Prop := leg 1 = .ok ([0], [2])

end Tve
