import Verif.Model.Refine
import Verif.Spec.Grid

/-!
# What it means that a double precision run agrees with the exact run
-/

namespace Tve

/-- the two grids have the same vertex numbers, edges, triangles and boundaries -/
structure SameCells {K K' : Type} (g : Grid K) (f : Grid K') : Prop where
  vertices : f.vertices = g.vertices
  edges : f.edges = g.edges
  triangles : f.triangles = g.triangles
  boundary : f.boundary = g.boundary
  dirichlet : f.dirichlet = g.dirichlet
  neumann : f.neumann = g.neumann

/-- the points of the second grid are those of the first, up to `δ` in each coordinate -/
def NearPoints (δ : ℝ) (g : Grid ℝ) (f : Grid ℚ) : Prop :=
  List.Forall₂ (fun p q => ∃ x y : ℝ, ∃ x' y' : ℚ, p = ⟨[x, y]⟩ ∧ q = ⟨[x', y']⟩ ∧ |x' - x| ≤ δ ∧ |y' - y| ≤ δ)
    g.points f.points

/-- dictionaries with the same keys in the same order and related values -/
def SameKeys {κ α β : Type} (r : α → β → Prop) (d : PyDict κ α) (d' : PyDict κ β) : Prop :=
  List.Forall₂ (fun x y => y.1 = x.1 ∧ r x.2 y.2) d.items d'.items

/-- a weight up to `8 · 2⁻⁵³` -/
def WNear (x : ℝ) (y : ℚ) : Prop := |(y : ℝ) - x| ≤ 8 / 2 ^ 53

/-- barycentric coordinates up to `8 · 2⁻⁵³` -/
def BNear (b : Bary ℝ) (c : Bary ℚ) : Prop := WNear b.l1 c.l1 ∧ WNear b.l2 c.l2 ∧ WNear b.l3 c.l3

/-- three barycentric coordinates up to `8 · 2⁻⁵³` -/
def TNear (p : Bary ℝ × Bary ℝ × Bary ℝ) (q : Bary ℚ × Bary ℚ × Bary ℚ) : Prop :=
  BNear p.1 q.1 ∧ BNear p.2.1 q.2.1 ∧ BNear p.2.2 q.2.2

/-- edge coordinates up to `8 · 2⁻⁵³` -/
def PNear (p : ℝ × ℝ) (q : ℚ × ℚ) : Prop := WNear p.1 q.1 ∧ WNear p.2 q.2

/-- the two refined grids have the same cells and the same maps to the coarse grid; their points agree up to `δ`, and the
coordinates in the coarse grid up to `8 · 2⁻⁵³` -/
structure SameRefinement (δ : ℝ) (r : RefinedGrid ℝ) (f : RefinedGrid ℚ) : Prop where
  cells : SameCells r.toGrid f.toGrid
  points : NearPoints δ r.toGrid f.toGrid
  coarseCells : SameCells r.coarseGrid f.coarseGrid
  coarseTriangle : f.coarseTriangle = r.coarseTriangle
  coarseEdge : f.coarseEdge = r.coarseEdge
  coarseBary : SameKeys TNear r.coarseBary f.coarseBary
  coarseEdgeCoords : SameKeys PNear r.coarseEdgeCoords f.coarseEdgeCoords

end Tve
