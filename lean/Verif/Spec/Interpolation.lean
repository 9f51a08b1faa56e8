import Verif.Model.Interpolation
import Verif.Spec.Grid
import Verif.Spec.Bell
import Verif.Spec.Refine

/-!
# Specification vocabulary for interpolations
-/

namespace Tve

/-- the `k`-th vertex of a triangle -/
def Tri.get (t : Tri) : Fin 3 → Vertex := ![t.1, t.2.1, t.2.2]

/-- the positions of the vertices of a triangle of a grid -/
noncomputable def Grid.corners (g : Grid ℝ) (t : Tri) : Fin 3 → ℝ × ℝ := fun k => g.xy (t.get k)

/-- the point of the plane with barycentric coordinates `c` in the triangle `t` of a grid -/
noncomputable def Grid.pointAt (g : Grid ℝ) (t : Tri) (c : Bary ℝ) : ℝ × ℝ :=
  baryPoint (g.xy t.1) (g.xy t.2.1) (g.xy t.2.2) c.l1 c.l2 c.l3

/-- the three coordinates sum to one -/
def Bary.Normalized (c : Bary ℝ) : Prop := c.l1 + c.l2 + c.l3 = 1

/-- the coordinates of a point of the closed triangle -/
def Bary.Inside (c : Bary ℝ) : Prop := c.Normalized ∧ 0 ≤ c.l1 ∧ 0 ≤ c.l2 ∧ 0 ≤ c.l3

/-- barycentric coordinates of the `k`-th vertex -/
def vertexCoords (k : Fin 3) : Bary ℝ := baryOf fun i => if i = k then 1 else 0

/-- barycentric coordinates of the point with parameter `s` on the edge from the `i`-th to the `j`-th vertex -/
def edgeCoords (i j : Fin 3) (s : ℝ) : Bary ℝ := baryOf fun k => if k = i then s else if k = j then 1 - s else 0

/-- the `k`-th entry of the `v`-th parameter of a `C1Interpolation` -/
noncomputable def nodeParam (params : List (List ℝ)) (v : Vertex) (k : Fin 6) : ℝ := (params.getD v []).getD k 0

end Tve
