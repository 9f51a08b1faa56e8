import Verif.Model.Bell
import Verif.Spec.Geometry
import Mathlib.Analysis.Calculus.FDeriv.Linear

/-!
# Specification vocabulary for the Bell element

Triangles are three points of the plane, barycentric coordinates three weights, parameters six nodal values per vertex.
-/

namespace Tve

/-- The Python tuple of the vertices of a triangle. -/
def tvOf (P : Fin 3 → ℝ × ℝ) : Bell.TriVerts := (vec2 (P 0), vec2 (P 1), vec2 (P 2))

/-- The Python barycentric coordinates with the given weights. -/
def baryOf (L : Fin 3 → ℝ) : Bary ℝ := ⟨L 0, L 1, L 2⟩

/-- The Python vector of the 18 parameters, given six nodal values for each vertex. -/
def parOf (p : Fin 3 → Fin 6 → ℝ) : Vec ℝ := ⟨List.ofFn (p 0) ++ List.ofFn (p 1) ++ List.ofFn (p 2)⟩

/-- The triangle is not degenerate. -/
def Nondegenerate (P : Fin 3 → ℝ × ℝ) : Prop := cross (P 0) (P 1) (P 2) ≠ 0

/-- The point of the plane with barycentric weights `L`. -/
def pointOf (P : Fin 3 → ℝ × ℝ) (L : Fin 3 → ℝ) : ℝ × ℝ := baryPoint (P 0) (P 1) (P 2) (L 0) (L 1) (L 2)

/-- The linear functional `(x, y) ↦ gx * x + gy * y`: a total derivative with partial derivatives `gx` and `gy`. -/
noncomputable def lin (gx gy : ℝ) : ℝ × ℝ →L[ℝ] ℝ :=
  gx • ContinuousLinearMap.fst ℝ ℝ ℝ + gy • ContinuousLinearMap.snd ℝ ℝ ℝ

end Tve
