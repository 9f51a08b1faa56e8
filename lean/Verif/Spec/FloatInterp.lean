import Verif.Model.FloatInterp
import Verif.Spec.FloatIntegrators
import Verif.Spec.Interpolation
import Verif.Props.Rounding

/-!
# Specification vocabulary for piecewise affine interpolation in double precision
-/

namespace Tve

/-- the Python list of the values `u 0 … u (n-1)` -/
def floatValues (n : ℕ) (u : ℕ → ℚ) : List ℚ := (List.range n).map u

/-- `g` is the gradient of the affine function that takes the values `f` at the three points `p` -/
def IsGradient (p : Fin 3 → ℚ × ℚ) (f : Fin 3 → ℚ) (g : Fin 2 → ℚ) : Prop :=
  ∀ i j, f i - f j = g 0 * ((p i).1 - (p j).1) + g 1 * ((p i).2 - (p j).2)

/-- twice the signed area of a triangle -/
def signedArea2 (p : Fin 3 → ℚ × ℚ) : ℚ :=
  ((p 1).1 - (p 0).1) * ((p 2).2 - (p 0).2) - ((p 1).2 - (p 0).2) * ((p 2).1 - (p 0).1)

/-- the three corners of a triangle -/
def Tri.of {α : Type} (u : ℕ → α) (t : Tri) : Fin 3 → α := fun i => u (t.get i)

/-- the exact position of vertex number `v` of a grid with `nx` cells of size `s` per row -/
def gridPosition (nx : ℕ) (s : ℚ) (v : Vertex) : ℚ × ℚ := ((v % (nx + 1) : ℕ) * s, (v / (nx + 1) : ℕ) * s)

/-- the list of the `i`-th coordinates of the points of a grid -/
def Grid.coordinates (g : Grid ℚ) (i : ℕ) : List ℚ := g.points.map fun p => p.data.getD i 0

/-- opposite doubles that follow each other cancel in sums of three numbers -/
def F64.Cancels (S : F64.Summation) : Prop := ∀ x, IsDouble x → S [x, -x, 0] = 0 ∧ S [0, x, -x] = 0

end Tve
