import Verif.Spec.BellPoly
import Mathlib.Algebra.Polynomial.Eval.Degree
import Mathlib.Data.Matrix.Mul
import Mathlib.LinearAlgebra.Matrix.Notation

/-!
# Specification vocabulary: the Bell element as described in the literature, and changes of the coordinate system
-/

namespace Tve
open MvPolynomial

/-- the derivative of the polynomial `q` in the direction perpendicular to the segment from `A` to `B` (scaled by its
length), at the point `A + t (B - A)` -/
noncomputable def normalDerivative (q : MvPolynomial (Fin 2) ℝ) (A B : ℝ × ℝ) (t : ℝ) : ℝ :=
  (A.2 - B.2) * polyAt (pderiv 0 q) (A + t • (B - A)) + (B.1 - A.1) * polyAt (pderiv 1 q) (A + t • (B - A))

/-- `q` is the Bell polynomial of the triangle with vertices `P` and nodal values `p`: its degree is at most five, its
values, first and second derivatives at the vertices are the prescribed ones, and the normal derivative along every edge
is a polynomial of degree at most three. -/
structure IsBell (P : Fin 3 → ℝ × ℝ) (p : Fin 3 → Fin 6 → ℝ) (q : MvPolynomial (Fin 2) ℝ) : Prop where
  degree : q.totalDegree ≤ 5
  vertices : ∀ m, nodal q (P m) = p m
  edges : ∀ i j, ∃ r : Polynomial ℝ, r.natDegree ≤ 3 ∧ ∀ t, normalDerivative q (P i) (P j) t = r.eval t

/-- the matrix of a similarity (rotation or reflection, combined with a magnification by the root of `k`) -/
def IsSimilarity (A : Matrix (Fin 2) (Fin 2) ℝ) : Prop := ∃ k : ℝ, k ≠ 0 ∧ A.transpose * A = k • (1 : Matrix (Fin 2) (Fin 2) ℝ)

/-- the affine map `z ↦ A z + c` of the plane -/
def affine (A : Matrix (Fin 2) (Fin 2) ℝ) (c : ℝ × ℝ) (z : ℝ × ℝ) : ℝ × ℝ :=
  (A 0 0 * z.1 + A 0 1 * z.2 + c.1, A 1 0 * z.1 + A 1 1 * z.2 + c.2)

/-- the nodal values of `u ∘ affine A c` at a point, given the nodal values of `u` at its image: the gradient of the
composition is `Aᵀ ∇u`, its Hessian is `Aᵀ (∇²u) A` -/
noncomputable def pullback (A : Matrix (Fin 2) (Fin 2) ℝ) (u : Fin 6 → ℝ) : Fin 6 → ℝ :=
  let g : Fin 2 → ℝ := A.transpose.mulVec ![u 1, u 2]
  let H : Matrix (Fin 2) (Fin 2) ℝ := A.transpose * !![u 3, u 4; u 4, u 5] * A
  ![u 0, g 0, g 1, H 0 0, H 0 1, H 1 1]

end Tve
