import Verif.Spec.BellPoly
import Verif.Spec.Interpolation
import Verif.Spec.Simulation

/-!
# Specification vocabulary: partial derivatives of higher order, nodal data of a function
-/

namespace Tve

/-- `D i j` is the partial derivative `∂ⁱ⁺ʲ / ∂xⁱ ∂yʲ` of the function `D 0 0` on `R`, for `i + j ≤ N` -/
def PartialsOn (D : ℕ → ℕ → ℝ × ℝ → ℝ) (N : ℕ) (R : Set (ℝ × ℝ)) : Prop :=
  ∀ i j, i + j < N → ∀ z ∈ R, HasFDerivAt (D i j) (lin (D (i + 1) j z) (D i (j + 1) z)) z

/-- the six parameters of a `C1Interpolation` at a vertex: value, first and second derivatives -/
def nodalData (D : ℕ → ℕ → ℝ × ℝ → ℝ) (q : ℝ × ℝ) : List ℝ := [D 0 0 q, D 1 0 q, D 0 1 q, D 2 0 q, D 1 1 q, D 0 2 q]

/-- `f` varies by at most `ω` on `R` between points whose coordinates differ by at most `s` -/
def Varies (f : ℝ × ℝ → ℝ) (R : Set (ℝ × ℝ)) (s ω : ℝ) : Prop :=
  ∀ z ∈ R, ∀ z' ∈ R, |z.1 - z'.1| ≤ s → |z.2 - z'.2| ≤ s → |f z - f z'| ≤ ω

/-- the gradient of the deformation with components `Y 0 0 0`, `Y 1 0 0`, where `Y k i j` are partial derivatives -/
def gradOf (Y : Fin 2 → ℕ → ℕ → ℝ × ℝ → ℝ) (z : ℝ × ℝ) : Matrix (Fin 2) (Fin 2) ℝ := !![Y 0 1 0 z, Y 0 0 1 z; Y 1 1 0 z, Y 1 0 1 z]

/-- the second derivatives of the deformation with components `Y 0 0 0`, `Y 1 0 0` -/
def hessOf (Y : Fin 2 → ℕ → ℕ → ℝ × ℝ → ℝ) (z : ℝ × ℝ) : Fin 2 → Fin 2 → Fin 2 → ℝ :=
  fun k => ![![Y k 2 0 z, Y k 1 1 z], ![Y k 1 1 z, Y k 0 2 z]]

/-- the array `y`, as returned by `y()` with regularization, holds the values and the first and second derivatives of the
deformation `Y` at the vertices of the grid -/
def NdArray.HoldsC1 (y : NdArray) (g : Grid ℝ) (Y : Fin 2 → ℕ → ℕ → ℝ × ℝ → ℝ) : Prop :=
  y.Has [g.vertices.length, 2, 6] ∧ ∀ k : Fin 2, ∃ u, y.block k = .ok u ∧ ∀ v q, g.At v q → u[v]? = some (nodalData (Y k) q)

end Tve
