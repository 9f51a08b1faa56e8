import Verif.Model.Integrators
import Verif.Spec.Quadrature
import Mathlib.MeasureTheory.Measure.Lebesgue.Basic

/-!
# Specification vocabulary for planar geometry

Independent of the model's algorithms: points, signed areas and closed triangles of the plane `ℝ × ℝ`.
-/

namespace Tve
open MeasureTheory

/-- The Python vector of a point of the plane. -/
def vec2 (q : ℝ × ℝ) : Vec ℝ := ⟨[q.1, q.2]⟩

/-- The Python list of the `n` points `P 0, …, P (n-1)`. -/
noncomputable def planar (n : ℕ) (P : ℕ → ℝ × ℝ) : List (Vec ℝ) := (List.range n).map (fun i => vec2 (P i))

/-- All three vertex ids are smaller than `n`. -/
def Tri.Valid (n : ℕ) (t : Tri) : Prop := t.1 < n ∧ t.2.1 < n ∧ t.2.2 < n

/-- Twice the signed area of the triangle `p q r`. -/
def cross (p q r : ℝ × ℝ) : ℝ := (q.1 - p.1) * (r.2 - p.2) - (q.2 - p.2) * (r.1 - p.1)

/-- Area of a triangle given by vertex ids. -/
noncomputable def triArea (P : ℕ → ℝ × ℝ) (t : Tri) : ℝ := |cross (P t.1) (P t.2.1) (P t.2.2)| / 2

/-- The point with barycentric weights `a b c`. -/
def baryPoint (p q r : ℝ × ℝ) (a b c : ℝ) : ℝ × ℝ := a • p + b • q + c • r

/-- The closed triangle spanned by three points. -/
def closedTriangle (p q r : ℝ × ℝ) : Set (ℝ × ℝ) :=
  {z | ∃ a b c : ℝ, 0 ≤ a ∧ 0 ≤ b ∧ 0 ≤ c ∧ a + b + c = 1 ∧ z = baryPoint p q r a b c}

/-- The Euclidean length of the edge between two vertices. -/
noncomputable def edgeLen (P : ℕ → ℝ × ℝ) (e : Edge) : ℝ :=
  Real.sqrt (((P e.1).1 - (P e.2).1) ^ 2 + ((P e.1).2 - (P e.2).2) ^ 2)

end Tve
