import Verif.Lemmas.BellPoly
import Verif.Props.Bell

/-!
# Properties of the Bell element (C38, C40, C41)
-/

namespace Tve
open Bell MvPolynomial

/-! ### C38: reproduction of quartic polynomials -/

/-- C38: let `q` be a polynomial of degree at most 4 and take its values, first and second derivatives at the vertices
of a nondegenerate triangle as parameters. Then at every point (given by barycentric coordinates) the interpolation, its
gradient and its Hessian are those of `q`. -/
theorem C38_quartics (P : Fin 3 → ℝ × ℝ) (hP : Nondegenerate P) (q : MvPolynomial (Fin 2) ℝ) (hq : q.totalDegree ≤ 4)
    (L : Fin 3 → ℝ) (hL : L 0 + L 1 + L 2 = 1) :
    interpolation (tvOf P) (baryOf L) (parOf fun m => nodal q (P m)) = .ok (polyAt q (pointOf P L)) ∧
    interpolationGradient (tvOf P) (baryOf L) (parOf fun m => nodal q (P m)) =
      .ok (vecOf ![polyAt (pderiv 0 q) (pointOf P L), polyAt (pderiv 1 q) (pointOf P L)]) ∧
    interpolationHessian (tvOf P) (baryOf L) (parOf fun m => nodal q (P m)) =
      .ok (matOf !![polyAt (pderiv 0 (pderiv 0 q)) (pointOf P L), polyAt (pderiv 1 (pderiv 0 q)) (pointOf P L);
        polyAt (pderiv 0 (pderiv 1 q)) (pointOf P L), polyAt (pderiv 1 (pderiv 1 q)) (pointOf P L)]) := by
  obtain ⟨f, fx, fy, fxx, fxy, fyy, hf, hfx, hfy, hev⟩ := C39_derivatives P hP (fun m => nodal q (P m))
  have ef : f = polyAt q := by
    funext z
    have h1 := (hev (lam P z) (lam_sum hP z)).1
    rw [interpolation_eq hP, repr_all hP q hq _ (lam_sum hP z), pointOf_lam hP] at h1
    exact (Except.ok.inj h1).symm
  subst ef
  have e1 : fx = polyAt (pderiv 0 q) ∧ fy = polyAt (pderiv 1 q) := by
    constructor
    · funext z; exact (lin_inj ((hf z).unique (polyAt_deriv q z))).1
    · funext z; exact (lin_inj ((hf z).unique (polyAt_deriv q z))).2
  obtain ⟨rfl, rfl⟩ := e1
  have e2 : ∀ z, fxx z = polyAt (pderiv 0 (pderiv 0 q)) z ∧ fxy z = polyAt (pderiv 1 (pderiv 0 q)) z :=
    fun z => lin_inj ((hfx z).unique (polyAt_deriv _ z))
  have e3 : ∀ z, fxy z = polyAt (pderiv 0 (pderiv 1 q)) z ∧ fyy z = polyAt (pderiv 1 (pderiv 1 q)) z :=
    fun z => lin_inj ((hfy z).unique (polyAt_deriv _ z))
  have := hev L hL
  refine ⟨this.1, this.2.1, ?_⟩
  rw [this.2.2, ← (e2 _).1, ← (e2 _).2, ← (e3 _).1, ← (e3 _).2]

/-- a polynomial of degree exactly 4 meets the hypothesis -/
example : ((X 0 : MvPolynomial (Fin 2) ℝ) ^ 4).totalDegree ≤ 4 := by simp

/-! ### C40: continuity of value and gradient across edges -/

/-- C40: two nondegenerate triangles which share two vertices, and whose parameters agree at the shared vertices, give
the same value and the same gradient at every point of (the line through) the common edge; both are defined there. The
third vertices and their parameters are arbitrary, as is the numbering of the vertices. -/
theorem C40_edge_continuity (P P' : Fin 3 → ℝ × ℝ) (hP : Nondegenerate P) (hP' : Nondegenerate P')
    (p p' : Fin 3 → Fin 6 → ℝ) (i j i' j' : Fin 3) (hij : i ≠ j) (hij' : i' ≠ j')
    (hPi : P i = P' i') (hPj : P j = P' j') (hpi : p i = p' i') (hpj : p j = p' j') (t : ℝ) :
    ∃ v g, interpolation (tvOf P) (baryOf fun k => if k = i then t else if k = j then 1 - t else 0) (parOf p) = .ok v ∧
      interpolation (tvOf P') (baryOf fun k => if k = i' then t else if k = j' then 1 - t else 0) (parOf p') = .ok v ∧
      interpolationGradient (tvOf P) (baryOf fun k => if k = i then t else if k = j then 1 - t else 0) (parOf p) =
        .ok g ∧
      interpolationGradient (tvOf P') (baryOf fun k => if k = i' then t else if k = j' then 1 - t else 0) (parOf p') =
        .ok g := by
  obtain ⟨a1, a2, a3⟩ := edge_all (p := p) hP hij t
  obtain ⟨b1, b2, b3⟩ := edge_all (p := p') hP' hij' t
  rw [← hPi, ← hPj, ← hpi, ← hpj] at b1 b2 b3
  refine ⟨bval P p (edgeW i j t), vecOf ![gx P p (edgeW i j t), gy P p (edgeW i j t)],
    interpolation_eq hP, ?_, gradient_eq hP, ?_⟩
  · rw [a1, ← b1]; exact interpolation_eq hP'
  · rw [a2, a3, ← b2, ← b3]; exact gradient_eq hP'

/-- the hypotheses are met by two triangles on both sides of a common edge -/
example : ∃ P P' : Fin 3 → ℝ × ℝ, Nondegenerate P ∧ Nondegenerate P' ∧ P 0 = P' 1 ∧ P 1 = P' 0 ∧ P 2 ≠ P' 2 :=
  ⟨![(0, 0), (1, 0), (0, 1)], ![(1, 0), (0, 0), (1, -1)], by simp [Nondegenerate, cross], by simp [Nondegenerate, cross],
    by simp, by simp, by simp⟩

/-! ### C41: values on edges -/

/-- C41: the interpolation on the edge from vertex `i` to vertex `j` of a nondegenerate triangle, with the parameters of
these two vertices, is the interpolation in the triangle at the point with weights `t` at `i` and `1 - t` at `j`. -/
theorem C41_on_edge (P : Fin 3 → ℝ × ℝ) (hP : Nondegenerate P) (p : Fin 3 → Fin 6 → ℝ) (i j : Fin 3) (hij : i ≠ j)
    (t : ℝ) :
    ∃ v, interpolationOnEdge (vec2 (P i), vec2 (P j)) t ⟨List.ofFn (p i) ++ List.ofFn (p j)⟩ = .ok v ∧
      interpolation (tvOf P) (baryOf fun k => if k = i then t else if k = j then 1 - t else 0) (parOf p) = .ok v := by
  have hne : P i ≠ P j := by
    intro h
    apply hP
    fin_cases i <;> fin_cases j <;> simp at hij <;> simp at h <;> simp [cross, h] <;> ring
  refine ⟨_, onEdge_eq hne (p i) (p j) t, ?_⟩
  rw [← (edge_all (p := p) hP hij t).1]
  exact interpolation_eq hP

/-- C41: reversing the edge (and `t`) gives the same value, for every edge with distinct end points. -/
theorem C41_reverse (A B : ℝ × ℝ) (hAB : A ≠ B) (p q : Fin 6 → ℝ) (t : ℝ) :
    ∃ v, interpolationOnEdge (vec2 A, vec2 B) t ⟨List.ofFn p ++ List.ofFn q⟩ = .ok v ∧
      interpolationOnEdge (vec2 B, vec2 A) (1 - t) ⟨List.ofFn q ++ List.ofFn p⟩ = .ok v := by
  refine ⟨_, onEdge_eq hAB p q t, ?_⟩
  rw [eVal_symm]
  exact onEdge_eq hAB.symm q p (1 - t)

end Tve
