import Verif.Lemmas.BellExist

/-!
# C104: the interpolation on a triangle is the Bell element, whatever the numbering of the corners and the coordinate system
-/

set_option linter.unusedSimpArgs false
set_option linter.unnecessarySeqFocus false

namespace Tve
open Bell MvPolynomial

/-! ### The Bell element -/

/-- C104: for every nondegenerate triangle and all nodal values there is exactly one Bell polynomial: a polynomial of degree
at most five with these values, first and second derivatives at the vertices, whose normal derivative along every edge
has degree at most three. -/
theorem C104_unique (P : Fin 3 → ℝ × ℝ) (hP : Nondegenerate P) (p : Fin 3 → Fin 6 → ℝ) : ∃! q, IsBell P p q :=
  ⟨bellPoly P p, isBell_bellPoly hP, fun _ hq => IsBell.unique hP hq (isBell_bellPoly hP)⟩

/-- C104: the interpolation, its gradient and its Hessian are the value and the derivatives of the Bell polynomial. -/
theorem C104_interpolation (P : Fin 3 → ℝ × ℝ) (hP : Nondegenerate P) (p : Fin 3 → Fin 6 → ℝ) {q : MvPolynomial (Fin 2) ℝ}
    (hq : IsBell P p q) (L : Fin 3 → ℝ) (hL : L 0 + L 1 + L 2 = 1) :
    interpolation (tvOf P) (baryOf L) (parOf p) = .ok (polyAt q (pointOf P L)) ∧
    interpolationGradient (tvOf P) (baryOf L) (parOf p) =
      .ok (vecOf ![polyAt (pderiv 0 q) (pointOf P L), polyAt (pderiv 1 q) (pointOf P L)]) ∧
    interpolationHessian (tvOf P) (baryOf L) (parOf p) =
      .ok (matOf !![polyAt (pderiv 0 (pderiv 0 q)) (pointOf P L), polyAt (pderiv 0 (pderiv 1 q)) (pointOf P L);
        polyAt (pderiv 0 (pderiv 1 q)) (pointOf P L), polyAt (pderiv 1 (pderiv 1 q)) (pointOf P L)]) := by
  rw [IsBell.unique hP hq (isBell_bellPoly hP)]
  exact bellPoly_eval hP L hL

/-- the condition on the edges is not void: `x⁵` is not a Bell polynomial of the reference triangle: its normal derivative
along the hypotenuse has degree four -/
example : ¬ ∃ p, IsBell ![(0, 0), (1, 0), (0, 1)] p (X 0 ^ 5) := by
  rintro ⟨p, h⟩
  obtain ⟨r, hr, hr'⟩ := h.edges 1 2
  have := (Cubic.of_poly hr hr').diff4
  simp [normalDerivative, polyAt, pderiv_X] at this
  norm_num at this

/-! ### Numbering of the corners -/

/-- C104: listing the corners of the triangle in a different order, and the weights and nodal values accordingly, changes neither the
interpolation nor its gradient nor its Hessian. -/
theorem C104_corners (P : Fin 3 → ℝ × ℝ) (hP : Nondegenerate P) (p : Fin 3 → Fin 6 → ℝ) (π : Equiv.Perm (Fin 3))
    (L : Fin 3 → ℝ) (hL : L 0 + L 1 + L 2 = 1) :
    (∃ v, interpolation (tvOf P) (baryOf L) (parOf p) = .ok v ∧
      interpolation (tvOf fun m => P (π m)) (baryOf fun m => L (π m)) (parOf fun m => p (π m)) = .ok v) ∧
    (∃ g, interpolationGradient (tvOf P) (baryOf L) (parOf p) = .ok g ∧
      interpolationGradient (tvOf fun m => P (π m)) (baryOf fun m => L (π m)) (parOf fun m => p (π m)) = .ok g) ∧
    ∃ H, interpolationHessian (tvOf P) (baryOf L) (parOf p) = .ok H ∧
      interpolationHessian (tvOf fun m => P (π m)) (baryOf fun m => L (π m)) (parOf fun m => p (π m)) = .ok H := by
  obtain ⟨q, hq, -⟩ := C104_unique P hP p
  have hP' : Nondegenerate fun m => P (π m) := by
    have : cross (P (π 0)) (P (π 1)) (P (π 2)) ^ 2 = cross (P 0) (P 1) (P 2) ^ 2 := by
      obtain ⟨a, b, c, h⟩ : ∃ a b c : Fin 3, π 0 = a ∧ π 1 = b ∧ π 2 = c := ⟨_, _, _, rfl, rfl, rfl⟩
      have h1 : a ≠ b := by rw [← h.1, ← h.2.1]; simp
      have h2 : a ≠ c := by rw [← h.1, ← h.2.2]; simp
      have h3 : b ≠ c := by rw [← h.2.1, ← h.2.2]; simp
      rw [h.1, h.2.1, h.2.2]
      clear h
      fin_cases a <;> fin_cases b <;> simp at h1 <;> fin_cases c <;> simp at h2 h3 <;> simp [cross] <;> ring
    rw [Nondegenerate, ← sq_eq_zero_iff.ne, this]
    exact pow_ne_zero 2 hP
  have hq' : IsBell (fun m => P (π m)) (fun m => p (π m)) q :=
    ⟨hq.degree, fun m => hq.vertices _, fun i j => hq.edges _ _⟩
  have hsum : L (π 0) + L (π 1) + L (π 2) = 1 := by
    have := Equiv.sum_comp π L
    rw [Fin.sum_univ_three, Fin.sum_univ_three] at this
    rw [this, hL]
  have hpt : pointOf (fun m => P (π m)) (fun m => L (π m)) = pointOf P L := by
    have h1 := Equiv.sum_comp π fun m => L m * (P m).1
    have h2 := Equiv.sum_comp π fun m => L m * (P m).2
    rw [Fin.sum_univ_three, Fin.sum_univ_three] at h1 h2
    ext
    · simpa [pointOf, baryPoint] using h1
    · simpa [pointOf, baryPoint] using h2
  obtain ⟨a1, a2, a3⟩ := C104_interpolation P hP p hq L hL
  obtain ⟨b1, b2, b3⟩ := C104_interpolation _ hP' _ hq' (fun m => L (π m)) hsum
  rw [hpt] at b1 b2 b3
  exact ⟨⟨_, a1, b1⟩, ⟨_, a2, b2⟩, ⟨_, a3, b3⟩⟩

/-! ### Coordinate system and unit of length -/

/-- C104: move, turn, reflect or magnify the triangle. If the nodal values in the old coordinates are those which the chain rule
prescribes, then at corresponding points the interpolations agree, and the gradients and Hessians are related by the chain
rule. -/
theorem C104_similar (P : Fin 3 → ℝ × ℝ) (hP : Nondegenerate P) (A : Matrix (Fin 2) (Fin 2) ℝ) (hA : IsSimilarity A) (c : ℝ × ℝ)
    (p : Fin 3 → Fin 6 → ℝ) (L : Fin 3 → ℝ) (hL : L 0 + L 1 + L 2 = 1) :
    (∃ v, interpolation (tvOf fun m => affine A c (P m)) (baryOf L) (parOf p) = .ok v ∧
      interpolation (tvOf P) (baryOf L) (parOf fun m => pullback A (p m)) = .ok v) ∧
    (∃ g, interpolationGradient (tvOf fun m => affine A c (P m)) (baryOf L) (parOf p) = .ok (vecOf g) ∧
      interpolationGradient (tvOf P) (baryOf L) (parOf fun m => pullback A (p m)) = .ok (vecOf (A.transpose.mulVec g))) ∧
    ∃ H : Matrix (Fin 2) (Fin 2) ℝ,
      interpolationHessian (tvOf fun m => affine A c (P m)) (baryOf L) (parOf p) = .ok (matOf H) ∧
      interpolationHessian (tvOf P) (baryOf L) (parOf fun m => pullback A (p m)) = .ok (matOf (A.transpose * H * A)) := by
  have hP' := nondeg_affine (c := c) hA hP
  obtain ⟨q, hq, -⟩ := C104_unique _ hP' p
  have hq' := isBell_pull hA hq
  obtain ⟨a1, a2, a3⟩ := C104_interpolation _ hP' p hq L hL
  obtain ⟨b1, b2, b3⟩ := C104_interpolation P hP _ hq' L hL
  have hpt : pointOf (fun m => affine A c (P m)) L = affine A c (pointOf P L) := by
    ext
    · simp [pointOf, baryPoint, affine]; linear_combination c.1 * hL
    · simp [pointOf, baryPoint, affine]; linear_combination c.2 * hL
  rw [hpt] at a1 a2 a3
  rw [polyAt_pull] at b1
  rw [polyAt_pderiv_pull, polyAt_pderiv_pull] at b2
  rw [polyAt_pderiv2_pull, polyAt_pderiv2_pull, polyAt_pderiv2_pull] at b3
  refine ⟨⟨_, a1, b1⟩, ⟨_, a2, ?_⟩, ⟨_, a3, ?_⟩⟩
  · rw [b2]
    congr 2
    funext k
    fin_cases k <;> simp [Matrix.mulVec, dotProduct]
  · rw [b3]
    congr 2
    ext k l
    fin_cases k <;> fin_cases l <;> simp [Matrix.mul_apply] <;> ring

/-- the matrices of a quarter turn with magnification by 2 and of the exchange of the axes are similarities, the matrix of a
shear is not -/
example : IsSimilarity !![0, -2; 2, 0] ∧ IsSimilarity !![0, 1; 1, 0] ∧ ¬ IsSimilarity !![1, 1; 0, 1] := by
  refine ⟨⟨4, by norm_num, ?_⟩, ⟨1, by norm_num, ?_⟩, ?_⟩
  · ext i j; fin_cases i <;> fin_cases j <;> simp [Matrix.mul_apply] <;> norm_num
  · ext i j; fin_cases i <;> fin_cases j <;> simp [Matrix.mul_apply]
  · rintro ⟨k, -, h⟩
    have := congrFun (congrFun h 0) 1
    simp [Matrix.mul_apply] at this

end Tve
