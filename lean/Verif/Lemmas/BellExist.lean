import Verif.Lemmas.BellUnique
import Verif.Props.BellC1

/-! Existence of the Bell polynomial, and its behaviour under similarities. -/

set_option linter.unusedSimpArgs false
set_option linter.unnecessarySeqFocus false

namespace Tve
open Bell MvPolynomial

namespace Bell
variable {P : Fin 3 → ℝ × ℝ} {L : Fin 3 → ℝ} {p : Fin 3 → Fin 6 → ℝ}

theorem Lam_degree (j : Fin 3) : (Lam P j).totalDegree ≤ 1 := by
  refine (totalDegree_add _ _).trans (max_le ((totalDegree_add _ _).trans (max_le ?_ ?_)) ?_)
  · simp
  · exact (totalDegree_mul _ _).trans (by simp)
  · exact (totalDegree_mul _ _).trans (by simp)

/-- a monomial in the barycentric coordinates -/
noncomputable def mon (P : Fin 3 → ℝ × ℝ) (a : ℝ) (i j k : ℕ) : MvPolynomial (Fin 2) ℝ :=
  C a * (Lam P 0 ^ i * Lam P 1 ^ j * Lam P 2 ^ k)

theorem mon_degree (a : ℝ) {i j k : ℕ} (h : i + j + k = 5) : (mon P a i j k).totalDegree ≤ 5 := by
  have e : ∀ (m : Fin 3) (n : ℕ), (Lam P m ^ n).totalDegree ≤ n := fun m n =>
    (totalDegree_pow _ _).trans ((Nat.mul_le_mul_left _ (Lam_degree m)).trans (by omega))
  refine (totalDegree_mul _ _).trans ?_
  rw [totalDegree_C, zero_add]
  refine (totalDegree_mul _ _).trans ((add_le_add (totalDegree_mul _ _) le_rfl).trans ?_)
  have := e 0 i
  have := e 1 j
  have := e 2 k
  omega

/-- `nform` as a polynomial -/
noncomputable def npoly (P : Fin 3 → ℝ × ℝ) (a : Fin 8 → ℝ) : MvPolynomial (Fin 2) ℝ :=
  mon P (a 0) 5 0 0 + mon P (a 1) 4 1 0 + mon P (a 2) 4 0 1 + mon P (a 3) 3 2 0 + mon P (a 4) 3 0 2 +
    mon P (a 5) 3 1 1 + mon P (a 6) 2 1 2 + mon P (a 7) 2 2 1

theorem npoly_degree (a : Fin 8 → ℝ) : (npoly P a).totalDegree ≤ 5 := by
  refine (totalDegree_add _ _).trans (max_le ((totalDegree_add _ _).trans (max_le ((totalDegree_add _ _).trans (max_le
    ((totalDegree_add _ _).trans (max_le ((totalDegree_add _ _).trans (max_le ((totalDegree_add _ _).trans (max_le
    ((totalDegree_add _ _).trans (max_le ?_ ?_)) ?_)) ?_)) ?_)) ?_)) ?_)) ?_) <;> exact mon_degree _ rfl

theorem npoly_at (a : Fin 8 → ℝ) (z : ℝ × ℝ) : polyAt (npoly P a) z = nform a (lam P z) := by
  have h : ∀ b i j k, polyAt (mon P b i j k) z = b * (lam P z 0 ^ i * lam P z 1 ^ j * lam P z 2 ^ k) := by
    intro b i j k
    rw [← polyAt_Lam, ← polyAt_Lam, ← polyAt_Lam]
    simp [polyAt, mon]
  have : polyAt (npoly P a) z = polyAt (mon P (a 0) 5 0 0) z + polyAt (mon P (a 1) 4 1 0) z + polyAt (mon P (a 2) 4 0 1) z +
      polyAt (mon P (a 3) 3 2 0) z + polyAt (mon P (a 4) 3 0 2) z + polyAt (mon P (a 5) 3 1 1) z +
      polyAt (mon P (a 6) 2 1 2) z + polyAt (mon P (a 7) 2 2 1) z := by simp [polyAt, npoly]
  rw [this]
  simp only [h, nform]
  ring

/-- the interpolation as a polynomial -/
noncomputable def bellPoly (P : Fin 3 → ℝ × ℝ) (p : Fin 3 → Fin 6 → ℝ) : MvPolynomial (Fin 2) ℝ :=
  ∑ i : Fin 3, ∑ k : Fin 6, C (p i k) * npoly (sh i P) (coef (sh i (bb P)) (sh i (cc P)) k)

theorem lam_sh (i : Fin 3) (z : ℝ × ℝ) : lam (sh i P) z = sh i (lam P z) := by
  funext j
  rw [← polyAt_Lam, Lam_sh, polyAt_Lam]
  rfl

theorem bellPoly_at (z : ℝ × ℝ) : polyAt (bellPoly P p) z = bval P p (lam P z) := by
  rw [bval_form]
  have : polyAt (bellPoly P p) z =
      ∑ i : Fin 3, ∑ k : Fin 6, p i k * polyAt (npoly (sh i P) (coef (sh i (bb P)) (sh i (cc P)) k)) z := by
    simp [polyAt, bellPoly]
  rw [this]
  refine Finset.sum_congr rfl fun i _ => Finset.sum_congr rfl fun k _ => ?_
  rw [npoly_at, lam_sh, mul_comm]

theorem bellPoly_degree : (bellPoly P p).totalDegree ≤ 5 := by
  refine totalDegree_finsetSum_le fun i _ => totalDegree_finsetSum_le fun k _ => ?_
  refine (totalDegree_mul _ _).trans ?_
  rw [totalDegree_C, zero_add]
  exact npoly_degree _

theorem bellPoly_eval (h : Nondegenerate P) (L : Fin 3 → ℝ) (hL : L 0 + L 1 + L 2 = 1) :
    interpolation (tvOf P) (baryOf L) (parOf p) = .ok (polyAt (bellPoly P p) (pointOf P L)) ∧
    interpolationGradient (tvOf P) (baryOf L) (parOf p) =
      .ok (vecOf ![polyAt (pderiv 0 (bellPoly P p)) (pointOf P L), polyAt (pderiv 1 (bellPoly P p)) (pointOf P L)]) ∧
    interpolationHessian (tvOf P) (baryOf L) (parOf p) =
      .ok (matOf !![polyAt (pderiv 0 (pderiv 0 (bellPoly P p))) (pointOf P L),
        polyAt (pderiv 0 (pderiv 1 (bellPoly P p))) (pointOf P L);
        polyAt (pderiv 0 (pderiv 1 (bellPoly P p))) (pointOf P L), polyAt (pderiv 1 (pderiv 1 (bellPoly P p))) (pointOf P L)]) := by
  obtain ⟨f, fx, fy, fxx, fxy, fyy, hf, hfx, hfy, hev⟩ := C39_derivatives P h p
  have ef : f = polyAt (bellPoly P p) := by
    funext z
    have h1 := (hev (lam P z) (lam_sum h z)).1
    rw [interpolation_eq h, ← bellPoly_at, pointOf_lam h] at h1
    exact (Except.ok.inj h1).symm
  subst ef
  have e1 : fx = polyAt (pderiv 0 (bellPoly P p)) ∧ fy = polyAt (pderiv 1 (bellPoly P p)) := by
    constructor
    · funext z; exact (lin_inj ((hf z).unique (polyAt_deriv _ z))).1
    · funext z; exact (lin_inj ((hf z).unique (polyAt_deriv _ z))).2
  obtain ⟨rfl, rfl⟩ := e1
  have e2 := lin_inj ((hfx (pointOf P L)).unique (polyAt_deriv _ (pointOf P L)))
  have e3 := lin_inj ((hfy (pointOf P L)).unique (polyAt_deriv _ (pointOf P L)))
  have := hev L hL
  refine ⟨this.1, this.2.1, ?_⟩
  rw [this.2.2, ← e2.1, ← e3.1, ← e3.2]

theorem matOf_inj {n m : ℕ} {A B : Matrix (Fin (n + 1)) (Fin m) ℝ} (h : matOf A = matOf B) : A = B := by
  simp only [matOf, Mat.mk.injEq] at h
  funext i j
  have := congrFun (List.ofFn_injective h) i
  exact congrFun (List.ofFn_injective this) j

theorem vecOf_inj {n : ℕ} {a b : Fin n → ℝ} (h : vecOf a = vecOf b) : a = b := by
  simp only [vecOf, Vec.mk.injEq] at h
  exact List.ofFn_injective h

theorem pointOf_unit (m : Fin 3) : pointOf P (fun i => if i = m then 1 else 0) = P m := by
  fin_cases m <;> simp [pointOf, baryPoint]

theorem pointOf_edge {i j : Fin 3} (hij : i ≠ j) (t : ℝ) : pointOf P (edgeW i j (1 - t)) = P i + t • (P j - P i) := by
  fin_cases i <;> fin_cases j <;> simp at hij <;> (ext <;> simp [pointOf, baryPoint, edgeW] <;> ring)

theorem edgeW_sum {i j : Fin 3} (hij : i ≠ j) (t : ℝ) : edgeW i j t 0 + edgeW i j t 1 + edgeW i j t 2 = 1 := by
  fin_cases i <;> fin_cases j <;> simp at hij <;> simp [edgeW]

theorem eNor_grad {A B : ℝ × ℝ} (h : (A.2 - B.2) ^ 2 + (B.1 - A.1) ^ 2 ≠ 0) (u v : Fin 6 → ℝ) (t : ℝ) :
    (A.2 - B.2) * eGx A B u v t + (B.1 - A.1) * eGy A B u v t = eNor A B u v t := by
  simp only [eGx, eGy]
  field_simp
  ring

theorem isBell_bellPoly (h : Nondegenerate P) : IsBell P p (bellPoly P p) := by
  refine ⟨bellPoly_degree, fun m => ?_, fun i j => ?_⟩
  · obtain ⟨h1, h2, h3⟩ := bellPoly_eval (p := p) h (fun i => if i = m then 1 else 0) (by fin_cases m <;> simp)
    rw [C37_value P h, pointOf_unit] at h1
    rw [C37_gradient P h, pointOf_unit] at h2
    rw [C37_hessian P h, pointOf_unit] at h3
    have g := vecOf_inj (Except.ok.inj h2)
    have H := matOf_inj (Except.ok.inj h3)
    funext k
    fin_cases k
    · exact (Except.ok.inj h1).symm
    · exact (congrFun g 0).symm
    · exact (congrFun g 1).symm
    · exact (congrFun (congrFun H 0) 0).symm
    · exact (congrFun (congrFun H 0) 1).symm
    · exact (congrFun (congrFun H 1) 1).symm
  · by_cases hij : i = j
    · subst hij
      exact ⟨0, by simp, fun t => by simp [normalDerivative]⟩
    have hne : P i ≠ P j := by
      intro h'
      apply h
      fin_cases i <;> fin_cases j <;> simp at hij <;> simp at h' <;> simp [cross, h'] <;> ring
    have hn : ((P i).2 - (P j).2) ^ 2 + ((P j).1 - (P i).1) ^ 2 ≠ 0 := by
      intro h0
      apply hne
      ext <;> nlinarith [sq_nonneg ((P i).2 - (P j).2), sq_nonneg ((P j).1 - (P i).1)]
    let b := (P i).2 - (P j).2
    let c := (P j).1 - (P i).1
    let a1 := b * p i 1 + c * p i 2
    let a2 := -(b * c) * p i 3 + (b ^ 2 - c ^ 2) * p i 4 + b * c * p i 5
    let b1 := b * p j 1 + c * p j 2
    let b2 := -(b * c) * p j 3 + (b ^ 2 - c ^ 2) * p j 4 + b * c * p j 5
    refine ⟨.C a1 - .C a2 * .X + .C (-3 * a1 + 2 * a2 + 3 * b1 + b2) * .X ^ 2 + .C (2 * a1 - a2 - 2 * b1 - b2) * .X ^ 3,
      by compute_degree, fun t => ?_⟩
    obtain ⟨-, h2, -⟩ := bellPoly_eval (p := p) h (edgeW i j (1 - t)) (edgeW_sum hij _)
    rw [pointOf_edge hij, gradient_eq h] at h2
    have g := vecOf_inj (Except.ok.inj h2)
    have g0 : gx P p (edgeW i j (1 - t)) = _ := congrFun g 0
    have g1 : gy P p (edgeW i j (1 - t)) = _ := congrFun g 1
    rw [(edge_all h hij _).2.1] at g0
    rw [(edge_all h hij _).2.2] at g1
    simp only [Matrix.cons_val_zero, Matrix.cons_val_one, Matrix.cons_val_fin_one] at g0 g1
    rw [normalDerivative, ← g0, ← g1, eNor_grad hn, eNor]
    simp only [Polynomial.eval_add, Polynomial.eval_sub, Polynomial.eval_mul, Polynomial.eval_C, Polynomial.eval_X,
      Polynomial.eval_pow, a1, a2, b1, b2, b, c]
    ring


/-! ### similarities -/

variable {A : Matrix (Fin 2) (Fin 2) ℝ} {c : ℝ × ℝ}

theorem polyAt_pderiv_pull (A : Matrix (Fin 2) (Fin 2) ℝ) (c : ℝ × ℝ) (q : MvPolynomial (Fin 2) ℝ) (k : Fin 2) (z : ℝ × ℝ) :
    polyAt (pderiv k (pull A c q)) z =
      A 0 k * polyAt (pderiv 0 q) (affine A c z) + A 1 k * polyAt (pderiv 1 q) (affine A c z) := by
  rw [← polyAt_pull, ← polyAt_pull, pderiv_pull]
  simp [polyAt]

theorem polyAt_pderiv2_pull (A : Matrix (Fin 2) (Fin 2) ℝ) (c : ℝ × ℝ) (q : MvPolynomial (Fin 2) ℝ) (k l : Fin 2) (z : ℝ × ℝ) :
    polyAt (pderiv k (pderiv l (pull A c q))) z =
      A 0 l * (A 0 k * polyAt (pderiv 0 (pderiv 0 q)) (affine A c z) + A 1 k * polyAt (pderiv 0 (pderiv 1 q)) (affine A c z)) +
      A 1 l * (A 0 k * polyAt (pderiv 0 (pderiv 1 q)) (affine A c z) + A 1 k * polyAt (pderiv 1 (pderiv 1 q)) (affine A c z)) := by
  rw [pderiv_pull]
  have : ∀ a b : ℝ, ∀ u v : MvPolynomial (Fin 2) ℝ, polyAt (pderiv k (C a * pull A c u + C b * pull A c v)) z =
      a * polyAt (pderiv k (pull A c u)) z + b * polyAt (pderiv k (pull A c v)) z := by
    intro a b u v; simp [polyAt, Derivation.leibniz]
  rw [this, polyAt_pderiv_pull, polyAt_pderiv_pull, pderiv10]

theorem nodal_pull (A : Matrix (Fin 2) (Fin 2) ℝ) (c : ℝ × ℝ) (q : MvPolynomial (Fin 2) ℝ) (z : ℝ × ℝ) :
    nodal (pull A c q) z = pullback A (nodal q (affine A c z)) := by
  funext k
  fin_cases k
  · simp [nodal, pullback, polyAt_pull]
  · simp [nodal, pullback, polyAt_pderiv_pull, Matrix.mulVec, dotProduct]
  · simp [nodal, pullback, polyAt_pderiv_pull, Matrix.mulVec, dotProduct]
  · simp [nodal, pullback, polyAt_pderiv2_pull, Matrix.mul_apply]; ring
  · simp [nodal, pullback, polyAt_pderiv2_pull, Matrix.mul_apply]; ring
  · simp [nodal, pullback, polyAt_pderiv2_pull, Matrix.mul_apply]; ring

theorem similar_entries {k : ℝ} (h : A.transpose * A = k • (1 : Matrix (Fin 2) (Fin 2) ℝ)) :
    A 0 0 ^ 2 + A 1 0 ^ 2 = k ∧ A 0 0 * A 0 1 + A 1 0 * A 1 1 = 0 ∧ A 0 1 ^ 2 + A 1 1 ^ 2 = k := by
  have h1 := congrFun (congrFun h 0) 0
  have h2 := congrFun (congrFun h 0) 1
  have h3 := congrFun (congrFun h 1) 1
  simp [Matrix.mul_apply] at h1 h2 h3
  exact ⟨by rw [← h1]; ring, by rw [← h2], by rw [← h3]; ring⟩

theorem similar_det {k : ℝ} (hk : k ≠ 0) (h : A.transpose * A = k • (1 : Matrix (Fin 2) (Fin 2) ℝ)) :
    A 0 0 * A 1 1 - A 0 1 * A 1 0 ≠ 0 := by
  obtain ⟨h1, h2, h3⟩ := similar_entries h
  intro h0
  apply hk
  have : k ^ 2 = 0 := by
    rw [pow_two]
    nth_rw 1 [← h1]
    rw [← h3]
    linear_combination (A 0 0 * A 1 1 - A 0 1 * A 1 0) * h0 + (A 0 0 * A 0 1 + A 1 0 * A 1 1) * h2
  simpa using this

theorem nondeg_affine (hA : IsSimilarity A) (h : Nondegenerate P) : Nondegenerate fun m => affine A c (P m) := by
  obtain ⟨k, hk, hA⟩ := hA
  have : cross (affine A c (P 0)) (affine A c (P 1)) (affine A c (P 2)) =
      (A 0 0 * A 1 1 - A 0 1 * A 1 0) * cross (P 0) (P 1) (P 2) := by
    simp only [cross, affine]; ring
  rw [Nondegenerate, this]
  exact mul_ne_zero (similar_det hk hA) h

theorem isBell_pull (hA : IsSimilarity A) {q : MvPolynomial (Fin 2) ℝ} (hq : IsBell (fun m => affine A c (P m)) p q) :
    IsBell P (fun m => pullback A (p m)) (pull A c q) := by
  refine ⟨pull_degree _ _ _ hq.degree, fun m => ?_, fun i j => ?_⟩
  · rw [nodal_pull, hq.vertices]
  · obtain ⟨k, hk, hA⟩ := hA
    have hd := similar_det hk hA
    obtain ⟨h1, h2, h3⟩ := similar_entries hA
    obtain ⟨r, hr, hr'⟩ := hq.edges i j
    refine ⟨Polynomial.C (k / (A 0 0 * A 1 1 - A 0 1 * A 1 0)) * r, (Polynomial.natDegree_C_mul_le _ _).trans hr, fun t => ?_⟩
    have hz : affine A c (P i + t • (P j - P i)) = affine A c (P i) + t • (affine A c (P j) - affine A c (P i)) := by
      ext <;> simp [affine] <;> ring
    rw [Polynomial.eval_mul, Polynomial.eval_C, ← hr', normalDerivative, normalDerivative, polyAt_pderiv_pull,
      polyAt_pderiv_pull, hz]
    generalize polyAt (pderiv 0 q) _ = g
    generalize polyAt (pderiv 1 q) _ = h
    simp only [affine]
    rw [div_mul_eq_mul_div, eq_div_iff hd]
    generalize (P i).1 = x at *
    generalize (P i).2 = y at *
    generalize (P j).1 = x' at *
    generalize (P j).2 = y' at *
    generalize A 0 0 = a at *
    generalize A 0 1 = b at *
    generalize A 1 0 = e at *
    generalize A 1 1 = d at *
    have m1 : (a * d - b * e) * a = k * d := by linear_combination -e * h2 + d * h1
    have m2 : (a * d - b * e) * b = -(k * e) := by linear_combination d * h2 - e * h3
    have m3 : (a * d - b * e) * e = -(k * b) := by linear_combination a * h2 - b * h1
    have m4 : (a * d - b * e) * d = k * a := by linear_combination -b * h2 + a * h3
    linear_combination (y - y') * g * m1 + (y - y') * h * m3 + (x' - x) * g * m2 + (x' - x) * h * m4

end Bell

end Tve
