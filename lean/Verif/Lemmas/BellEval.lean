import Verif.Lemmas.Bell
import Verif.Spec.Bell
import Mathlib.Data.Fin.VecNotation
import Mathlib.Logic.Equiv.Fin.Basic

/-! The Bell interpolation functions as explicit sums. -/

set_option linter.unusedSimpArgs false

namespace Tve
namespace Bell
open Tve.Sym

/-- `b` -/
def bb (P : Fin 3 → ℝ × ℝ) : Fin 3 → ℝ := fun i => (P (i + 1)).2 - (P (i + 2)).2
/-- `c` -/
def cc (P : Fin 3 → ℝ × ℝ) : Fin 3 → ℝ := fun i => (P (i + 2)).1 - (P (i + 1)).1

theorem vec2_get0 (q : ℝ × ℝ) : (vec2 q).getItem 0 = .ok q.1 := by
  simp [vec2, Vec.getItem, Vec.size, pyIdx, pyGet]
theorem vec2_get1 (q : ℝ × ℝ) : (vec2 q).getItem 1 = .ok q.2 := by
  simp [vec2, Vec.getItem, Vec.size, pyIdx, pyGet]

theorem getB_eq (P : Fin 3 → ℝ × ℝ) : getB (tvOf P) = .ok (bb P 0, bb P 1, bb P 2) := by
  simp [getB, tvOf, vec2_get0, vec2_get1, bb]

theorem getC_eq (P : Fin 3 → ℝ × ℝ) : getC (tvOf P) = .ok (cc P 0, cc P 1, cc P 2) := by
  simp [getC, tvOf, vec2_get0, vec2_get1, cc]

/-- twice the signed area -/
def twoD (P : Fin 3 → ℝ × ℝ) : ℝ := cross (P 0) (P 1) (P 2)

theorem getA_sum (P : Fin 3 → ℝ × ℝ) : ∃ a, getA (tvOf P) = .ok a ∧ a.1 + a.2.1 + a.2.2 = twoD P := by
  refine ⟨_, by simp [getA, tvOf, vec2_get0, vec2_get1]; rfl, ?_⟩
  simp only [twoD, cross]; ring

theorem nondeg_norm {P : Fin 3 → ℝ × ℝ} (h : Nondegenerate P) (i : Fin 3) : bb P i ^ 2 + cc P i ^ 2 ≠ 0 := by
  intro h0
  have hb : bb P i = 0 := by nlinarith [sq_nonneg (bb P i), sq_nonneg (cc P i)]
  have hc : cc P i = 0 := by nlinarith [sq_nonneg (bb P i), sq_nonneg (cc P i)]
  apply h
  fin_cases i
  all_goals
    simp [bb, cc] at hb hc
    simp only [cross]
  · linear_combination (P 0).1 * hb + (P 0).2 * hc - (P 2).1 * hb - (P 2).2 * hc
  · linear_combination (P 1).1 * hb + (P 1).2 * hc - (P 2).1 * hb - (P 2).2 * hc
  · linear_combination (P 2).1 * hb + (P 2).2 * hc - (P 0).1 * hb - (P 0).2 * hc

theorem args9_eq (P : Fin 3 → ℝ × ℝ) (L : Fin 3 → ℝ) : args9 (tvOf P) (baryOf L) =
    .ok [L 0, L 1, L 2, bb P 0, bb P 1, bb P 2, cc P 0, cc P 1, cc P 2] := by
  simp [args9, getB_eq, getC_eq, baryOf]

/-- vertex number of a parameter -/
def di (m : Fin 18) : Fin 3 := ⟨m / 6, by omega⟩
/-- nodal number of a parameter -/
def mo (m : Fin 18) : Fin 6 := ⟨m % 6, by omega⟩

/-- the shape functions numbered from 0 to 17 -/
noncomputable def N18 (m : Fin 18) : Sym := NN (di m) (mo m)

theorem ofFn18 {α : Type} (f : Fin 3 → Fin 6 → α) :
    List.ofFn (fun m : Fin 18 => f (di m) (mo m)) = List.ofFn (f 0) ++ List.ofFn (f 1) ++ List.ofFn (f 2) := by
  simp only [List.ofFn_succ, List.ofFn_zero]
  rfl

theorem N_eq18 : N = List.ofFn N18 := by
  rw [N_eq]; exact (ofFn18 NN).symm

theorem parOf_eq (p : Fin 3 → Fin 6 → ℝ) : parOf p = vecOf (fun m : Fin 18 => p (di m) (mo m)) := by
  rw [parOf, vecOf, ofFn18]

theorem sum18 (f : Fin 3 → Fin 6 → ℝ) : ∑ m : Fin 18, f (di m) (mo m) = ∑ i, ∑ k, f i k := by
  rw [← Fintype.sum_prod_type' f]
  exact Fintype.sum_equiv (finProdFinEquiv (m := 3) (n := 6)).symm _ _ (fun m => rfl)

variable {P : Fin 3 → ℝ × ℝ} {L : Fin 3 → ℝ} {p : Fin 3 → Fin 6 → ℝ}

theorem shapeFunction_eq (h : Nondegenerate P) : shapeFunction (tvOf P) (baryOf L) =
    .ok (vecOf fun m => (N18 m).eval (env L (bb P) (cc P))) := by
  rw [shapeFunction, args9_eq, bind_ok, N_eq18, lambdifyList_eq (v := env L (bb P) (cc P)) rfl]
  · simp [vecOf, List.map_ofFn]
  · intro e he s hs
    obtain ⟨m, rfl⟩ := List.mem_ofFn.mp he
    exact bindArgs_env _ _ _ (free_NN _ _ s hs)
  · intro e he
    obtain ⟨m, rfl⟩ := List.mem_ofFn.mp he
    exact safe_NN (nondeg_norm h) _ _

/-- values of the gradient matrix -/
noncomputable def gradM (P : Fin 3 → ℝ × ℝ) (L : Fin 3 → ℝ) : Matrix (Fin 18) (Fin 3) ℝ :=
  Matrix.of fun m j => ((N18 m).diff (LL j)).eval (env L (bb P) (cc P))

theorem shapeGradient_eq (h : Nondegenerate P) : shapeFunctionGradient (tvOf P) (baryOf L) =
    .ok (matOf (gradM P L)) := by
  rw [shapeFunctionGradient, args9_eq, bind_ok, NGradient, N_eq18,
    lambdifyMat_eq (v := env L (bb P) (cc P)) rfl]
  · rw [bind_ok, ← Mat.new_ofFn, List.map_ofFn, List.map_ofFn]
    congr 2
  · intro r hr e he s hs
    obtain ⟨e0, he0, rfl⟩ := List.mem_map.mp hr
    obtain ⟨m, rfl⟩ := List.mem_ofFn.mp he0
    obtain ⟨x, -, rfl⟩ := List.mem_map.mp he
    exact bindArgs_env _ _ _ (free_NN _ _ s (free_diff _ _ s hs))
  · intro r hr e he
    obtain ⟨e0, he0, rfl⟩ := List.mem_map.mp hr
    obtain ⟨m, rfl⟩ := List.mem_ofFn.mp he0
    obtain ⟨x, -, rfl⟩ := List.mem_map.mp he
    exact safe_diff _ (safe_NN (nondeg_norm h) _ _)

/-- the first index of the vectorized Hessian -/
def hi : Fin 6 → Fin 3 := ![0, 1, 2, 0, 0, 1]
/-- the second index of the vectorized Hessian -/
def hj : Fin 6 → Fin 3 := ![0, 1, 2, 1, 2, 2]

theorem hessRow_eq (e : Sym) : hessRow e = List.ofFn fun q : Fin 6 => (e.diff (LL (hi q))).diff (LL (hj q)) := by
  simp [hessRow, List.ofFn_succ, hi, hj, LL]

/-- values of the Hessian matrix -/
noncomputable def hessM (P : Fin 3 → ℝ × ℝ) (L : Fin 3 → ℝ) : Matrix (Fin 18) (Fin 6) ℝ :=
  Matrix.of fun m q => (((N18 m).diff (LL (hi q))).diff (LL (hj q))).eval (env L (bb P) (cc P))

theorem shapeHessian_eq (h : Nondegenerate P) : shapeFunctionHessian (tvOf P) (baryOf L) =
    .ok (matOf (hessM P L)) := by
  rw [shapeFunctionHessian, args9_eq, bind_ok, NHessian, N_eq18,
    lambdifyMat_eq (v := env L (bb P) (cc P)) rfl]
  · rw [bind_ok, ← Mat.new_ofFn, List.map_ofFn, List.map_ofFn]
    congr 2
  · intro r hr e he s hs
    obtain ⟨e0, he0, rfl⟩ := List.mem_map.mp hr
    obtain ⟨m, rfl⟩ := List.mem_ofFn.mp he0
    rw [hessRow_eq] at he
    obtain ⟨x, rfl⟩ := List.mem_ofFn.mp he
    exact bindArgs_env _ _ _ (free_NN _ _ s (free_diff _ _ s (free_diff _ _ s hs)))
  · intro r hr e he
    obtain ⟨e0, he0, rfl⟩ := List.mem_map.mp hr
    obtain ⟨m, rfl⟩ := List.mem_ofFn.mp he0
    rw [hessRow_eq] at he
    obtain ⟨x, rfl⟩ := List.mem_ofFn.mp he
    exact safe_diff _ (safe_diff _ (safe_NN (nondeg_norm h) _ _))

/-- value of the interpolation -/
noncomputable def bval (P : Fin 3 → ℝ × ℝ) (p : Fin 3 → Fin 6 → ℝ) (L : Fin 3 → ℝ) : ℝ :=
  ∑ i, ∑ k, (NN i k).eval (env L (bb P) (cc P)) * p i k

/-- barycentric derivatives of the interpolation -/
noncomputable def bder (P : Fin 3 → ℝ × ℝ) (p : Fin 3 → Fin 6 → ℝ) (L : Fin 3 → ℝ) (j : Fin 3) : ℝ :=
  ∑ i, ∑ k, ((NN i k).diff (LL j)).eval (env L (bb P) (cc P)) * p i k

/-- second barycentric derivatives of the interpolation -/
noncomputable def bder2 (P : Fin 3 → ℝ × ℝ) (p : Fin 3 → Fin 6 → ℝ) (L : Fin 3 → ℝ) (j l : Fin 3) : ℝ :=
  ∑ i, ∑ k, (((NN i k).diff (LL j)).diff (LL l)).eval (env L (bb P) (cc P)) * p i k

theorem interpolation_eq (h : Nondegenerate P) :
    interpolation (tvOf P) (baryOf L) (parOf p) = .ok (bval P p L) := by
  rw [interpolation, parOf_eq, if_neg (by simp), shapeFunction_eq h, bind_ok]
  simp only [Vec.dot, vecOf, zipWith_ofFn, List.sum_ofFn, pure_eq_ok]
  congr 1
  exact sum18 fun i k => (NN i k).eval (env L (bb P) (cc P)) * p i k

theorem gradM_mulVec (j : Fin 3) :
    ((gradM P L).transpose.mulVec fun m => p (di m) (mo m)) j = bder P p L j := by
  simp only [Matrix.mulVec, dotProduct, Matrix.transpose_apply, gradM, Matrix.of_apply]
  exact sum18 fun i k => ((NN i k).diff (LL j)).eval (env L (bb P) (cc P)) * p i k

theorem hessM_mulVec (q : Fin 6) :
    ((hessM P L).transpose.mulVec fun m => p (di m) (mo m)) q = bder2 P p L (hi q) (hj q) := by
  simp only [Matrix.mulVec, dotProduct, Matrix.transpose_apply, hessM, Matrix.of_apply]
  exact sum18 fun i k => (((NN i k).diff (LL (hi q))).diff (LL (hj q))).eval (env L (bb P) (cc P)) * p i k

theorem transformGradient_eq (h : Nondegenerate P) (g : Fin 3 → ℝ) :
    transformGradient (tvOf P) (vecOf g) = .ok (vecOf
      ![∑ j, bb P j * g j / twoD P, ∑ j, cc P j * g j / twoD P]) := by
  obtain ⟨a, ha, hsum⟩ := getA_sum P
  rw [transformGradient, ha, bind_ok, getB_eq, bind_ok, getC_eq, bind_ok]
  have h2 : (2 * ((a.1 + a.2.1 + a.2.2) / 2)) = twoD P := by rw [hsum]; ring
  have hM : Mat.new [[bb P 0, bb P 1, bb P 2], [cc P 0, cc P 1, cc P 2]] =
      .ok (matOf !![bb P 0, bb P 1, bb P 2; cc P 0, cc P 1, cc P 2]) := by
    simp [Mat.new, matOf, List.ofFn_succ]
  simp only [h2, hM, bind_ok]
  rw [truediv_matOf _ (show twoD P ≠ 0 from h), bind_ok, dot_matOf]
  congr 2
  funext r
  fin_cases r
  · simp [Matrix.mulVec, dotProduct, Fin.sum_univ_succ]; ring
  · simp [Matrix.mulVec, dotProduct, Fin.sum_univ_succ]; ring

theorem gradient_eq (h : Nondegenerate P) :
    interpolationGradient (tvOf P) (baryOf L) (parOf p) = .ok (vecOf
      ![∑ j, bb P j * bder P p L j / twoD P, ∑ j, cc P j * bder P p L j / twoD P]) := by
  rw [interpolationGradient, parOf_eq, if_neg (by simp), shapeGradient_eq h, bind_ok,
    transpose_matOf, bind_ok]
  rw [dot_matOf, bind_ok, transformGradient_eq h]
  rw [funext gradM_mulVec]

theorem bder2_symm (j l : Fin 3) : bder2 P p L j l = bder2 P p L l j := by
  simp only [bder2, eval_diff_comm _ (LL j) (LL l)]

/-- the matrix of `transform_hessian` -/
noncomputable def trafoH (b c : Fin 3 → ℝ) : Matrix (Fin 3) (Fin 6) ℝ :=
  !![b 0 ^ 2, b 1 ^ 2, b 2 ^ 2, 2 * b 0 * b 1, 2 * b 0 * b 2, 2 * b 1 * b 2;
     c 0 ^ 2, c 1 ^ 2, c 2 ^ 2, 2 * c 0 * c 1, 2 * c 0 * c 2, 2 * c 1 * c 2;
     b 0 * c 0, b 1 * c 1, b 2 * c 2, b 0 * c 1 + b 1 * c 0, b 0 * c 2 + b 2 * c 0, b 1 * c 2 + b 2 * c 1]

theorem transformHessian_eq (h : Nondegenerate P) (g : Fin 6 → ℝ) :
    transformHessian (tvOf P) (vecOf g) = .ok (matOf
      !![(trafoH (bb P) (cc P)).mulVec g 0 / twoD P ^ 2, (trafoH (bb P) (cc P)).mulVec g 2 / twoD P ^ 2;
        (trafoH (bb P) (cc P)).mulVec g 2 / twoD P ^ 2, (trafoH (bb P) (cc P)).mulVec g 1 / twoD P ^ 2]) := by
  obtain ⟨a, ha, hsum⟩ := getA_sum P
  rw [transformHessian, ha, bind_ok, getB_eq, bind_ok, getC_eq, bind_ok]
  have h2 : (4 * ((a.1 + a.2.1 + a.2.2) / 2) ^ 2) = twoD P ^ 2 := by rw [hsum]; ring
  have hM : Mat.new
    [[bb P 0 ^ 2, bb P 1 ^ 2, bb P 2 ^ 2, 2 * bb P 0 * bb P 1, 2 * bb P 0 * bb P 2, 2 * bb P 1 * bb P 2],
     [cc P 0 ^ 2, cc P 1 ^ 2, cc P 2 ^ 2, 2 * cc P 0 * cc P 1, 2 * cc P 0 * cc P 2, 2 * cc P 1 * cc P 2],
     [bb P 0 * cc P 0, bb P 1 * cc P 1, bb P 2 * cc P 2, bb P 0 * cc P 1 + bb P 1 * cc P 0,
      bb P 0 * cc P 2 + bb P 2 * cc P 0, bb P 1 * cc P 2 + bb P 2 * cc P 1]] =
      .ok (matOf (trafoH (bb P) (cc P))) := by
    simp [Mat.new, matOf, List.ofFn_succ, trafoH]
  simp only [h2, hM, bind_ok]
  rw [truediv_matOf _ (pow_ne_zero 2 (show twoD P ≠ 0 from h)), bind_ok, dot_matOf, bind_ok]
  generalize hw : (Matrix.mulVec (Matrix.of fun i j => trafoH (bb P) (cc P) i j / twoD P ^ 2) g) = w
  have e0 := getItem_vecOf w 0
  have e1 := getItem_vecOf w 1
  have e2 := getItem_vecOf w 2
  simp only [Fin.val_zero, Fin.val_one, Fin.val_two, Nat.cast_zero, Nat.cast_one, Nat.cast_ofNat] at e0 e1 e2
  rw [e0, bind_ok, e1, bind_ok, e2, bind_ok]
  have hwr : ∀ i, w i = (trafoH (bb P) (cc P)).mulVec g i / twoD P ^ 2 := by
    intro i
    rw [← hw]
    simp only [Matrix.mulVec, dotProduct, Finset.sum_div, Matrix.of_apply]
    exact Finset.sum_congr rfl fun j _ => by ring
  simp [Mat.new, matOf, List.ofFn_succ, hwr]

theorem hessian_eq (h : Nondegenerate P) :
    interpolationHessian (tvOf P) (baryOf L) (parOf p) = .ok (matOf
      !![∑ j, ∑ l, bb P j * bb P l * bder2 P p L j l / twoD P ^ 2,
         ∑ j, ∑ l, bb P j * cc P l * bder2 P p L j l / twoD P ^ 2;
         ∑ j, ∑ l, cc P j * bb P l * bder2 P p L j l / twoD P ^ 2,
         ∑ j, ∑ l, cc P j * cc P l * bder2 P p L j l / twoD P ^ 2]) := by
  rw [interpolationHessian, parOf_eq, if_neg (by simp), shapeHessian_eq h, bind_ok,
    transpose_matOf, bind_ok]
  rw [dot_matOf, bind_ok, transformHessian_eq h, funext hessM_mulVec]
  have h10 : bder2 P p L 1 0 = bder2 P p L 0 1 := bder2_symm _ _
  have h20 : bder2 P p L 2 0 = bder2 P p L 0 2 := bder2_symm _ _
  have h21 : bder2 P p L 2 1 = bder2 P p L 1 2 := bder2_symm _ _
  congr 2
  funext r s
  fin_cases r <;> fin_cases s <;>
  · simp [Matrix.mulVec, dotProduct, Fin.sum_univ_succ, trafoH, hi, hj, h10, h20, h21]
    ring

end Bell
end Tve
