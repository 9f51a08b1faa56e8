import Verif.Lemmas.BellForm

/-! Bounds for the shape functions and their derivatives inside the triangle. -/

set_option linter.unusedSimpArgs false
set_option linter.unnecessarySeqFocus false

namespace Tve
namespace Bell
open Tve.Sym

/-- second derivatives of `nform` -/
noncomputable def ddform (a : Fin 8 → ℝ) (L : Fin 3 → ℝ) (j l : Fin 3) : ℝ :=
  ![![20 * a 0 * L 0 ^ 3 + 12 * a 1 * L 0 ^ 2 * L 1 + 12 * a 2 * L 0 ^ 2 * L 2 + 6 * a 3 * L 0 * L 1 ^ 2 +
        6 * a 4 * L 0 * L 2 ^ 2 + 6 * a 5 * L 0 * L 1 * L 2 + 2 * a 6 * L 1 * L 2 ^ 2 + 2 * a 7 * L 1 ^ 2 * L 2,
      4 * a 1 * L 0 ^ 3 + 6 * a 3 * L 0 ^ 2 * L 1 + 3 * a 5 * L 0 ^ 2 * L 2 + 2 * a 6 * L 0 * L 2 ^ 2 +
        4 * a 7 * L 0 * L 1 * L 2,
      4 * a 2 * L 0 ^ 3 + 6 * a 4 * L 0 ^ 2 * L 2 + 3 * a 5 * L 0 ^ 2 * L 1 + 4 * a 6 * L 0 * L 1 * L 2 +
        2 * a 7 * L 0 * L 1 ^ 2],
    ![4 * a 1 * L 0 ^ 3 + 6 * a 3 * L 0 ^ 2 * L 1 + 3 * a 5 * L 0 ^ 2 * L 2 + 2 * a 6 * L 0 * L 2 ^ 2 +
        4 * a 7 * L 0 * L 1 * L 2,
      2 * a 3 * L 0 ^ 3 + 2 * a 7 * L 0 ^ 2 * L 2,
      a 5 * L 0 ^ 3 + 2 * a 6 * L 0 ^ 2 * L 2 + 2 * a 7 * L 0 ^ 2 * L 1],
    ![4 * a 2 * L 0 ^ 3 + 6 * a 4 * L 0 ^ 2 * L 2 + 3 * a 5 * L 0 ^ 2 * L 1 + 4 * a 6 * L 0 * L 1 * L 2 +
        2 * a 7 * L 0 * L 1 ^ 2,
      a 5 * L 0 ^ 3 + 2 * a 6 * L 0 ^ 2 * L 2 + 2 * a 7 * L 0 ^ 2 * L 1,
      2 * a 4 * L 0 ^ 3 + 2 * a 6 * L 0 ^ 2 * L 1]] j l

set_option maxHeartbeats 2000000 in
theorem eval_diff2_NF (L b c : Fin 3 → ℝ) (k : Fin 6) (j l : Fin 3) :
    (((NF k).diff (LL j)).diff (LL l)).eval (env L b c) = ddform (coef b c k) L j l := by
  fin_cases k <;> fin_cases j <;> fin_cases l <;>
  simp [NF, N1, N2, N3, N4, N5, N6, r21, r31, rEntry, L1, L2, L3, b1, b2, b3, c1, c2, c3, fiveHalves, ddform, coef,
    R21, R31, diff, c_add, c_sub, c_neg, c_mul, c_div, c_pow, c_ofNat, eval, LL] <;> ring

variable {P : Fin 3 → ℝ × ℝ} {L : Fin 3 → ℝ} {p : Fin 3 → Fin 6 → ℝ}

theorem bder2_form (j l : Fin 3) : bder2 P p L j l =
    ∑ i, ∑ k, ddform (coef (sh i (bb P)) (sh i (cc P)) k) (sh i L) (j - i) (l - i) * p i k := by
  simp only [bder2]
  refine Finset.sum_congr rfl fun i _ => Finset.sum_congr rfl fun k _ => ?_
  have := eval_diff2_NN L (bb P) (cc P) i (j - i) (l - i) k
  rw [sub_add_cancel, sub_add_cancel] at this
  rw [this, eval_diff2_NF, rot_eq_sh, rot_eq_sh, rot_eq_sh]

/-- the multinomial coefficients of the common monomials -/
def mult : Fin 8 → ℝ := ![1, 5, 5, 10, 10, 20, 30, 30]

theorem nonneg8 {a0 a1 a2 a3 a4 a5 a6 a7 : ℝ} (h0 : 0 ≤ a0) (h1 : 0 ≤ a1) (h2 : 0 ≤ a2) (h3 : 0 ≤ a3) (h4 : 0 ≤ a4)
    (h5 : 0 ≤ a5) (h6 : 0 ≤ a6) (h7 : 0 ≤ a7) : ∀ i, 0 ≤ ![a0, a1, a2, a3, a4, a5, a6, a7] i := by
  intro i
  fin_cases i <;> assumption

theorem weighted_le {a w : Fin 8 → ℝ} {m C : ℝ} (ha : ∀ i, |a i| ≤ m * mult i) (hw : ∀ i, 0 ≤ w i)
    (hC : ∑ i, mult i * w i ≤ C) : |∑ i, a i * w i| ≤ m * C := by
  have hm : 0 ≤ m := by
    have := (abs_nonneg _).trans (ha 0)
    simpa [mult] using this
  calc |∑ i, a i * w i| ≤ ∑ i, |a i * w i| := Finset.abs_sum_le_sum_abs _ _
    _ ≤ ∑ i, m * (mult i * w i) := Finset.sum_le_sum fun i _ => by
        rw [abs_mul, abs_of_nonneg (hw i), ← mul_assoc]
        exact mul_le_mul_of_nonneg_right (ha i) (hw i)
    _ = m * ∑ i, mult i * w i := by rw [Finset.mul_sum]
    _ ≤ m * C := mul_le_mul_of_nonneg_left hC hm

/-- a polynomial with coefficients at most `m` times those of `(L₀ + L₁ + L₂) ^ 5` is at most `m` -/
theorem nform_le {a : Fin 8 → ℝ} {m : ℝ} (ha : ∀ i, |a i| ≤ m * mult i) (h0 : ∀ i, 0 ≤ L i) (h1 : L 0 + L 1 + L 2 = 1) :
    |nform a L| ≤ m := by
  have hx := h0 0
  have hy := h0 1
  have hz := h0 2
  have e : nform a L = ∑ i, a i * ![L 0 ^ 5, L 0 ^ 4 * L 1, L 0 ^ 4 * L 2, L 0 ^ 3 * L 1 ^ 2, L 0 ^ 3 * L 2 ^ 2,
      L 0 ^ 3 * L 1 * L 2, L 0 ^ 2 * L 1 * L 2 ^ 2, L 0 ^ 2 * L 1 ^ 2 * L 2] i := by
    simp only [nform, Fin.sum_univ_eight, Matrix.cons_val]; ring
  rw [e]
  have := weighted_le (C := 1) ha (w := ![L 0 ^ 5, L 0 ^ 4 * L 1, L 0 ^ 4 * L 2, L 0 ^ 3 * L 1 ^ 2, L 0 ^ 3 * L 2 ^ 2,
      L 0 ^ 3 * L 1 * L 2, L 0 ^ 2 * L 1 * L 2 ^ 2, L 0 ^ 2 * L 1 ^ 2 * L 2])
    (nonneg8 (by positivity) (by positivity) (by positivity) (by positivity) (by positivity) (by positivity) (by positivity)
        (by positivity)) (by
      have k : (L 0 + L 1 + L 2) ^ 5 = 1 := by rw [h1]; norm_num
      have r : 0 ≤ L 1 ^ 5 + 5 * L 1 ^ 4 * L 0 + 5 * L 1 ^ 4 * L 2 + 10 * L 1 ^ 3 * L 0 ^ 2 + 10 * L 1 ^ 3 * L 2 ^ 2 +
          20 * L 1 ^ 3 * L 0 * L 2 + 30 * L 0 * L 1 ^ 2 * L 2 ^ 2 + L 2 ^ 5 + 5 * L 2 ^ 4 * L 0 + 5 * L 2 ^ 4 * L 1 +
          10 * L 2 ^ 3 * L 0 ^ 2 + 10 * L 2 ^ 3 * L 1 ^ 2 + 20 * L 2 ^ 3 * L 0 * L 1 := by positivity
      simp only [mult, Fin.sum_univ_eight, Matrix.cons_val]
      refine le_trans ?_ (le_of_eq k)
      rw [← sub_nonneg]
      refine r.trans (le_of_eq ?_)
      ring)
  simpa using this

theorem dform_le {a : Fin 8 → ℝ} {m : ℝ} (ha : ∀ i, |a i| ≤ m * mult i) (h0 : ∀ i, 0 ≤ L i) (h1 : L 0 + L 1 + L 2 = 1)
    (j : Fin 3) : |dform a L j| ≤ m * 5 := by
  have hx := h0 0
  have hy := h0 1
  have hz := h0 2
  have k : (L 0 + L 1 + L 2) ^ 4 = 1 := by rw [h1]; norm_num
  have e : ∀ w : Fin 8 → ℝ, (∀ i, 0 ≤ w i) → ∑ i, mult i * w i ≤ 5 * (L 0 + L 1 + L 2) ^ 4 → dform a L j = ∑ i, a i * w i →
      |dform a L j| ≤ m * 5 := fun w h2 h3 h4 => by
    rw [h4]; exact weighted_le ha h2 (by rw [k] at h3; linarith)
  fin_cases j
  · refine e ![5 * L 0 ^ 4, 4 * L 0 ^ 3 * L 1, 4 * L 0 ^ 3 * L 2, 3 * L 0 ^ 2 * L 1 ^ 2, 3 * L 0 ^ 2 * L 2 ^ 2,
      3 * L 0 ^ 2 * L 1 * L 2, 2 * L 0 * L 1 * L 2 ^ 2, 2 * L 0 * L 1 ^ 2 * L 2]
      (nonneg8 (by positivity) (by positivity) (by positivity) (by positivity) (by positivity) (by positivity) (by positivity)
        (by positivity)) ?_ ?_
    · simp only [mult, Fin.sum_univ_eight, Matrix.cons_val]
      have r : 0 ≤ 5 * L 1 ^ 4 + 20 * L 0 * L 1 ^ 3 + 20 * L 1 ^ 3 * L 2 + 5 * L 2 ^ 4 + 20 * L 0 * L 2 ^ 3 + 20 * L 2 ^ 3 * L 1 +
        30 * L 1 ^ 2 * L 2 ^ 2 := by positivity
      rw [← sub_nonneg]
      refine r.trans (le_of_eq ?_)
      ring
    · simp [dform, Fin.sum_univ_eight]; ring
  · refine e ![0, L 0 ^ 4, 0, 2 * L 0 ^ 3 * L 1, 0, L 0 ^ 3 * L 2, L 0 ^ 2 * L 2 ^ 2, 2 * L 0 ^ 2 * L 1 * L 2]
      (nonneg8 (by positivity) (by positivity) (by positivity) (by positivity) (by positivity) (by positivity) (by positivity)
        (by positivity)) ?_ ?_
    · simp only [mult, Fin.sum_univ_eight, Matrix.cons_val]
      have r : 0 ≤ 5 * (L 1 ^ 4 + L 2 ^ 4 + 4 * L 1 ^ 3 * L 0 + 4 * L 1 ^ 3 * L 2 + 4 * L 2 ^ 3 * L 0 + 4 * L 2 ^ 3 * L 1 +
        6 * L 0 ^ 2 * L 1 ^ 2 + 6 * L 1 ^ 2 * L 2 ^ 2 + 12 * L 0 * L 1 ^ 2 * L 2 + 12 * L 0 * L 1 * L 2 ^ 2) := by positivity
      rw [← sub_nonneg]
      refine r.trans (le_of_eq ?_)
      ring
    · simp [dform, Fin.sum_univ_eight]; ring
  · refine e ![0, 0, L 0 ^ 4, 0, 2 * L 0 ^ 3 * L 2, L 0 ^ 3 * L 1, 2 * L 0 ^ 2 * L 1 * L 2, L 0 ^ 2 * L 1 ^ 2]
      (nonneg8 (by positivity) (by positivity) (by positivity) (by positivity) (by positivity) (by positivity) (by positivity)
        (by positivity)) ?_ ?_
    · simp only [mult, Fin.sum_univ_eight, Matrix.cons_val]
      have r : 0 ≤ 5 * (L 1 ^ 4 + L 2 ^ 4 + 4 * L 1 ^ 3 * L 0 + 4 * L 1 ^ 3 * L 2 + 4 * L 2 ^ 3 * L 0 + 4 * L 2 ^ 3 * L 1 +
        6 * L 0 ^ 2 * L 2 ^ 2 + 6 * L 1 ^ 2 * L 2 ^ 2 + 12 * L 0 * L 1 ^ 2 * L 2 + 12 * L 0 * L 1 * L 2 ^ 2) := by positivity
      rw [← sub_nonneg]
      refine r.trans (le_of_eq ?_)
      ring
    · simp [dform, Fin.sum_univ_eight]; ring

theorem ddform_symm (a : Fin 8 → ℝ) (j l : Fin 3) : ddform a L j l = ddform a L l j := by
  fin_cases j <;> fin_cases l <;> rfl

theorem ddform_le {a : Fin 8 → ℝ} {m : ℝ} (ha : ∀ i, |a i| ≤ m * mult i) (h0 : ∀ i, 0 ≤ L i) (h1 : L 0 + L 1 + L 2 = 1)
    (j l : Fin 3) : |ddform a L j l| ≤ m * 20 := by
  have hx := h0 0
  have hy := h0 1
  have hz := h0 2
  have k : (L 0 + L 1 + L 2) ^ 3 = 1 := by rw [h1]; norm_num
  have e : ∀ j l, ∀ w : Fin 8 → ℝ, (∀ i, 0 ≤ w i) → 0 ≤ 20 * (L 0 + L 1 + L 2) ^ 3 - ∑ i, mult i * w i →
      ddform a L j l = ∑ i, a i * w i → |ddform a L j l| ≤ m * 20 := fun j l w h2 h3 h4 => by
    rw [h4]; exact weighted_le ha h2 (by rw [k] at h3; linarith)
  have c00 : |ddform a L 0 0| ≤ m * 20 := by
    refine e 0 0 ![20 * L 0 ^ 3, 12 * L 0 ^ 2 * L 1, 12 * L 0 ^ 2 * L 2, 6 * L 0 * L 1 ^ 2, 6 * L 0 * L 2 ^ 2,
      6 * L 0 * L 1 * L 2, 2 * L 1 * L 2 ^ 2, 2 * L 1 ^ 2 * L 2]
      (nonneg8 (by positivity) (by positivity) (by positivity) (by positivity) (by positivity) (by positivity) (by positivity)
        (by positivity)) ?_ ?_
    · simp only [mult, Fin.sum_univ_eight, Matrix.cons_val]
      have r : 0 ≤ 20 * L 1 ^ 3 + 20 * L 2 ^ 3 := by positivity
      refine r.trans (le_of_eq ?_)
      ring
    · simp [ddform, Fin.sum_univ_eight]; ring
  have c01 : |ddform a L 0 1| ≤ m * 20 := by
    refine e 0 1 ![0, 4 * L 0 ^ 3, 0, 6 * L 0 ^ 2 * L 1, 0, 3 * L 0 ^ 2 * L 2, 2 * L 0 * L 2 ^ 2, 4 * L 0 * L 1 * L 2]
      (nonneg8 (by positivity) (by positivity) (by positivity) (by positivity) (by positivity) (by positivity) (by positivity)
        (by positivity)) ?_ ?_
    · simp only [mult, Fin.sum_univ_eight, Matrix.cons_val]
      have r : 0 ≤ 20 * L 1 ^ 3 + 20 * L 2 ^ 3 + 60 * L 0 * L 1 ^ 2 + 60 * L 1 ^ 2 * L 2 + 60 * L 1 * L 2 ^ 2 := by positivity
      refine r.trans (le_of_eq ?_)
      ring
    · simp [ddform, Fin.sum_univ_eight]; ring
  have c02 : |ddform a L 0 2| ≤ m * 20 := by
    refine e 0 2 ![0, 0, 4 * L 0 ^ 3, 0, 6 * L 0 ^ 2 * L 2, 3 * L 0 ^ 2 * L 1, 4 * L 0 * L 1 * L 2, 2 * L 0 * L 1 ^ 2]
      (nonneg8 (by positivity) (by positivity) (by positivity) (by positivity) (by positivity) (by positivity) (by positivity)
        (by positivity)) ?_ ?_
    · simp only [mult, Fin.sum_univ_eight, Matrix.cons_val]
      have r : 0 ≤ 20 * L 1 ^ 3 + 20 * L 2 ^ 3 + 60 * L 0 * L 2 ^ 2 + 60 * L 1 ^ 2 * L 2 + 60 * L 1 * L 2 ^ 2 := by positivity
      refine r.trans (le_of_eq ?_)
      ring
    · simp [ddform, Fin.sum_univ_eight]; ring
  have c11 : |ddform a L 1 1| ≤ m * 20 := by
    refine e 1 1 ![0, 0, 0, 2 * L 0 ^ 3, 0, 0, 0, 2 * L 0 ^ 2 * L 2]
      (nonneg8 (by positivity) (by positivity) (by positivity) (by positivity) (by positivity) (by positivity) (by positivity)
        (by positivity)) ?_ ?_
    · simp only [mult, Fin.sum_univ_eight, Matrix.cons_val]
      have r : 0 ≤ 20 * L 1 ^ 3 + 20 * L 2 ^ 3 + 60 * L 0 ^ 2 * L 1 + 60 * L 0 * L 1 ^ 2 + 60 * L 0 * L 2 ^ 2 + 60 * L 1 ^ 2 * L 2 +
        60 * L 1 * L 2 ^ 2 + 120 * L 0 * L 1 * L 2 := by positivity
      refine r.trans (le_of_eq ?_)
      ring
    · simp [ddform, Fin.sum_univ_eight]; ring
  have c12 : |ddform a L 1 2| ≤ m * 20 := by
    refine e 1 2 ![0, 0, 0, 0, 0, L 0 ^ 3, 2 * L 0 ^ 2 * L 2, 2 * L 0 ^ 2 * L 1]
      (nonneg8 (by positivity) (by positivity) (by positivity) (by positivity) (by positivity) (by positivity) (by positivity)
        (by positivity)) ?_ ?_
    · simp only [mult, Fin.sum_univ_eight, Matrix.cons_val]
      have r : 0 ≤ 20 * L 1 ^ 3 + 20 * L 2 ^ 3 + 60 * L 0 * L 1 ^ 2 + 60 * L 0 * L 2 ^ 2 + 60 * L 1 ^ 2 * L 2 +
        60 * L 1 * L 2 ^ 2 + 120 * L 0 * L 1 * L 2 := by positivity
      refine r.trans (le_of_eq ?_)
      ring
    · simp [ddform, Fin.sum_univ_eight]; ring
  have c22 : |ddform a L 2 2| ≤ m * 20 := by
    refine e 2 2 ![0, 0, 0, 0, 2 * L 0 ^ 3, 0, 2 * L 0 ^ 2 * L 1, 0]
      (nonneg8 (by positivity) (by positivity) (by positivity) (by positivity) (by positivity) (by positivity) (by positivity)
        (by positivity)) ?_ ?_
    · simp only [mult, Fin.sum_univ_eight, Matrix.cons_val]
      have r : 0 ≤ 20 * L 1 ^ 3 + 20 * L 2 ^ 3 + 60 * L 0 ^ 2 * L 2 + 60 * L 0 * L 1 ^ 2 + 60 * L 0 * L 2 ^ 2 + 60 * L 1 ^ 2 * L 2 +
        60 * L 1 * L 2 ^ 2 + 120 * L 0 * L 1 * L 2 := by positivity
      refine r.trans (le_of_eq ?_)
      ring
    · simp [ddform, Fin.sum_univ_eight]; ring
  fin_cases j <;> fin_cases l
  · exact c00
  · exact c01
  · exact c02
  · rw [ddform_symm]; exact c01
  · exact c11
  · exact c12
  · rw [ddform_symm]; exact c02
  · rw [ddform_symm]; exact c12
  · exact c22

end Bell
end Tve
