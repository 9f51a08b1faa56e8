import Verif.Lemmas.BellEval

/-! Nodal values of the shape functions. -/

set_option linter.unusedSimpArgs false
set_option linter.unnecessarySeqFocus false

namespace Tve
namespace Bell
open Tve.Sym

/-- unit weights -/
def unitW (m : Fin 3) : Fin 3 → ℝ := fun i => if i = m then 1 else 0

theorem nodal0 (b c : Fin 3 → ℝ) (k : Fin 6) (m : Fin 3) :
    (NF k).eval (env (unitW m) b c) = if m = 0 ∧ k = 0 then 1 else 0 := by
  fin_cases k <;> fin_cases m <;>
  simp [NF, N1, N2, N3, N4, N5, N6, r21, r31, rEntry, L1, L2, L3, b1, b2, b3, c1, c2, c3, fiveHalves, unitW]

/-- values of the first derivatives at the first vertex -/
noncomputable def val1 (b c : Fin 3 → ℝ) (k : Fin 6) (j : Fin 3) : ℝ :=
  ![![5, 5, 5], ![0, c 2, -c 1], ![0, -b 2, b 1], ![0, 0, 0], ![0, 0, 0], ![0, 0, 0]] k j

theorem nodal1 (b c : Fin 3 → ℝ) (k : Fin 6) (m j : Fin 3) :
    ((NF k).diff (LL j)).eval (env (unitW m) b c) = if m = 0 then val1 b c k j else 0 := by
  fin_cases k <;> fin_cases m <;> fin_cases j <;>
  simp [NF, N1, N2, N3, N4, N5, N6, r21, r31, rEntry, L1, L2, L3, b1, b2, b3, c1, c2, c3, fiveHalves, unitW,
    diff, c_add, c_sub, c_neg, c_mul, c_div, c_pow, c_ofNat, eval, LL, val1] <;> norm_num

/-- values of the second derivatives at the first vertex -/
noncomputable def val2 (b c : Fin 3 → ℝ) (k : Fin 6) : Matrix (Fin 3) (Fin 3) ℝ :=
  ![!![20, 20, 20; 20, 20, 20; 20, 20, 20],
    !![0, 4 * c 2, -(4 * c 1); 4 * c 2, 8 * c 2, 4 * (c 2 - c 1); -(4 * c 1), 4 * (c 2 - c 1), -(8 * c 1)],
    !![0, -(4 * b 2), 4 * b 1; -(4 * b 2), -(8 * b 2), 4 * (b 1 - b 2); 4 * b 1, 4 * (b 1 - b 2), 8 * b 1],
    !![0, 0, 0; 0, c 2 ^ 2, -(c 1 * c 2); 0, -(c 1 * c 2), c 1 ^ 2],
    !![0, 0, 0; 0, -(2 * b 2 * c 2), b 1 * c 2 + b 2 * c 1; 0, b 1 * c 2 + b 2 * c 1, -(2 * b 1 * c 1)],
    !![0, 0, 0; 0, b 2 ^ 2, -(b 1 * b 2); 0, -(b 1 * b 2), b 1 ^ 2]] k

theorem nodal2_0 (b c : Fin 3 → ℝ) (m j l : Fin 3) :
    (((NF 0).diff (LL j)).diff (LL l)).eval (env (unitW m) b c) = if m = 0 then val2 b c 0 j l else 0 := by
  fin_cases m <;> fin_cases j <;> fin_cases l <;>
  simp [NF, N1, N2, N3, N4, N5, N6, r21, r31, rEntry, L1, L2, L3, b1, b2, b3, c1, c2, c3, fiveHalves, unitW,
    diff, c_add, c_sub, c_neg, c_mul, c_div, c_pow, c_ofNat, eval, LL, val2] <;> ring

theorem nodal2_1 (b c : Fin 3 → ℝ) (m j l : Fin 3) :
    (((NF 1).diff (LL j)).diff (LL l)).eval (env (unitW m) b c) = if m = 0 then val2 b c 1 j l else 0 := by
  fin_cases m <;> fin_cases j <;> fin_cases l <;>
  simp [NF, N1, N2, N3, N4, N5, N6, r21, r31, rEntry, L1, L2, L3, b1, b2, b3, c1, c2, c3, fiveHalves, unitW,
    diff, c_add, c_sub, c_neg, c_mul, c_div, c_pow, c_ofNat, eval, LL, val2] <;> ring

theorem nodal2_2 (b c : Fin 3 → ℝ) (m j l : Fin 3) :
    (((NF 2).diff (LL j)).diff (LL l)).eval (env (unitW m) b c) = if m = 0 then val2 b c 2 j l else 0 := by
  fin_cases m <;> fin_cases j <;> fin_cases l <;>
  simp [NF, N1, N2, N3, N4, N5, N6, r21, r31, rEntry, L1, L2, L3, b1, b2, b3, c1, c2, c3, fiveHalves, unitW,
    diff, c_add, c_sub, c_neg, c_mul, c_div, c_pow, c_ofNat, eval, LL, val2] <;> ring

theorem nodal2_3 (b c : Fin 3 → ℝ) (m j l : Fin 3) :
    (((NF 3).diff (LL j)).diff (LL l)).eval (env (unitW m) b c) = if m = 0 then val2 b c 3 j l else 0 := by
  fin_cases m <;> fin_cases j <;> fin_cases l <;>
  simp [NF, N1, N2, N3, N4, N5, N6, r21, r31, rEntry, L1, L2, L3, b1, b2, b3, c1, c2, c3, fiveHalves, unitW,
    diff, c_add, c_sub, c_neg, c_mul, c_div, c_pow, c_ofNat, eval, LL, val2] <;> ring

theorem nodal2_4 (b c : Fin 3 → ℝ) (m j l : Fin 3) :
    (((NF 4).diff (LL j)).diff (LL l)).eval (env (unitW m) b c) = if m = 0 then val2 b c 4 j l else 0 := by
  fin_cases m <;> fin_cases j <;> fin_cases l <;>
  simp [NF, N1, N2, N3, N4, N5, N6, r21, r31, rEntry, L1, L2, L3, b1, b2, b3, c1, c2, c3, fiveHalves, unitW,
    diff, c_add, c_sub, c_neg, c_mul, c_div, c_pow, c_ofNat, eval, LL, val2] <;> ring

theorem nodal2_5 (b c : Fin 3 → ℝ) (m j l : Fin 3) :
    (((NF 5).diff (LL j)).diff (LL l)).eval (env (unitW m) b c) = if m = 0 then val2 b c 5 j l else 0 := by
  fin_cases m <;> fin_cases j <;> fin_cases l <;>
  simp [NF, N1, N2, N3, N4, N5, N6, r21, r31, rEntry, L1, L2, L3, b1, b2, b3, c1, c2, c3, fiveHalves, unitW,
    diff, c_add, c_sub, c_neg, c_mul, c_div, c_pow, c_ofNat, eval, LL, val2] <;> ring

theorem nodal2 (b c : Fin 3 → ℝ) (k : Fin 6) (m j l : Fin 3) :
    (((NF k).diff (LL j)).diff (LL l)).eval (env (unitW m) b c) = if m = 0 then val2 b c k j l else 0 := by
  fin_cases k
  exacts [nodal2_0 b c m j l, nodal2_1 b c m j l, nodal2_2 b c m j l, nodal2_3 b c m j l, nodal2_4 b c m j l,
    nodal2_5 b c m j l]

theorem rot_unitW (i m : Fin 3) : rot^[i] (unitW m) = unitW (m - i) := by
  funext j
  rw [rot_iter]
  simp only [unitW]
  congr 1
  rw [eq_sub_iff_add_eq]

variable {P : Fin 3 → ℝ × ℝ} {p : Fin 3 → Fin 6 → ℝ}

theorem bval_unit (m : Fin 3) : bval P p (unitW m) = p m 0 := by
  simp only [bval, eval_NN, rot_unitW, nodal0, sub_eq_zero]
  rw [Finset.sum_eq_single m]
  · rw [Finset.sum_eq_single 0]
    · simp
    · intro k _ hk; simp [hk]
    · simp
  · intro i _ hi; simp [Ne.symm hi]
  · simp

theorem bder_unit (m j : Fin 3) :
    bder P p (unitW m) (j + m) = ∑ k, val1 (rot^[m] (bb P)) (rot^[m] (cc P)) k j * p m k := by
  simp only [bder]
  rw [Finset.sum_eq_single m]
  · exact Finset.sum_congr rfl fun k _ => by rw [eval_diff_NN, rot_unitW, nodal1]; simp
  · intro i _ hi
    apply Finset.sum_eq_zero
    intro k _
    have : j + m = (j + m - i) + i := (sub_add_cancel _ _).symm
    rw [this, eval_diff_NN, rot_unitW, nodal1]
    simp [sub_eq_zero, Ne.symm hi]
  · simp

theorem bder2_unit (m j l : Fin 3) :
    bder2 P p (unitW m) (j + m) (l + m) = ∑ k, val2 (rot^[m] (bb P)) (rot^[m] (cc P)) k j l * p m k := by
  simp only [bder2]
  rw [Finset.sum_eq_single m]
  · exact Finset.sum_congr rfl fun k _ => by rw [eval_diff2_NN, rot_unitW, nodal2]; simp
  · intro i _ hi
    apply Finset.sum_eq_zero
    intro k _
    have h1 : j + m = (j + m - i) + i := (sub_add_cancel _ _).symm
    have h2 : l + m = (l + m - i) + i := (sub_add_cancel _ _).symm
    rw [h1, h2, eval_diff2_NN, rot_unitW, nodal2]
    simp [sub_eq_zero, Ne.symm hi]
  · simp

theorem sum_shift (m : Fin 3) (f : Fin 3 → ℝ) : ∑ j, f j = ∑ j, f (j + m) :=
  (Equiv.sum_comp (Equiv.addRight m) f).symm

theorem bb_sum : bb P 0 + bb P 1 + bb P 2 = 0 := by simp [bb]
theorem cc_sum : cc P 0 + cc P 1 + cc P 2 = 0 := by simp [cc]
theorem twoD_eq : twoD P = bb P 0 * cc P 1 - bb P 1 * cc P 0 := by simp [bb, cc, twoD, cross]; ring

/-- the rotated coefficients satisfy the same relations -/
theorem rot_rel (m : Fin 3) : ∃ β1 β2 γ1 γ2 : ℝ, rot^[m] (bb P) = ![-(β1 + β2), β1, β2] ∧
    rot^[m] (cc P) = ![-(γ1 + γ2), γ1, γ2] ∧ twoD P = β1 * γ2 - β2 * γ1 := by
  have hb := bb_sum (P := P)
  have hc := cc_sum (P := P)
  have hd := twoD_eq (P := P)
  refine ⟨bb P (1 + m), bb P (2 + m), cc P (1 + m), cc P (2 + m), ?_, ?_, ?_⟩
  · funext j; rw [rot_iter]
    fin_cases m <;> fin_cases j <;> simp <;> linarith
  · funext j; rw [rot_iter]
    fin_cases m <;> fin_cases j <;> simp <;> linarith
  · rw [hd]
    have e0 : bb P 0 = -bb P 1 - bb P 2 := by linarith
    have e1 : cc P 0 = -cc P 1 - cc P 2 := by linarith
    fin_cases m <;> simp [e0, e1] <;> ring

end Bell
end Tve
