import Verif.Lemmas.BellNodal
import Mathlib.Analysis.Calculus.FDeriv.Linear

/-! The Bell interpolation as a function of the plane and its derivatives. -/

set_option linter.unusedSimpArgs false

namespace Tve
namespace Bell
open Tve.Sym

/-- barycentric weights of a point of the plane -/
noncomputable def lam (P : Fin 3 → ℝ × ℝ) (z : ℝ × ℝ) : Fin 3 → ℝ := fun j =>
  (((P (j + 1)).1 * (P (j + 2)).2 - (P (j + 2)).1 * (P (j + 1)).2) + bb P j * z.1 + cc P j * z.2) / twoD P

variable {P : Fin 3 → ℝ × ℝ} {L : Fin 3 → ℝ} {p : Fin 3 → Fin 6 → ℝ}

theorem lam_pointOf (h : Nondegenerate P) (hL : L 0 + L 1 + L 2 = 1) : lam P (pointOf P L) = L := by
  have h' : twoD P ≠ 0 := h
  have e0 : L 0 = 1 - L 1 - L 2 := by linarith
  funext j
  rw [lam, div_eq_iff h']
  fin_cases j <;> simp [twoD, cross, bb, cc, pointOf, baryPoint, e0] <;> ring

theorem lam_sum (h : Nondegenerate P) (z : ℝ × ℝ) : lam P z 0 + lam P z 1 + lam P z 2 = 1 := by
  have h' : twoD P ≠ 0 := h
  simp only [lam]
  rw [← add_div, ← add_div, div_eq_iff h']
  simp [twoD, cross, bb, cc]
  ring

theorem pointOf_lam (h : Nondegenerate P) (z : ℝ × ℝ) : pointOf P (lam P z) = z := by
  have h' : twoD P ≠ 0 := h
  apply Prod.ext
  · simp only [pointOf, baryPoint, lam, Prod.fst_add, Prod.smul_fst, smul_eq_mul]
    rw [div_mul_eq_mul_div, div_mul_eq_mul_div, div_mul_eq_mul_div, ← add_div, ← add_div, div_eq_iff h']
    simp [twoD, cross, bb, cc]
    ring
  · simp only [pointOf, baryPoint, lam, Prod.snd_add, Prod.smul_snd, smul_eq_mul]
    rw [div_mul_eq_mul_div, div_mul_eq_mul_div, div_mul_eq_mul_div, ← add_div, ← add_div, div_eq_iff h']
    simp [twoD, cross, bb, cc]
    ring

theorem lam_deriv (j : Fin 3) (z : ℝ × ℝ) :
    HasFDerivAt (fun y => lam P y j) (lin (bb P j / twoD P) (cc P j / twoD P)) z := by
  have h : (fun y => lam P y j) = fun y => lin (bb P j / twoD P) (cc P j / twoD P) y +
      ((P (j + 1)).1 * (P (j + 2)).2 - (P (j + 2)).1 * (P (j + 1)).2) / twoD P := by
    funext y; simp [lam, lin]; ring
  rw [h]
  exact (ContinuousLinearMap.hasFDerivAt _).add_const _

/-- derivative of an expression along the barycentric coordinates -/
theorem eval_deriv {e : Sym} {z : ℝ × ℝ} (h : e.Safe (env (lam P z) (bb P) (cc P))) :
    HasFDerivAt (fun y => e.eval (env (lam P y) (bb P) (cc P)))
      (∑ j, (e.diff (LL j)).eval (env (lam P z) (bb P) (cc P)) • lin (bb P j / twoD P) (cc P j / twoD P)) z := by
  have key := hasFDerivAt_eval (v := fun y => env (lam P y) (bb P) (cc P)) (z := z) {"L1", "L2", "L3"}
    (fun s => if s = "L1" then lin (bb P 0 / twoD P) (cc P 0 / twoD P) else
      if s = "L2" then lin (bb P 1 / twoD P) (cc P 1 / twoD P) else lin (bb P 2 / twoD P) (cc P 2 / twoD P))
    (by
      intro s hs
      simp only [Finset.mem_insert, Finset.mem_singleton] at hs
      rcases hs with rfl | rfl | rfl
      · simpa using lam_deriv 0 z
      · simpa using lam_deriv 1 z
      · simpa using lam_deriv 2 z)
    (by
      intro s hs y
      simp only [Finset.mem_insert, Finset.mem_singleton, not_or] at hs
      have h1 : (s == "L1") = false := by simpa using hs.1
      have h2 : (s == "L2") = false := by simpa using hs.2.1
      have h3 : (s == "L3") = false := by simpa using hs.2.2
      simp only [env, params9, symL, symB, symC, List.cons_append, List.nil_append, List.zip_cons_cons, List.lookup,
        h1, h2, h3])
    h
  refine key.congr_fderiv ?_
  rw [Finset.sum_insert (by simp), Finset.sum_insert (by simp), Finset.sum_singleton]
  simp [Fin.sum_univ_succ, LL]

/-- the interpolation as a function of the plane -/
noncomputable def bfun (P : Fin 3 → ℝ × ℝ) (p : Fin 3 → Fin 6 → ℝ) (z : ℝ × ℝ) : ℝ := bval P p (lam P z)
/-- its first derivatives -/
noncomputable def bfx (P : Fin 3 → ℝ × ℝ) (p : Fin 3 → Fin 6 → ℝ) (z : ℝ × ℝ) : ℝ :=
  ∑ j, bb P j * bder P p (lam P z) j / twoD P
/-- its first derivatives -/
noncomputable def bfy (P : Fin 3 → ℝ × ℝ) (p : Fin 3 → Fin 6 → ℝ) (z : ℝ × ℝ) : ℝ :=
  ∑ j, cc P j * bder P p (lam P z) j / twoD P

theorem family_deriv {e : Fin 3 → Fin 6 → Sym} {z : ℝ × ℝ}
    (h : ∀ i k, (e i k).Safe (env (lam P z) (bb P) (cc P))) :
    HasFDerivAt (fun y => ∑ i, ∑ k, (e i k).eval (env (lam P y) (bb P) (cc P)) * p i k)
      (∑ j, (∑ i, ∑ k, ((e i k).diff (LL j)).eval (env (lam P z) (bb P) (cc P)) * p i k) •
        lin (bb P j / twoD P) (cc P j / twoD P)) z := by
  have h1 : ∀ i k, HasFDerivAt (fun y => (e i k).eval (env (lam P y) (bb P) (cc P)) * p i k)
      (p i k • ∑ j, ((e i k).diff (LL j)).eval (env (lam P z) (bb P) (cc P)) •
        lin (bb P j / twoD P) (cc P j / twoD P)) z := by
    intro i k
    exact (eval_deriv (h i k)).mul_const (p i k)
  have h2 := HasFDerivAt.fun_sum (u := Finset.univ) fun i _ => HasFDerivAt.fun_sum (u := Finset.univ) fun k _ => h1 i k
  refine HasFDerivAt.congr_fderiv h2 ?_
  simp only [Finset.sum_smul, Finset.smul_sum, smul_smul]
  rw [Finset.sum_comm (s := Finset.univ (α := Fin 3)) (t := Finset.univ (α := Fin 3))
    (f := fun j i => ∑ k, (eval (env (lam P z) (bb P) (cc P)) (diff (LL j) (e i k)) * p i k) •
      lin (bb P j / twoD P) (cc P j / twoD P))]
  refine Finset.sum_congr rfl fun i _ => ?_
  rw [Finset.sum_comm]
  refine Finset.sum_congr rfl fun j _ => Finset.sum_congr rfl fun k _ => ?_
  rw [mul_comm]

theorem sum_lin (f b c : Fin 3 → ℝ) (d : ℝ) : ∑ j, f j • lin (b j / d) (c j / d) =
    lin (∑ j, b j * f j / d) (∑ j, c j * f j / d) := by
  apply ContinuousLinearMap.ext
  intro y
  simp [lin, Fin.sum_univ_succ]
  ring

theorem bfun_deriv (h : Nondegenerate P) (z : ℝ × ℝ) :
    HasFDerivAt (bfun P p) (lin (bfx P p z) (bfy P p z)) z := by
  have := family_deriv (P := P) (p := p) (e := NN) (z := z) (fun i k => safe_NN (nondeg_norm h) i k)
  rw [sum_lin] at this
  exact this

theorem bder_deriv (h : Nondegenerate P) (z : ℝ × ℝ) (j : Fin 3) :
    HasFDerivAt (fun y => bder P p (lam P y) j) (lin (∑ l, bb P l * bder2 P p (lam P z) j l / twoD P)
      (∑ l, cc P l * bder2 P p (lam P z) j l / twoD P)) z := by
  have := family_deriv (P := P) (p := p) (e := fun i k => (NN i k).diff (LL j)) (z := z)
    (fun i k => safe_diff _ (safe_NN (nondeg_norm h) i k))
  rw [sum_lin] at this
  exact this

theorem comb_deriv (h : Nondegenerate P) (z : ℝ × ℝ) (w : Fin 3 → ℝ) :
    HasFDerivAt (fun y => ∑ j, w j * bder P p (lam P y) j / twoD P)
      (lin (∑ j, ∑ l, w j * bb P l * bder2 P p (lam P z) j l / twoD P ^ 2)
        (∑ j, ∑ l, w j * cc P l * bder2 P p (lam P z) j l / twoD P ^ 2)) z := by
  have h2 := HasFDerivAt.fun_sum (u := Finset.univ) fun j _ => (((bder_deriv (p := p) h z j).const_mul (w j)).mul_const (twoD P)⁻¹)
  simp only [div_eq_mul_inv (_ * _) (twoD P)] 
  refine h2.congr_fderiv ?_
  apply ContinuousLinearMap.ext
  intro y
  simp [lin, Fin.sum_univ_succ]
  ring

end Bell
end Tve
