import Verif.Spec.Quadrature
import Verif.Lemmas.Py
import Mathlib.Analysis.SpecialFunctions.Integrals.Basic
import Mathlib.Tactic.NormNum
import Mathlib.Tactic.IntervalCases

namespace Tve
open MeasureTheory

/-- ∫₀¹ x^a (1-x)^c = a! c! / (a+c+1)! -/
theorem beta_int (c : ℕ) : ∀ a : ℕ, ∫ x in (0 : ℝ)..1, x ^ a * (1 - x) ^ c =
    (a.factorial * c.factorial : ℝ) / (a + c + 1).factorial := by
  induction c with
  | zero =>
    intro a
    simp [integral_pow, Nat.factorial_succ]
    field_simp
  | succ c ih =>
    intro a
    have h1 : ∀ x : ℝ, HasDerivAt (fun x : ℝ => x ^ (a + 1) * (1 - x) ^ (c + 1))
        ((a + 1) * (x ^ a * (1 - x) ^ (c + 1)) - (c + 1) * (x ^ (a + 1) * (1 - x) ^ c)) x := by
      intro x
      have e1 : HasDerivAt (fun x : ℝ => x ^ (a + 1)) ((a + 1 : ℕ) * x ^ a) x := by
        simpa using hasDerivAt_pow (a + 1) x
      have e0 : HasDerivAt (fun x : ℝ => 1 - x) (-1) x := by simpa using (hasDerivAt_id x).const_sub 1
      have e2 := e0.pow (c + 1)
      refine (e1.mul e2).congr_deriv ?_
      simp
      ring
    have h2 := intervalIntegral.integral_eq_sub_of_hasDerivAt (a := 0) (b := 1) (fun x _ => h1 x)
      (Continuous.intervalIntegrable (by fun_prop) _ _)
    rw [intervalIntegral.integral_sub (Continuous.intervalIntegrable (by fun_prop) _ _)
      (Continuous.intervalIntegrable (by fun_prop) _ _), intervalIntegral.integral_const_mul,
      intervalIntegral.integral_const_mul, ih (a + 1)] at h2
    simp at h2
    have h3 : (a + 1 : ℝ) ≠ 0 := by positivity
    have h4 : ∫ x in (0 : ℝ)..1, x ^ a * (1 - x) ^ (c + 1) =
        (c + 1) * (((a + 1).factorial * c.factorial : ℝ) / (a + 1 + c + 1).factorial) / (a + 1) := by
      rw [eq_div_iff h3]; linarith
    rw [h4]
    have : a + 1 + c + 1 = a + (c + 1) + 1 := by ring
    rw [this]
    have h5 : ((a + (c + 1) + 1).factorial : ℝ) ≠ 0 := by positivity
    rw [Nat.factorial_succ a, Nat.factorial_succ c]
    push_cast
    field_simp

/-- moments of the unit triangle -/
theorem moment (a b : ℕ) : unitTriangleIntegral (fun x y => x ^ a * y ^ b) =
    (a.factorial * b.factorial : ℝ) / (a + b + 2).factorial := by
  unfold unitTriangleIntegral
  have h : ∀ x : ℝ, ∫ y in (0 : ℝ)..(1 - x), x ^ a * y ^ b = (1 / (b + 1)) * (x ^ a * (1 - x) ^ (b + 1)) := by
    intro x
    rw [intervalIntegral.integral_const_mul, integral_pow]
    simp; ring
  simp_rw [h]
  rw [intervalIntegral.integral_const_mul, beta_int, Nat.factorial_succ b]
  push_cast
  have h3 : (b + 1 : ℝ) ≠ 0 := by positivity
  have : a + (b + 1) + 1 = a + b + 2 := by ring
  rw [this]
  field_simp

theorem polyFun_eq (p : MvPolynomial (Fin 2) ℝ) (x y : ℝ) :
    polyFun p x y = ∑ m ∈ p.support, p.coeff m * (x ^ m 0 * y ^ m 1) := by
  rw [polyFun, MvPolynomial.eval_eq']
  simp [Fin.prod_univ_two]

theorem unitTriangleIntegral_polyFun (p : MvPolynomial (Fin 2) ℝ) : unitTriangleIntegral (polyFun p) =
    ∑ m ∈ p.support, p.coeff m * unitTriangleIntegral (fun x y => x ^ m 0 * y ^ m 1) := by
  unfold unitTriangleIntegral
  have h : ∀ x : ℝ, ∫ y in (0 : ℝ)..(1 - x), polyFun p x y =
      ∑ m ∈ p.support, p.coeff m * ∫ y in (0 : ℝ)..(1 - x), x ^ m 0 * y ^ m 1 := by
    intro x
    simp_rw [polyFun_eq]
    rw [intervalIntegral.integral_finsetSum]
    · exact Finset.sum_congr rfl (fun m _ => intervalIntegral.integral_const_mul _ _)
    · exact fun m _ => Continuous.intervalIntegrable (by fun_prop) _ _
  simp_rw [h]
  rw [intervalIntegral.integral_finsetSum]
  · exact Finset.sum_congr rfl (fun m _ => intervalIntegral.integral_const_mul _ _)
  · intro m _
    apply Continuous.intervalIntegrable
    have h : (fun x : ℝ => p.coeff m * ∫ y in (0 : ℝ)..(1 - x), x ^ m 0 * y ^ m 1) = fun x =>
        p.coeff m * ((1 / (m 1 + 1 : ℝ)) * (x ^ m 0 * (1 - x) ^ (m 1 + 1))) := by
      funext x
      rw [intervalIntegral.integral_const_mul, integral_pow, zero_pow (by simp)]
      ring
    rw [h]
    fun_prop

theorem value_polyFun (r : TriRule ℝ) (p : MvPolynomial (Fin 2) ℝ) : r.value (polyFun p) =
    ∑ m ∈ p.support, p.coeff m * r.value (fun x y => x ^ m 0 * y ^ m 1) := by
  unfold TriRule.value
  generalize r.points.zip r.weights = l
  simp_rw [polyFun_eq]
  induction l with
  | nil => simp
  | cons a t ih =>
    simp only [List.map_cons, List.sum_cons, mul_add, ih, Finset.sum_add_distrib]
    congr 1
    rw [Finset.mul_sum, Finset.mul_sum]
    refine Finset.sum_congr rfl (fun m _ => ?_)
    ring

theorem total_le {p : MvPolynomial (Fin 2) ℝ} {d : ℕ} (h : p.totalDegree ≤ d) {m : Fin 2 →₀ ℕ} (hm : m ∈ p.support) :
    m 0 + m 1 ≤ d := by
  have := (MvPolynomial.le_totalDegree hm).trans h
  simpa [Finsupp.sum_fintype, Fin.sum_univ_two] using this

/-- error bound from the monomials -/
theorem error_le (r : TriRule ℝ) (d : ℕ) (ε : ℝ)
    (h : ∀ a b : ℕ, a + b ≤ d → |r.value (fun x y => x ^ a * y ^ b) -
      (a.factorial * b.factorial : ℝ) / (a + b + 2).factorial| ≤ ε)
    (p : MvPolynomial (Fin 2) ℝ) (hp : p.totalDegree ≤ d) :
    |r.value (polyFun p) - unitTriangleIntegral (polyFun p)| ≤ ε * coeffSum p := by
  rw [value_polyFun, unitTriangleIntegral_polyFun, ← Finset.sum_sub_distrib, coeffSum, Finset.mul_sum]
  refine (Finset.abs_sum_le_sum_abs _ _).trans (Finset.sum_le_sum fun m hm => ?_)
  rw [← mul_sub, abs_mul, mul_comm]
  refine mul_le_mul_of_nonneg_right ?_ (abs_nonneg _)
  rw [moment]
  exact h _ _ (total_le hp hm)

theorem exact_of_monomials (r : TriRule ℝ) (d : ℕ)
    (h : ∀ a b : ℕ, a + b ≤ d → r.value (fun x y => x ^ a * y ^ b) =
      (a.factorial * b.factorial : ℝ) / (a + b + 2).factorial) : r.ExactTo d := by
  intro p hp
  have := error_le r d 0 (fun a b hab => by rw [h a b hab]; simp) p hp
  rw [zero_mul] at this
  exact sub_eq_zero.1 (abs_eq_zero.1 (le_antisymm this (abs_nonneg _)))

end Tve
