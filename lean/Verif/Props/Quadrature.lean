import Verif.Lemmas.Quadrature
import Mathlib.MeasureTheory.Integral.IntervalIntegral.FundThmCalculus

/-!
# Properties C28 – C31: quadrature rules
-/

namespace Tve
open MeasureTheory

/-! ## C28 validation -/

/-- A rule is rejected with `ValueError` exactly when a point is outside the unit triangle or the weights do not sum
to one up to relative tolerance `1e-9`. -/
theorem C28_rejected (weights : List ℝ) (points : List (ℝ × ℝ)) :
    TriRule.new weights points = .error .valueError ↔
      (∃ p ∈ points, p.1 < 0 ∨ p.2 < 0 ∨ 1 < p.1 + p.2) ∨
        1 / 1000000000 * max |weights.sum| 1 < |weights.sum - 1| := by
  have hc : isclose weights.sum 1 = true ↔ |weights.sum - 1| ≤ 1 / 1000000000 * max |weights.sum| 1 := by
    have h0 : (0 : ℝ) ≤ 1 / 1000000000 * max |weights.sum| |1| :=
      mul_nonneg (by norm_num) (le_max_of_le_left (abs_nonneg _))
    rw [isclose, decide_eq_true_iff, max_eq_left h0, abs_one]
  rw [TriRule.new]
  split
  · rename_i h
    simp only [true_iff]
    left
    rw [List.any_eq_true] at h
    obtain ⟨p, hp, h⟩ := h
    simp only [Bool.or_eq_true, decide_eq_true_eq, gt_iff_lt] at h
    exact ⟨p, hp, by tauto⟩
  · rename_i h
    have h1 : ¬ ∃ p ∈ points, p.1 < 0 ∨ p.2 < 0 ∨ 1 < p.1 + p.2 := by
      rintro ⟨p, hp, h2⟩
      apply h
      rw [List.any_eq_true]
      exact ⟨p, hp, by simp only [Bool.or_eq_true, decide_eq_true_eq, gt_iff_lt]; tauto⟩
    split
    · rename_i h2
      simp only [true_iff]
      right
      rw [Bool.not_eq_true', Bool.eq_false_iff] at h2
      exact lt_of_not_ge (fun h3 => h2 (hc.2 h3))
    · rename_i h2
      rw [Bool.not_eq_true', Bool.not_eq_false] at h2
      simp only [reduceCtorEq, false_iff, not_or, not_lt]
      exact ⟨h1, hc.1 h2⟩

/-- a point outside the triangle; weights that do not add up to 1 -/
example : TriRule.new [(1 : ℝ)] [(3 / 4, 1 / 2)] = .error .valueError ∧
    TriRule.new [(1 : ℝ) / 2] [(1 / 3, 1 / 3)] = .error .valueError :=
  ⟨(C28_rejected _ _).2 (Or.inl ⟨_, List.mem_singleton_self _, by norm_num⟩),
   (C28_rejected _ _).2 (Or.inr (by norm_num))⟩

/-- Otherwise the rule is constructed, keeps the weights, and its points are barycentric coordinates in `[0,1]`
summing to one with the given first two components. -/
theorem C28_accepted (weights : List ℝ) (points : List (ℝ × ℝ))
    (h1 : ∀ p ∈ points, 0 ≤ p.1 ∧ 0 ≤ p.2 ∧ p.1 + p.2 ≤ 1)
    (h2 : |weights.sum - 1| ≤ 1 / 1000000000 * max |weights.sum| 1) :
    ∃ r, TriRule.new weights points = .ok r ∧ r.weights = weights ∧
      r.points.map (fun b => (b.l1, b.l2)) = points ∧
      ∀ b ∈ r.points, (0 ≤ b.l1 ∧ b.l1 ≤ 1) ∧ (0 ≤ b.l2 ∧ b.l2 ≤ 1) ∧ (0 ≤ b.l3 ∧ b.l3 ≤ 1) ∧
        b.l1 + b.l2 + b.l3 = 1 := by
  have hne : TriRule.new weights points ≠ .error .valueError := by
    rw [Ne, C28_rejected]
    rintro (⟨p, hp, h⟩ | h)
    · have := h1 p hp
      rcases h with h | h | h <;> linarith
    · linarith
  rw [TriRule.new] at hne ⊢
  split at hne
  · exact absurd rfl hne
  · split at hne
    · exact absurd rfl hne
    · rename_i e1 e2
      rw [if_neg e1, if_neg e2]
      refine ⟨_, rfl, rfl, ?_, ?_⟩
      · simp [Bary.new, Function.comp_def]
      · intro b hb
        rw [List.mem_map] at hb
        obtain ⟨p, hp, rfl⟩ := hb
        have := h1 p hp
        simp only [Bary.new]
        refine ⟨⟨by linarith, by linarith⟩, ⟨by linarith, by linarith⟩, ⟨by linarith, by linarith⟩, by ring⟩

/-- the two outcomes are the only ones -/
theorem C28_total (weights : List ℝ) (points : List (ℝ × ℝ)) :
    TriRule.new weights points = .error .valueError ∨ ∃ r, TriRule.new weights points = .ok r := by
  rw [TriRule.new]
  split
  · exact .inl rfl
  · split
    · exact .inl rfl
    · exact .inr ⟨_, rfl⟩

example : ∃ r, TriRule.new [(1 : ℝ) / 2, 1 / 2] [(1 / 4, 1 / 4), (1 / 2, 1 / 2)] = .ok r := by
  obtain ⟨r, h, _⟩ := C28_accepted [(1 : ℝ) / 2, 1 / 2] [(1 / 4, 1 / 4), (1 / 2, 1 / 2)]
    (by intro p hp; simp at hp; rcases hp with rfl | rfl <;> norm_num) (by norm_num)
  exact ⟨r, h⟩

/-! ## C29 exact rules -/

theorem C29_centroid : ∃ r, centroid ℝ = .ok r ∧ r.ExactTo 1 := by
  obtain ⟨r, h, hw, hp, -⟩ := C28_accepted [(1 : ℝ)] [(1 / 3, 1 / 3)] (by norm_num) (by norm_num)
  refine ⟨_, rfl.trans (if_neg ?_ |>.trans (if_neg ?_)), ?_⟩
  · norm_num
  · simp [isclose]
  · apply exact_of_monomials
    intro a b hab
    have : b ≤ 1 - a := by omega
    have ha : a ≤ 1 := by omega
    interval_cases a <;> interval_cases b <;> norm_num [TriRule.value, Bary.new, Nat.factorial]

theorem C29_vertex : ∃ r, vertexRule ℝ = .ok r ∧ r.ExactTo 1 := by
  refine ⟨_, rfl.trans (if_neg ?_ |>.trans (if_neg ?_)), ?_⟩
  · norm_num
  · norm_num [isclose]
  · apply exact_of_monomials
    intro a b hab
    have : b ≤ 1 - a := by omega
    have ha : a ≤ 1 := by omega
    interval_cases a <;> interval_cases b <;> norm_num [TriRule.value, Bary.new, Nat.factorial]

theorem C29_dunavant2 : ∃ r, dunavant2 ℝ = .ok r ∧ r.ExactTo 2 := by
  refine ⟨_, rfl.trans (if_neg ?_ |>.trans (if_neg ?_)), ?_⟩
  · norm_num
  · norm_num [isclose]
  · apply exact_of_monomials
    intro a b hab
    have : b ≤ 2 - a := by omega
    have ha : a ≤ 2 := by omega
    interval_cases a <;> interval_cases b <;> norm_num [TriRule.value, Bary.new, Nat.factorial]

theorem C29_dunavant3 : ∃ r, dunavant3 ℝ = .ok r ∧ r.ExactTo 3 := by
  refine ⟨_, rfl.trans (if_neg ?_ |>.trans (if_neg ?_)), ?_⟩
  · norm_num
  · norm_num [isclose]
  · apply exact_of_monomials
    intro a b hab
    have : b ≤ 3 - a := by omega
    have ha : a ≤ 3 := by omega
    interval_cases a <;> interval_cases b <;> norm_num [TriRule.value, Bary.new, Nat.factorial]

/-- non-vacuity: the polynomial `x y` has degree 2 and integral `1/24` -/
example : (MvPolynomial.X 0 * MvPolynomial.X 1 : MvPolynomial (Fin 2) ℝ).totalDegree ≤ 2 ∧
    unitTriangleIntegral (polyFun (MvPolynomial.X 0 * MvPolynomial.X 1)) = 1 / 24 := by
  constructor
  · refine (MvPolynomial.totalDegree_mul _ _).trans ?_
    simp [MvPolynomial.totalDegree_X]
  · have : polyFun (MvPolynomial.X 0 * MvPolynomial.X 1) = fun x y => x ^ 1 * y ^ 1 := by
      funext x y; simp [polyFun]
    rw [this, moment]; norm_num [Nat.factorial]

/-! ## C30 rules with printed decimals -/

theorem C30_dunavant4 : ∃ r, dunavant4 ℝ = .ok r ∧
    ∀ p : MvPolynomial (Fin 2) ℝ, p.totalDegree ≤ 4 →
      |r.value (polyFun p) - unitTriangleIntegral (polyFun p)| ≤ 1 / (2 * 10 ^ 15) * coeffSum p := by
  refine ⟨_, rfl.trans (if_neg ?_ |>.trans (if_neg ?_)), ?_⟩
  · norm_num
  · norm_num [isclose]
  · apply error_le
    intro a b hab
    have : b ≤ 4 - a := by omega
    have ha : a ≤ 4 := by omega
    interval_cases a <;> interval_cases b <;> norm_num [TriRule.value, Bary.new, Nat.factorial, abs_le]

theorem C30_dunavant5 : ∃ r, dunavant5 ℝ = .ok r ∧
    ∀ p : MvPolynomial (Fin 2) ℝ, p.totalDegree ≤ 5 →
      |r.value (polyFun p) - unitTriangleIntegral (polyFun p)| ≤ 1 / (2 * 10 ^ 15) * coeffSum p := by
  refine ⟨_, rfl.trans (if_neg ?_ |>.trans (if_neg ?_)), ?_⟩
  · norm_num
  · norm_num [isclose]
  · apply error_le
    intro a b hab
    have : b ≤ 5 - a := by omega
    have ha : a ≤ 5 := by omega
    interval_cases a <;> interval_cases b <;> norm_num [TriRule.value, Bary.new, Nat.factorial, abs_le]

example : (MvPolynomial.X 0 * MvPolynomial.X 1 : MvPolynomial (Fin 2) ℝ).totalDegree ≤ 4 :=
  (MvPolynomial.totalDegree_mul _ _).trans (by simp [MvPolynomial.totalDegree_X])

/-! ## C31 Gauss rules -/

theorem gauss_new_ok {lg : ℕ → PyM (List ℝ × List ℝ)} {n : ℕ} {P W : List ℝ} (h : lg n = .ok (P, W)) :
    GaussRule.new lg n = .ok ⟨P.map (fun p => (1 + p) / 2), W.map (fun w => w / 2)⟩ := by
  rw [GaussRule.new, h]; rfl

/-- If `leggauss(n)` is exact up to degree `d` on `[-1,1]`, the rule is exact up to degree `d` on `[0,1]`. -/
theorem C31_exact (lg : ℕ → PyM (List ℝ × List ℝ)) (n d : ℕ) (P W : List ℝ) (h : lg n = .ok (P, W))
    (hex : LegExact (P, W) d) :
    ∃ r, GaussRule.new lg n = .ok r ∧
      ∀ p : Polynomial ℝ, p.natDegree ≤ d → r.value (fun t => p.eval t) = ∫ t in (0 : ℝ)..1, p.eval t := by
  refine ⟨_, gauss_new_ok h, ?_⟩
  intro p hp
  have hq : (p.comp (Polynomial.C (1 / 2) * Polynomial.X + Polynomial.C (1 / 2))).natDegree ≤ d := by
    refine Polynomial.natDegree_comp_le.trans ?_
    have : (Polynomial.C (1 / 2 : ℝ) * Polynomial.X + Polynomial.C (1 / 2)).natDegree ≤ 1 :=
      Polynomial.natDegree_linear_le
    calc _ ≤ p.natDegree * 1 := Nat.mul_le_mul_left _ this
      _ ≤ d := by simpa using hp
  have h1 := hex _ hq
  simp only [Polynomial.eval_comp, Polynomial.eval_add, Polynomial.eval_mul, Polynomial.eval_C,
    Polynomial.eval_X] at h1
  have h2 : ∫ x in (-1 : ℝ)..1, p.eval (1 / 2 * x + 1 / 2) = 2 * ∫ t in (0 : ℝ)..1, p.eval t := by
    have := intervalIntegral.integral_comp_mul_add (a := -1) (b := 1) (fun t => p.eval t)
      (c := (1 / 2 : ℝ)) (by norm_num) (1 / 2)
    rw [this]; norm_num
  rw [h2] at h1
  have h3 : (GaussRule.mk (P.map (fun p => (1 + p) / 2)) (W.map (fun w => w / 2))).value (fun t => p.eval t) =
      1 / 2 * ((P.zip W).map (fun pw => pw.2 * p.eval (1 / 2 * pw.1 + 1 / 2))).sum := by
    rw [GaussRule.value]
    simp only
    rw [List.zip_map, List.map_map, ← List.sum_map_mul_left]
    congr 1
    refine List.map_congr_left (fun a _ => ?_)
    simp only [Function.comp, Prod.map]
    have : (1 + a.1) / 2 = 1 / 2 * a.1 + 1 / 2 := by ring
    rw [this]; ring
  rw [h3, h1]; ring

/-- points of `[-1,1]` are sent into `[0,1]` -/
theorem C31_points (lg : ℕ → PyM (List ℝ × List ℝ)) (n : ℕ) (P W : List ℝ) (h : lg n = .ok (P, W))
    (hP : ∀ p ∈ P, -1 ≤ p ∧ p ≤ 1) :
    ∃ r, GaussRule.new lg n = .ok r ∧ r.points.length = P.length ∧ ∀ t ∈ r.points, 0 ≤ t ∧ t ≤ 1 := by
  refine ⟨_, gauss_new_ok h, by simp, ?_⟩
  intro t ht
  rw [List.mem_map] at ht
  obtain ⟨p, hp, rfl⟩ := ht
  have := hP p hp
  constructor <;> linarith

/-- the weights sum to one -/
theorem C31_weights (lg : ℕ → PyM (List ℝ × List ℝ)) (n : ℕ) (P W : List ℝ) (h : lg n = .ok (P, W))
    (hl : P.length = W.length) (hex : LegExact (P, W) 0) :
    ∃ r, GaussRule.new lg n = .ok r ∧ r.weights.sum = 1 := by
  refine ⟨_, gauss_new_ok h, ?_⟩
  have h1 := hex 1 (by simp)
  have h2 : (P.zip W).map (fun pw => pw.2 * (1 : Polynomial ℝ).eval pw.1) = W := by
    simp only [Polynomial.eval_one, mul_one]
    exact List.map_snd_zip (by omega)
  rw [h2] at h1
  have h3 : W.sum = 2 := by simpa [show (1 : ℝ) + 1 = 2 by norm_num] using h1
  have h4 : (W.map (fun w => w / 2)) = W.map (fun w => 1 / 2 * w) :=
    List.map_congr_left (fun a _ => by ring)
  simp only
  rw [h4, List.sum_map_mul_left, List.map_id', h3]; norm_num

/-- `GaussQuadratureRule(1)` is the midpoint rule: a one-point `leggauss` that is exact for degree 1 leaves no
choice. -/
theorem C31_midpoint (lg : ℕ → PyM (List ℝ × List ℝ)) (p w : ℝ) (h : lg 1 = .ok ([p], [w]))
    (hex : LegExact ([p], [w]) 1) :
    GaussRule.new lg 1 = .ok ⟨[1 / 2], [1]⟩ := by
  rw [gauss_new_ok h]
  have h0 := hex 1 (by simp)
  have h1 := hex Polynomial.X (by simp)
  simp at h0 h1
  have hw : w = 2 := by rw [h0]; norm_num
  subst hw
  have hp : p = 0 := by simpa using h1
  subst hp
  norm_num

/-- non-vacuity: the 2-point Gauss–Legendre rule is exact up to degree 3 -/
theorem leg2_exact : LegExact ([-(1 / Real.sqrt 3), 1 / Real.sqrt 3], [1, 1]) 3 := by
  intro p hp
  have hs : (1 / Real.sqrt 3) ^ 2 = 1 / 3 := by
    rw [div_pow, Real.sq_sqrt (by norm_num)]; norm_num
  have e : ∀ x, p.eval x = p.coeff 0 + p.coeff 1 * x + p.coeff 2 * x ^ 2 + p.coeff 3 * x ^ 3 := by
    intro x
    rw [Polynomial.eval_eq_sum_range' (n := 4) (by omega)]
    simp [Finset.sum_range_succ]
  simp_rw [e]
  generalize 1 / Real.sqrt 3 = s at hs
  have hint : ∫ x in (-1 : ℝ)..1, (p.coeff 0 + p.coeff 1 * x + p.coeff 2 * x ^ 2 + p.coeff 3 * x ^ 3) =
      2 * p.coeff 0 + 2 / 3 * p.coeff 2 := by
    rw [intervalIntegral.integral_add, intervalIntegral.integral_add, intervalIntegral.integral_add]
    · have : ∫ x in (-1 : ℝ)..1, p.coeff 1 * x = p.coeff 1 * ∫ x in (-1 : ℝ)..1, x :=
        intervalIntegral.integral_const_mul _ (fun x => x)
      rw [this]
      simp only [intervalIntegral.integral_const_mul, integral_pow, integral_id, intervalIntegral.integral_const]
      norm_num; ring
    all_goals exact Continuous.intervalIntegrable (by fun_prop) _ _
  rw [hint]
  simp
  linear_combination 2 * p.coeff 2 * hs

example : LegExact ([0], [2]) 1 := by
  intro p hp
  have e : ∀ x, p.eval x = p.coeff 0 + p.coeff 1 * x := by
    intro x
    rw [Polynomial.eval_eq_sum_range' (n := 2) (by omega)]
    simp [Finset.sum_range_succ]
  simp_rw [e]
  rw [intervalIntegral.integral_add]
  · have : ∫ x in (-1 : ℝ)..1, p.coeff 1 * x = p.coeff 1 * ∫ x in (-1 : ℝ)..1, x :=
      intervalIntegral.integral_const_mul _ (fun x => x)
    rw [this]; simp; ring_nf; simp
  all_goals exact Continuous.intervalIntegrable (by fun_prop) _ _

end Tve
