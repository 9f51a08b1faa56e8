import Verif.Spec.FloatQuadrature
import Verif.Lemmas.FloatLocate
import Verif.Lemmas.FloatNorm
import Verif.Props.Quadrature

/-!
# C108: quadrature in double precision
-/

namespace Tve
open F64

/-! ### summation -/

theorem fl_add_error (a x : ℚ) : |fl (a + x) - (a + x)| ≤ (|a| + |x|) / 2 ^ 53 :=
  (fl_error _).trans (div_le_div_of_nonneg_right (abs_add_le _ _) (by positivity))

/-- Adding floats from left to right (`sum` of Python 3.11) is accurate. -/
theorem C108_sum : Accurate sum311 := by
  have key : ∀ (l : List ℚ) (a x A k : ℚ), |a - x| ≤ 2 * k / 2 ^ 53 * A → |x| ≤ A → 0 ≤ k → k + l.length ≤ 2 ^ 52 →
      |l.foldl (fun a x => fl (a + x)) a - (x + l.sum)| ≤ 2 * (k + l.length) / 2 ^ 53 * (A + (l.map fun x => |x|).sum) := by
    intro l
    induction l with
    | nil => intro a x A k h1 h2 h3 h4; simpa using h1
    | cons y l ih =>
      intro a x A k h1 h2 h3 h4
      rw [List.foldl_cons, List.sum_cons, List.map_cons, List.sum_cons, List.length_cons, ← add_assoc, ← add_assoc]
      rw [List.length_cons] at h4
      push_cast at h4 ⊢
      have hl : (0 : ℚ) ≤ l.length := by positivity
      have hy := abs_nonneg y
      have hA : 0 ≤ A := (abs_nonneg x).trans h2
      have := ih (fl (a + y)) (x + y) (A + |y|) (k + 1) ?_ ((abs_add_le _ _).trans (by linarith)) (by linarith) (by linarith)
      · refine this.trans (le_of_eq ?_)
        ring
      · have e1 := fl_error (a + y)
        have e2 : |a + y| ≤ |a - x| + (A + |y|) := by
          have : a + y = (a - x) + (x + y) := by ring
          rw [this]
          exact (abs_add_le _ _).trans (add_le_add (le_refl _) ((abs_add_le _ _).trans (by linarith)))
        have e3 : |fl (a + y) - (x + y)| ≤ |fl (a + y) - (a + y)| + |a - x| := by
          have : fl (a + y) - (x + y) = (fl (a + y) - (a + y)) + (a - x) := by ring
          rw [this]; exact abs_add_le _ _
        have hk : 2 * k / 2 ^ 53 ≤ 1 := by rw [div_le_one (by positivity)]; linarith
        have h1' : |a - x| ≤ 2 * k / 2 ^ 53 * (A + |y|) :=
          h1.trans (mul_le_mul_of_nonneg_left (by linarith) (by positivity))
        have h1'' : |a - x| ≤ A + |y| := h1'.trans (by nlinarith)
        have e4 : |fl (a + y) - (a + y)| ≤ 2 * (A + |y|) / 2 ^ 53 :=
          e1.trans (div_le_div_of_nonneg_right (by linarith) (by positivity))
        calc _ ≤ _ := e3
          _ ≤ 2 * (A + |y|) / 2 ^ 53 + 2 * k / 2 ^ 53 * (A + |y|) := add_le_add e4 h1'
          _ = _ := by ring
  intro l hl
  have hl' : (l.length : ℚ) ≤ 2 ^ 52 := by exact_mod_cast hl
  have := key l 0 0 0 0 (by simp) (by simp) (le_refl _) (by simpa using hl')
  simp only [zero_add] at this
  refine this.trans (le_of_eq ?_)
  ring

/-! ### rounding near one -/

theorem int_log_one {z : ℚ} (h1 : 1 ≤ z) (h2 : z < 2) : Int.log 2 |z| = 0 := by
  rw [abs_of_nonneg (by linarith)]
  have a : (0 : ℤ) ≤ Int.log 2 z := (Int.zpow_le_iff_le_log (by norm_num) (by linarith)).1 (by simpa using h1)
  have b : Int.log 2 z < 1 := (Int.lt_zpow_iff_log_lt (by norm_num) (by linarith)).1 (by simpa using h2)
  omega

theorem int_log_half {z : ℚ} (h1 : 1 / 2 ≤ z) (h2 : z < 1) : Int.log 2 |z| = -1 := by
  rw [abs_of_nonneg (by linarith)]
  have a : (-1 : ℤ) ≤ Int.log 2 z := (Int.zpow_le_iff_le_log (by norm_num) (by linarith)).1 (by
    rw [zpow_neg_one]; push_cast; linarith)
  have b : Int.log 2 z < 0 := (Int.lt_zpow_iff_log_lt (by norm_num) (by linarith)).1 (by simpa using h2)
  omega

/-- rounding numbers up to one gives at most one -/
theorem fl_le_one {z : ℚ} (h : z ≤ 1) : fl z ≤ 1 := by
  rcases h.eq_or_lt with rfl | h
  · rw [fl_double ⟨1, 0, by norm_num, by norm_num⟩]
  by_cases h2 : 1 / 2 ≤ z
  · rw [fl, if_neg (by linarith), int_log_half h2 h]
    have e : (2 : ℚ) ^ ((-1 : ℤ) - 52) = 1 / 2 ^ 53 := by
      rw [show ((-1 : ℤ) - 52) = -53 by norm_num, zpow_neg]; norm_num
    rw [e]
    have h3 := (abs_le.1 (roundEven_error (z / (1 / 2 ^ 53)))).2
    have h4 : (roundEven (z / (1 / 2 ^ 53)) : ℚ) < 2 ^ 53 + 1 := by
      have : z / (1 / 2 ^ 53) < 2 ^ 53 := by rw [div_lt_iff₀ (by positivity)]; linarith
      linarith
    have h5 : roundEven (z / (1 / 2 ^ 53)) ≤ 2 ^ 53 := by
      have : roundEven (z / (1 / 2 ^ 53)) < 2 ^ 53 + 1 := by exact_mod_cast h4
      omega
    have h6 : (roundEven (z / (1 / 2 ^ 53)) : ℚ) ≤ 2 ^ 53 := by exact_mod_cast h5
    rw [mul_one_div, div_le_one (by positivity)]
    exact h6
  · have h3 := (abs_le.1 (fl_error z)).2
    have h4 : |z| / 2 ^ 53 ≤ |z| / 2 := div_le_div_of_nonneg_left (abs_nonneg _) (by norm_num) (by norm_num)
    rcases abs_cases z with ⟨e, -⟩ | ⟨e, -⟩ <;> rw [e] at h3 h4 <;> linarith

/-- a number is rounded to more than one if and only if it exceeds one by more than `2⁻⁵³` -/
theorem one_lt_fl {z : ℚ} : 1 < fl z ↔ 1 + 1 / 2 ^ 53 < z := by
  by_cases h1 : z ≤ 1
  · refine iff_of_false (not_lt.2 (fl_le_one h1)) (not_lt.2 (h1.trans ?_))
    norm_num
  rw [not_le] at h1
  by_cases h2 : z < 2
  · rw [fl, if_neg (by linarith), int_log_one h1.le h2]
    have e : (2 : ℚ) ^ ((0 : ℤ) - 52) = 1 / 2 ^ 52 := by
      rw [show ((0 : ℤ) - 52) = -52 by norm_num, zpow_neg]; norm_num
    rw [e, mul_one_div, lt_div_iff₀ (by positivity), one_mul, div_div_eq_mul_div, div_one]
    set y := z * 2 ^ 52 with hy
    by_cases h3 : z ≤ 1 + 1 / 2 ^ 53
    · refine iff_of_false (not_lt.2 ?_) (not_lt.2 h3)
      have y1 : (2 : ℚ) ^ 52 ≤ y := by rw [hy]; nlinarith
      have y2 : y ≤ 2 ^ 52 + 1 / 2 := by
        rw [hy]
        calc z * 2 ^ 52 ≤ (1 + 1 / 2 ^ 53) * 2 ^ 52 := mul_le_mul_of_nonneg_right h3 (by positivity)
          _ = _ := by norm_num
      have hf : ⌊y⌋ = 2 ^ 52 := by
        rw [Int.floor_eq_iff]
        push_cast
        constructor <;> linarith
      have : roundEven y = 2 ^ 52 := by
        have e52 : (((2 ^ 52 : ℤ)) : ℚ) = 2 ^ 52 := by norm_num
        rw [roundEven, hf, e52]
        by_cases h4 : y - 2 ^ 52 < 1 / 2
        · rw [if_pos h4]
        · rw [if_neg h4, if_neg (by linarith), if_pos (by norm_num)]
      rw [this]
      norm_num
    · rw [not_le] at h3
      refine iff_of_true ?_ h3
      have y1 : (2 : ℚ) ^ 52 + 1 / 2 < y := by
        rw [hy]
        calc (2 : ℚ) ^ 52 + 1 / 2 = (1 + 1 / 2 ^ 53) * 2 ^ 52 := by norm_num
          _ < z * 2 ^ 52 := mul_lt_mul_of_pos_right h3 (by positivity)
      have h4 := (abs_le.1 (roundEven_error y)).1
      have : (2 : ℚ) ^ 52 < roundEven y := by linarith
      exact_mod_cast this
  · rw [not_lt] at h2
    refine iff_of_true ?_ (lt_of_lt_of_le (by norm_num) h2)
    have h3 := (abs_le.1 (fl_error z)).1
    rw [abs_of_nonneg (by linarith)] at h3
    have : z / 2 ^ 53 ≤ z / 4 := div_le_div_of_nonneg_left (by linarith) (by norm_num) (by norm_num)
    linarith

/-! ### validation -/

theorem relTol_bounds : 999999 / 10 ^ 15 < relTol ∧ relTol < 1000001 / 10 ^ 15 := by
  decide +kernel

theorem isclose_one {a : ℚ} (h : |a - 1| ≤ 995 / 10 ^ 12) : F64.isclose a 1 = true := by
  have h1 := fl_error (1 - a)
  have h2 : |fl (1 - a)| ≤ 996 / 10 ^ 12 := by
    have : |1 - a| ≤ 995 / 10 ^ 12 := by rwa [abs_sub_comm]
    have := fl_abs_le this
    refine this.trans (by norm_num)
  have h3 : 998 / 10 ^ 12 ≤ |fl (relTol * 1)| := by
    have := fl_abs_ge (x := relTol * 1) (a := 999 / 10 ^ 12) (by
      rw [mul_one, abs_of_pos (by linarith [relTol_bounds.1])]; linarith [relTol_bounds.1])
    refine le_trans (by norm_num) this
  have h4 : |fl (1 - a)| ≤ |fl (relTol * 1)| := h2.trans (le_trans (by norm_num) h3)
  unfold F64.isclose
  rw [decide_eq_true h4]
  simp

theorem not_isclose_one {a : ℚ} (h : 1005 / 10 ^ 12 ≤ |a - 1|) : F64.isclose a 1 = false := by
  have hpos : 0 < |1 - a| := by rw [abs_sub_comm]; linarith
  have h0 : a ≠ 1 := by rintro rfl; norm_num at h
  have h1 : |1 - a| * (1 - 1 / 2 ^ 53) ≤ |fl (1 - a)| := fl_abs_ge le_rfl
  have hb := relTol_bounds
  have h2 : ∀ b : ℚ, |fl (relTol * b)| ≤ 1001 / 10 ^ 12 * |b| := by
    intro b
    have : |relTol * b| ≤ 1000001 / 10 ^ 15 * |b| := by
      rw [abs_mul, abs_of_pos (by linarith)]
      exact mul_le_mul_of_nonneg_right hb.2.le (abs_nonneg _)
    have := fl_abs_le this
    refine this.trans ?_
    have := abs_nonneg b
    nlinarith
  have h3 := h2 1
  have h4 := h2 a
  rw [abs_one, mul_one (1001 / 10 ^ 12 : ℚ)] at h3
  have h5 : |a| ≤ 1 + |1 - a| := by
    have : a = 1 - (1 - a) := by ring
    calc |a| = |1 - (1 - a)| := by rw [← this]
      _ ≤ |1| + |1 - a| := abs_sub _ _
      _ = _ := by rw [abs_one]
  have h6 : 1005 / 10 ^ 12 ≤ |1 - a| := by rwa [abs_sub_comm]
  have c1 : ¬ |fl (1 - a)| ≤ |fl (relTol * 1)| := by
    intro hc
    have := h1.trans (hc.trans h3)
    nlinarith
  have c2 : ¬ |fl (1 - a)| ≤ |fl (relTol * a)| := by
    intro hc
    have := h1.trans (hc.trans h4)
    nlinarith
  have c3 : ¬ |fl (1 - a)| ≤ 0 := by
    intro hc
    have := h1.trans hc
    nlinarith
  unfold F64.isclose
  simp only [h0, c1, c2, c3, decide_false, Bool.or_false]

/-- **Validation.** In double precision, for weights that are not extremely many or large: a rule is accepted if its points lie in
the unit triangle and its weights sum to one up to `0.99e-9`, whatever the rounding errors of the check, and accepted rules
keep weights and points. It is rejected with `ValueError` if a point has a negative coordinate or coordinates whose sum
exceeds one by more than `2⁻⁵³`, or if the sum of the weights differs from one by at least `1.01e-9`. -/
theorem C108_validation {S : Summation} (hS : Accurate S) {weights : List ℚ} {points : List (ℚ × ℚ)}
    (hw : weights.length * (weights.map fun w => |w|).sum ≤ 2 ^ 12) (hl : weights.length ≤ 2 ^ 52) :
    ((∀ p ∈ points, 0 ≤ p.1 ∧ 0 ≤ p.2 ∧ p.1 + p.2 ≤ 1 + 1 / 2 ^ 53) → |weights.sum - 1| ≤ 99 / 10 ^ 11 →
      ∃ r, newRule S weights points = .ok r ∧ r.weights = weights ∧ r.points.map (fun b => (b.l1, b.l2)) = points) ∧
    ((∃ p ∈ points, p.1 < 0 ∨ p.2 < 0 ∨ 1 + 1 / 2 ^ 53 < p.1 + p.2) ∨ 101 / 10 ^ 11 ≤ |weights.sum - 1| →
      newRule S weights points = .error .valueError) := by
  have hsum : |S weights - weights.sum| ≤ 1 / 10 ^ 12 := by
    refine (hS weights hl).trans ?_
    rw [div_mul_eq_mul_div, div_le_iff₀ (by positivity)]
    exact hw.trans (by norm_num)
  constructor
  · intro hp he
    have h1 : points.any (fun p => decide (p.1 < 0) || decide (p.2 < 0) || decide (fl (p.1 + p.2) > 1)) = false := by
      rw [List.any_eq_false]
      intro p hpm
      obtain ⟨a, b, c⟩ := hp p hpm
      have : ¬ fl (p.1 + p.2) > 1 := fun h => absurd (one_lt_fl.1 h) (not_lt.2 c)
      simp [not_lt.2 a, not_lt.2 b, this]
    have h2 : F64.isclose (S weights) 1 = true := by
      apply isclose_one
      have : S weights - 1 = (S weights - weights.sum) + (weights.sum - 1) := by ring
      rw [this]
      exact (abs_add_le _ _).trans ((add_le_add hsum he).trans (by norm_num))
    refine ⟨⟨weights, points.map fun p => newBary p.1 p.2⟩, ?_, rfl, ?_⟩
    · rw [newRule, h1, h2]; rfl
    · simp [newBary, Function.comp_def]
  · intro h
    by_cases h1 : points.any (fun p => decide (p.1 < 0) || decide (p.2 < 0) || decide (fl (p.1 + p.2) > 1)) = true
    · rw [newRule, if_pos h1]
    · rw [newRule, if_neg h1]
      rcases h with ⟨p, hp, h⟩ | h
      · exfalso
        refine h1 (List.any_eq_true.2 ⟨p, hp, ?_⟩)
        rcases h with h | h | h
        · simp [h]
        · simp [h]
        · simp [one_lt_fl.2 h]
      · have h2 : F64.isclose (S weights) 1 = false := by
          apply not_isclose_one
          have h3 : |weights.sum - 1| ≤ |S weights - weights.sum| + |S weights - 1| := by
            have : weights.sum - 1 = -(S weights - weights.sum) + (S weights - 1) := by ring
            rw [this]
            refine (abs_add_le _ _).trans ?_
            rw [abs_neg]
          have : (1005 : ℚ) / 10 ^ 12 ≤ 101 / 10 ^ 11 - 1 / 10 ^ 12 := by norm_num
          linarith
        rw [h2]; rfl

/-- **Coordinates.** The points of an accepted rule have two nonnegative coordinates with sum at most `1 + 2⁻⁵³`; the third is at
most one and at least `-2⁻⁵¹`, and the three sum to one up to `3 · 2⁻⁵³`. -/
theorem C108_coordinates {S : Summation} {weights : List ℚ} {points : List (ℚ × ℚ)} {r : TriRule ℚ}
    (hr : newRule S weights points = .ok r) :
    ∀ b ∈ r.points, 0 ≤ b.l1 ∧ 0 ≤ b.l2 ∧ b.l1 + b.l2 ≤ 1 + 1 / 2 ^ 53 ∧ -(1 / 2 ^ 51) ≤ b.l3 ∧ b.l3 ≤ 1 ∧
      |b.l1 + b.l2 + b.l3 - 1| ≤ 3 / 2 ^ 53 := by
  unfold newRule at hr
  split_ifs at hr with h1 h2
  have e := Except.ok.inj hr
  subst e
  intro b hb
  obtain ⟨p, hp, rfl⟩ := List.mem_map.1 hb
  have h3 : ¬ (p.1 < 0 ∨ p.2 < 0 ∨ fl (p.1 + p.2) > 1) := by
    intro h
    refine h1 (List.any_eq_true.2 ⟨p, hp, ?_⟩)
    rcases h with h | h | h <;> simp [h]
  push Not at h3
  obtain ⟨a, b, c⟩ := h3
  have c' : p.1 + p.2 ≤ 1 + 1 / 2 ^ 53 := by
    by_contra hc
    exact absurd (one_lt_fl.2 (not_le.1 hc)) (not_lt.2 c)
  have x1 : |1 - p.1| ≤ 1 := by
    rw [abs_le]
    have : (1 : ℚ) / 2 ^ 53 ≤ 1 := by norm_num
    constructor <;> linarith
  have e1 : |fl (1 - p.1) - (1 - p.1)| ≤ 1 / 2 ^ 53 := (fl_error _).trans (div_le_div_of_nonneg_right x1 (by positivity))
  have e1' := abs_le.1 e1
  have x2 : |fl (1 - p.1) - p.2| ≤ 2 := by
    rw [abs_le]
    have : (1 : ℚ) / 2 ^ 53 ≤ 1 / 4 := by norm_num
    constructor <;> linarith
  have e2 : |fl (fl (1 - p.1) - p.2) - (fl (1 - p.1) - p.2)| ≤ 2 / 2 ^ 53 :=
    (fl_error _).trans (div_le_div_of_nonneg_right x2 (by positivity))
  have e2' := abs_le.1 e2
  have x3 : fl (1 - p.1) ≤ 1 := fl_le_one (by linarith)
  have u : (2 : ℚ) / 2 ^ 53 = 2 * (1 / 2 ^ 53) := by ring
  have u3 : (3 : ℚ) / 2 ^ 53 = 3 * (1 / 2 ^ 53) := by ring
  have u4 : (1 : ℚ) / 2 ^ 51 = 4 * (1 / 2 ^ 53) := by norm_num
  refine ⟨a, b, c', ?_, fl_le_one (by linarith), ?_⟩
  · show -(1 / 2 ^ 51) ≤ fl (fl (1 - p.1) - p.2)
    rw [u4]
    rw [u] at e2'
    linarith
  · show |p.1 + p.2 + fl (fl (1 - p.1) - p.2) - 1| ≤ 3 / 2 ^ 53
    rw [u3, abs_le]
    rw [u] at e2'
    constructor <;> linarith

/-- In double precision the third coordinate of a point of an accepted rule can be negative: the check `x + y > 1` rounds the
sum. Example: the one point rule with point `(1/2, 1/2 + 2⁻⁵³)`, whose coordinates are doubles. -/
theorem C108_negative_coordinate_false : ∃ x y : ℚ, IsDouble x ∧ IsDouble y ∧ ∀ S : Summation, Accurate S →
    ∃ r b, newRule S [1] [(x, y)] = .ok r ∧ b ∈ r.points ∧ b.l3 < 0 := by
  refine ⟨1 / 2, 1 / 2 + 1 / 2 ^ 53, ⟨1, -1, by norm_num, by norm_num⟩, ⟨2 ^ 52 + 1, -53, by norm_num, by norm_num⟩, fun S hS => ?_⟩
  obtain ⟨r, h1, h2, h3⟩ := (C108_validation hS (weights := [1]) (points := [(1 / 2, 1 / 2 + 1 / 2 ^ 53)])
    (by norm_num) (by norm_num)).1 (by simp only [List.mem_singleton]; rintro p rfl; norm_num) (by norm_num)
  refine ⟨r, newBary (1 / 2) (1 / 2 + 1 / 2 ^ 53), h1, ?_, by decide +kernel⟩
  unfold newRule at h1
  split_ifs at h1 with a1 a2
  rw [← Except.ok.inj h1]
  simp

/-! ### the built-in rules -/

/-- the value of a rule at a monomial, in rational arithmetic -/
def ratValue (weights : List ℚ) (points : List (ℚ × ℚ)) (a b : ℕ) : ℚ :=
  1 / 2 * ((points.zip weights).map fun pw => pw.2 * (pw.1.1 ^ a * pw.1.2 ^ b)).sum

theorem value_rat {r : TriRule ℚ} {points : List (ℚ × ℚ)} (hp : r.points.map (fun b => (b.l1, b.l2)) = points) (a b : ℕ) :
    r.toReal.value (fun x y => x ^ a * y ^ b) = (ratValue r.weights points a b : ℚ) := by
  subst hp
  unfold TriRule.value ratValue TriRule.toReal
  simp only
  push_cast
  congr 1
  rw [List.zip_map, List.map_map, List.zip_map_left, List.map_map]
  induction (r.points.zip r.weights) with
  | nil => simp
  | cons x l ih =>
    simp only [List.map_cons, List.sum_cons, Function.comp, Prod.map] at ih ⊢
    push_cast
    rw [ih]
    rfl

theorem exactUpTo_of {r : TriRule ℚ} {weights : List ℚ} {points : List (ℚ × ℚ)} (hw : r.weights = weights)
    (hp : r.points.map (fun b => (b.l1, b.l2)) = points) {d : ℕ} {ε : ℚ}
    (h : ∀ a ≤ d, ∀ b ≤ d, |ratValue weights points a b - (a.factorial * b.factorial : ℕ) / ((a + b + 2).factorial : ℕ)| ≤ ε ∨ d < a + b) :
    r.toReal.ExactUpTo d (ε : ℝ) := by
  intro p hpd
  refine error_le _ d _ (fun a b hab => ?_) p hpd
  rw [value_rat hp, hw]
  rcases h a (by omega) b (by omega) with h | h
  · have : ((|ratValue weights points a b - (a.factorial * b.factorial : ℕ) / ((a + b + 2).factorial : ℕ)| : ℚ) : ℝ) ≤ (ε : ℝ) := by
      exact_mod_cast h
    push_cast at this
    exact this
  · omega

/-- acceptance and exactness of a rule from closed computations with rational numbers -/
theorem builtin_of {S : Summation} (hS : Accurate S) {weights : List ℚ} {points : List (ℚ × ℚ)} {d : ℕ} {ε : ℚ}
    (h1 : weights.length * (weights.map fun w => |w|).sum ≤ 2 ^ 12 ∧ weights.length ≤ 2 ^ 52 ∧
      (∀ p ∈ points, 0 ≤ p.1 ∧ 0 ≤ p.2 ∧ p.1 + p.2 ≤ 1 + 1 / 2 ^ 53) ∧ |weights.sum - 1| ≤ 99 / 10 ^ 11)
    (h2 : ∀ p ∈ points, 0 ≤ fl (fl (1 - p.1) - p.2))
    (h : ∀ a ≤ d, ∀ b ≤ d, |ratValue weights points a b - (a.factorial * b.factorial : ℕ) / ((a + b + 2).factorial : ℕ)| ≤ ε ∨ d < a + b) :
    ∃ r, newRule S weights points = .ok r ∧ (∀ b ∈ r.points, 0 ≤ b.l1 ∧ 0 ≤ b.l2 ∧ 0 ≤ b.l3) ∧ r.toReal.ExactUpTo d (ε : ℝ) := by
  obtain ⟨r, e1, e2, e3⟩ := (C108_validation hS h1.1 h1.2.1).1 h1.2.2.1 h1.2.2.2
  refine ⟨r, e1, fun b hb => ?_, exactUpTo_of e2 e3 h⟩
  have hc := C108_coordinates e1 b hb
  refine ⟨hc.1, hc.2.1, ?_⟩
  unfold newRule at e1
  split_ifs at e1 with a1 a2
  have e := Except.ok.inj e1
  subst e
  obtain ⟨p, hp, rfl⟩ := List.mem_map.1 hb
  exact h2 p hp

/-- **Built-in rules.** Importing the module does not raise: in double precision, with every accurate summation, all six rules are
accepted. Their points have nonnegative coordinates, and the rules with the rounded weights and points still integrate
all polynomials of their degree, up to `6e-17` (`CENTROID`, `VERTEX`, `DUNAVANT2`, `DUNAVANT3`) or `6e-16` (`DUNAVANT4`,
`DUNAVANT5`) times the sum of the absolute values of the coefficients. -/
theorem C108_builtin {S : Summation} (hS : Accurate S) :
    ∀ x ∈ [(F64.centroid S, 1, (6 / 10 ^ 17 : ℝ)), (F64.vertexRule S, 1, 6 / 10 ^ 17), (F64.dunavant2 S, 2, 6 / 10 ^ 17),
        (F64.dunavant3 S, 3, 6 / 10 ^ 17), (F64.dunavant4 S, 4, 6 / 10 ^ 16), (F64.dunavant5 S, 5, 6 / 10 ^ 16)],
      ∃ r, x.1 = .ok r ∧ (∀ b ∈ r.points, 0 ≤ b.l1 ∧ 0 ≤ b.l2 ∧ 0 ≤ b.l3) ∧ r.toReal.ExactUpTo x.2.1 x.2.2 := by
  have c1 : ((6 / 10 ^ 17 : ℚ) : ℝ) = 6 / 10 ^ 17 := by norm_num
  have c2 : ((6 / 10 ^ 16 : ℚ) : ℝ) = 6 / 10 ^ 16 := by norm_num
  intro x hx
  simp only [List.mem_cons, List.not_mem_nil, or_false] at hx
  rw [← c1, ← c2] at hx
  rcases hx with rfl | rfl | rfl | rfl | rfl | rfl
  · exact builtin_of hS (d := 1) (by decide +kernel) (by decide +kernel) (by decide +kernel)
  · exact builtin_of hS (d := 1) (by decide +kernel) (by decide +kernel) (by decide +kernel)
  · exact builtin_of hS (d := 2) (by decide +kernel) (by decide +kernel) (by decide +kernel)
  · exact builtin_of hS (d := 3) (by decide +kernel) (by decide +kernel) (by decide +kernel)
  · exact builtin_of hS (d := 4) (by decide +kernel) (by decide +kernel) (by decide +kernel)
  · exact builtin_of hS (d := 5) (by decide +kernel) (by decide +kernel) (by decide +kernel)

/-! ### integration over triangles -/

/-- summing up approximations -/
theorem sum_approx {S : Summation} (hS : Accurate S) {α : Type} (l : List α) (hl : l.length ≤ 2 ^ 52) {x e b : α → ℚ} {β : ℚ}
    (h0 : 0 ≤ β) (h1 : ∀ a ∈ l, |x a - e a| ≤ β * b a) (h2 : ∀ a ∈ l, |e a| ≤ b a) :
    |S (l.map x) - (l.map e).sum| ≤ (l.length / 2 ^ 52 * (1 + β) + β) * (l.map b).sum := by
  have k1 : ∀ l : List α, (∀ a ∈ l, |x a - e a| ≤ β * b a) → (∀ a ∈ l, |e a| ≤ b a) →
      ((l.map x).map fun x => |x|).sum ≤ (1 + β) * (l.map b).sum ∧ |(l.map x).sum - (l.map e).sum| ≤ β * (l.map b).sum := by
    intro l
    induction l with
    | nil => intro _ _; simp
    | cons a l ih =>
      intro h1 h2
      obtain ⟨i1, i2⟩ := ih (fun c hc => h1 c (List.mem_cons_of_mem _ hc)) (fun c hc => h2 c (List.mem_cons_of_mem _ hc))
      have j1 := h1 a List.mem_cons_self
      have j2 := h2 a List.mem_cons_self
      simp only [List.map_cons, List.sum_cons] at i1 i2 ⊢
      constructor
      · have : |x a| ≤ |x a - e a| + |e a| := by
          have := abs_add_le (x a - e a) (e a)
          rwa [sub_add_cancel] at this
        linarith
      · have : x a + (l.map x).sum - (e a + (l.map e).sum) = (x a - e a) + ((l.map x).sum - (l.map e).sum) := by ring
        rw [this]
        exact (abs_add_le _ _).trans (by linarith)
  obtain ⟨i1, i2⟩ := k1 l h1 h2
  have i3 := hS (l.map x) (by simpa using hl)
  rw [List.length_map] at i3
  have i4 : (l.length : ℚ) / 2 ^ 52 * ((l.map x).map fun x => |x|).sum ≤ l.length / 2 ^ 52 * ((1 + β) * (l.map b).sum) :=
    mul_le_mul_of_nonneg_left i1 (by positivity)
  have : S (l.map x) - (l.map e).sum = (S (l.map x) - (l.map x).sum) + ((l.map x).sum - (l.map e).sum) := by ring
  rw [this]
  refine (abs_add_le _ _).trans ?_
  linarith

theorem abs_sum_le {α : Type} (l : List α) (e : α → ℚ) : |(l.map e).sum| ≤ (l.map fun a => |e a|).sum := by
  induction l with
  | nil => simp
  | cons a l ih => simpa using (abs_add_le _ _).trans (add_le_add le_rfl ih)

/-- integrals over lists of weighted cells -/
theorem integral_approx {S : Summation} (hS : Accurate S) {α β : Type} (Z : List (ℚ × α)) (Q : List (β × ℚ)) (f : α → β → ℚ)
    {k K : ℕ} (lQ : Q.length ≤ k) (lZ : Z.length ≤ K) (hn : k ≤ 2 ^ 50) (hN : K ≤ 2 ^ 50) :
    |S (Z.map fun p => fl (p.1 * S (Q.map fun q => fl (q.2 * f p.2 q.1)))) -
        (Z.map fun p => p.1 * (Q.map fun q => q.2 * f p.2 q.1).sum).sum| ≤
      (k + K + 2) / 2 ^ 51 * (Z.map fun p => |p.1| * (Q.map fun q => |q.2 * f p.2 q.1|).sum).sum := by
  have lQ' : (Q.length : ℚ) ≤ k := by exact_mod_cast lQ
  have lZ' : (Z.length : ℚ) ≤ K := by exact_mod_cast lZ
  have hn' : (k : ℚ) ≤ 2 ^ 50 := by exact_mod_cast hn
  have hN' : (K : ℚ) ≤ 2 ^ 50 := by exact_mod_cast hN
  set n : ℚ := (k : ℚ) with hnn
  set N : ℚ := (K : ℚ) with hNN
  have n0 : 0 ≤ n := Nat.cast_nonneg _
  have N0 : 0 ≤ N := Nat.cast_nonneg _
  let α : ℚ := Q.length / 2 ^ 52 * (1 + 1 / 2 ^ 53) + 1 / 2 ^ 53
  have α0 : 0 ≤ α := by positivity
  have αn : α ≤ (n + 1) / 2 ^ 52 := by
    have : (Q.length : ℚ) / 2 ^ 52 * (1 + 1 / 2 ^ 53) ≤ n / 2 ^ 52 * (1 + 1 / 2 ^ 53) :=
      mul_le_mul_of_nonneg_right (div_le_div_of_nonneg_right lQ' (by positivity)) (by positivity)
    have h3 : n / 2 ^ 52 * (1 / 2 ^ 53) ≤ 1 / 2 ^ 53 := by
      have : n / 2 ^ 52 ≤ 1 := by rw [div_le_one (by positivity)]; linarith
      nlinarith
    have h4 : (n + 1) / 2 ^ 52 = n / 2 ^ 52 + 2 * (1 / 2 ^ 53) := by ring
    show (Q.length : ℚ) / 2 ^ 52 * (1 + 1 / 2 ^ 53) + 1 / 2 ^ 53 ≤ _
    rw [h4]
    linarith
  have inner : ∀ t, |S (Q.map fun q => fl (q.2 * f t q.1)) - (Q.map fun q => q.2 * f t q.1).sum| ≤
      α * (Q.map fun q => |q.2 * f t q.1|).sum := by
    intro t
    refine sum_approx hS Q (by omega) (by positivity) (fun q _ => ?_) (fun q _ => le_rfl)
    refine (fl_error _).trans (le_of_eq (by ring))
  have B0 : ∀ t, 0 ≤ (Q.map fun q => |q.2 * f t q.1|).sum :=
    fun t => List.sum_nonneg (by intro x hx; obtain ⟨q, -, rfl⟩ := List.mem_map.1 hx; exact abs_nonneg _)
  have outer := sum_approx hS Z (by omega) (x := fun p => fl (p.1 * S (Q.map fun q => fl (q.2 * f p.2 q.1))))
    (e := fun p => p.1 * (Q.map fun q => q.2 * f p.2 q.1).sum)
    (b := fun p => |p.1| * (Q.map fun q => |q.2 * f p.2 q.1|).sum) (β := (n + 2) / 2 ^ 52) (by positivity) ?_ ?_
  · have B1 : 0 ≤ (Z.map fun p => |p.1| * (Q.map fun q => |q.2 * f p.2 q.1|).sum).sum :=
      List.sum_nonneg (by intro x hx; obtain ⟨p, -, rfl⟩ := List.mem_map.1 hx; exact mul_nonneg (abs_nonneg _) (B0 _))
    refine outer.trans (mul_le_mul_of_nonneg_right ?_ B1)
    have h5 : (n + 2) / 2 ^ 52 ≤ 1 := by rw [div_le_one (by positivity)]; linarith
    have h6 : (Z.length : ℚ) / 2 ^ 52 * (1 + (n + 2) / 2 ^ 52) ≤ N / 2 ^ 52 * 2 :=
      mul_le_mul (div_le_div_of_nonneg_right lZ' (by positivity)) (by linarith) (by positivity) (by positivity)
    have h7 : (n + N + 2) / 2 ^ 51 = N / 2 ^ 52 * 2 + 2 * ((n + 2) / 2 ^ 52) := by ring
    have h8 : 0 ≤ (n + 2) / 2 ^ 52 := by positivity
    rw [h7]
    linarith
  · rintro ⟨a, t⟩ -
    simp only
    set I' := S (Q.map fun q => fl (q.2 * f t q.1))
    set I := (Q.map fun q => q.2 * f t q.1).sum
    set B := (Q.map fun q => |q.2 * f t q.1|).sum with hB
    have i1 : |I' - I| ≤ α * B := inner t
    have i2 : |I| ≤ B := abs_sum_le Q _
    have i3 : |I'| ≤ (1 + α) * B := by
      have := abs_add_le (I' - I) I
      rw [sub_add_cancel] at this
      linarith
    have i4 := fl_error (a * I')
    rw [abs_mul] at i4
    have i5 : |fl (a * I') - a * I| ≤ |fl (a * I') - a * I'| + |a| * |I' - I| := by
      have : fl (a * I') - a * I = (fl (a * I') - a * I') + a * (I' - I) := by ring
      rw [this, ← abs_mul]
      exact abs_add_le _ _
    have hB0 := B0 t
    rw [← hB] at hB0
    have ha := abs_nonneg a
    have α1 : α ≤ 1 := αn.trans (by rw [div_le_one (by positivity)]; linarith)
    have i6 : |a| * |I'| / 2 ^ 53 ≤ |a| * (2 * B) / 2 ^ 53 :=
      div_le_div_of_nonneg_right (mul_le_mul_of_nonneg_left (i3.trans (by nlinarith)) ha) (by positivity)
    have i7 : |a| * |I' - I| ≤ |a| * ((n + 1) / 2 ^ 52 * B) :=
      mul_le_mul_of_nonneg_left (i1.trans (mul_le_mul_of_nonneg_right αn hB0)) ha
    refine (i5.trans (add_le_add (i4.trans i6) i7)).trans (le_of_eq ?_)
    ring
  · rintro ⟨a, t⟩ -
    simp only
    rw [abs_mul]
    exact mul_le_mul_of_nonneg_left (abs_sum_le Q _) (abs_nonneg _)

/-- **Integration.** The integral over triangles computed in double precision with an `n` point rule and `N` triangles differs from
the exactly computed sum `∑ aₜ ∑ wᵢ f(t, bᵢ)` over the same areas, weights and values by at most `(n + N + 2) · 2⁻⁵¹` times
the sum of the absolute values of the terms. -/
theorem C108_integrator {S : Summation} (hS : Accurate S) (r : TriRule ℚ) (areas : List ℚ) (triangles : List Tri)
    (f : Tri → Bary ℚ → ℚ) (hn : r.weights.length ≤ 2 ^ 50) (hN : triangles.length ≤ 2 ^ 50) :
    |F64.integrate S r areas triangles f -
        ((areas.zip triangles).map fun p => p.1 * ((r.points.zip r.weights).map fun q => q.2 * f p.2 q.1).sum).sum| ≤
      (r.weights.length + triangles.length + 2) / 2 ^ 51 *
        ((areas.zip triangles).map fun p => |p.1| * ((r.points.zip r.weights).map fun q => |q.2 * f p.2 q.1|).sum).sum :=
  integral_approx hS _ _ f (by rw [List.length_zip]; exact min_le_right _ _) (by rw [List.length_zip]; exact min_le_right _ _) hn hN

/-- **Areas.** The computed area of a triangle whose sides have coordinates of size at most `L` is exact up to `6 L² · 2⁻⁵³`. -/
theorem C108_area (p q r : Point) {L : ℚ} (h1 : |q.1 - p.1| ≤ L) (h2 : |q.2 - p.2| ≤ L) (h3 : |r.1 - p.1| ≤ L)
    (h4 : |r.2 - p.2| ≤ L) :
    |F64.triangleArea p q r - |(q.1 - p.1) * (r.2 - p.2) - (q.2 - p.2) * (r.1 - p.1)| / 2| ≤ 6 * L ^ 2 / 2 ^ 53 := by
  have L0 : 0 ≤ L := (abs_nonneg _).trans h1
  have a1 := (Ap.of h1).fl
  have a2 := (Ap.of h2).fl
  have a3 := (Ap.of h3).fl
  have a4 := (Ap.of h4).fl
  have m1 := (a1.mul a4).fl
  have m2 := (a2.mul a3).fl
  have d := (m1.sub m2).fl
  unfold F64.triangleArea F64.sub
  simp only
  set D' := fl (fl (fl (q.1 - p.1) * fl (r.2 - p.2)) - fl (fl (q.2 - p.2) * fl (r.1 - p.1))) with hD'
  set D := (q.1 - p.1) * (r.2 - p.2) - (q.2 - p.2) * (r.1 - p.1) with hD
  have e1 := d.1
  have e2 := d.2
  have e3 := fl_error (D' / 2)
  have e4 : |(|fl (D' / 2)| - |D| / 2)| ≤ |fl (D' / 2) - D' / 2| + |D' - D| / 2 := by
    have : |D| / 2 = |D / 2| := by rw [abs_div, abs_of_pos (by norm_num : (0 : ℚ) < 2)]
    rw [this]
    refine (abs_abs_sub_abs_le_abs_sub _ _).trans ?_
    have h : fl (D' / 2) - D / 2 = (fl (D' / 2) - D' / 2) + (D' - D) / 2 := by ring
    rw [h]
    refine (abs_add_le _ _).trans (add_le_add le_rfl (le_of_eq ?_))
    rw [abs_div, abs_of_pos (by norm_num : (0 : ℚ) < 2)]
  have e5 : |D'| ≤ |D' - D| + |D| := by
    have := abs_add_le (D' - D) D
    rwa [sub_add_cancel] at this
  have e6 : |D' / 2| = |D'| / 2 := by rw [abs_div, abs_of_pos (by norm_num : (0 : ℚ) < 2)]
  rw [e6] at e3
  have hL2 : 0 ≤ L ^ 2 := by positivity
  have key : |D' - D| ≤ 17 / 2 * L ^ 2 / 2 ^ 53 := by
    refine e1.trans ?_
    have : ∀ x y : ℚ, x = y * L ^ 2 → y ≤ 17 / 2 / 2 ^ 53 → x ≤ 17 / 2 * L ^ 2 / 2 ^ 53 := by
      intro x y hx hy
      rw [hx]
      nlinarith
    refine this _ ((((1 / 2 ^ 53 + 1 / 2 ^ 53 + 1 / 2 ^ 53 * (1 / 2 ^ 53)) +
        (1 + (1 / 2 ^ 53 + 1 / 2 ^ 53 + 1 / 2 ^ 53 * (1 / 2 ^ 53))) / 2 ^ 53) * 2) * (1 + 1 / 2 ^ 53) + 2 / 2 ^ 53) ?_ ?_
    · ring
    · norm_num
  refine e4.trans ((add_le_add e3 le_rfl).trans ?_)
  have e7 : |D'| ≤ 17 / 2 * L ^ 2 / 2 ^ 53 + 2 * L ^ 2 := e5.trans (add_le_add key (e2.trans (le_of_eq (by ring))))
  have e8 : |D'| / 2 / 2 ^ 53 ≤ (17 / 2 * L ^ 2 / 2 ^ 53 + 2 * L ^ 2) / 2 / 2 ^ 53 :=
    div_le_div_of_nonneg_right (div_le_div_of_nonneg_right e7 (by norm_num)) (by positivity)
  have e9 : (17 / 2 * L ^ 2 / 2 ^ 53 + 2 * L ^ 2) / 2 / 2 ^ 53 + 17 / 2 * L ^ 2 / 2 ^ 53 / 2 ≤ 6 * L ^ 2 / 2 ^ 53 := by
    nlinarith
  linarith

/-- `DUNAVANT5` with the summation of Python 3.11; a rule whose weights sum to `1 + 2e-9` is rejected -/
example : (∃ r, F64.dunavant5 sum311 = .ok r ∧ r.toReal.ExactUpTo 5 (6 / 10 ^ 16)) ∧
    newRule sum311 [1 / 2, 1 / 2 + 2 / 10 ^ 9] [(1 / 4, 1 / 4), (1 / 2, 1 / 4)] = .error .valueError := by
  constructor
  · obtain ⟨r, h1, -, h2⟩ := C108_builtin C108_sum (F64.dunavant5 sum311, 5, 6 / 10 ^ 16) (by simp)
    exact ⟨r, h1, h2⟩
  · exact (C108_validation C108_sum (by norm_num [abs_of_pos]) (by norm_num)).2 (.inr (by norm_num [abs_of_pos]))

/-- integrating a function with values at most one with a three point rule over two triangles of area `1/2` -/
example (f : Tri → Bary ℚ → ℚ) (hf : ∀ t b, |f t b| ≤ 1) : ∃ r, F64.dunavant2 sum311 = .ok r ∧
    |F64.integrate sum311 r [F64.triangleArea (0, 0) (1, 0) (1, 1), F64.triangleArea (1, 1) (0, 1) (0, 0)] [(0, 1, 3), (3, 2, 0)] f -
      ∑ t ∈ ({(0, 1, 3), (3, 2, 0)} : Finset Tri), 1 / 2 * ((r.points.zip r.weights).map fun q => q.2 * f t q.1).sum| ≤
      1 / 10 ^ 14 := by
  obtain ⟨r, h1, -, -⟩ := C108_builtin C108_sum (F64.dunavant2 sum311, 2, 6 / 10 ^ 17) (by simp)
  have hw : r.weights = [fl (1 / 3), fl (1 / 3), fl (1 / 3)] := by
    have h1' : newRule sum311 [fl (1 / 3), fl (1 / 3), fl (1 / 3)] _ = .ok r := h1
    unfold newRule at h1'
    split_ifs at h1' with a1 a2
    rw [← Except.ok.inj h1']
  refine ⟨r, h1, ?_⟩
  have a1 : F64.triangleArea (0, 0) (1, 0) (1, 1) = 1 / 2 := by decide +kernel
  have a2 : F64.triangleArea (1, 1) (0, 1) (0, 0) = 1 / 2 := by decide +kernel
  have h := C108_integrator C108_sum r [F64.triangleArea (0, 0) (1, 0) (1, 1), F64.triangleArea (1, 1) (0, 1) (0, 0)]
    [(0, 1, 3), (3, 2, 0)] f (by rw [hw]; simp) (by simp)
  rw [a1, a2] at h ⊢
  have hl : (r.weights.length : ℚ) = 3 := by rw [hw]; rfl
  have bd : ∀ t : Tri, ((r.points.zip r.weights).map fun q => |q.2 * f t q.1|).sum ≤ 3 := by
    intro t
    have h3 : ((r.points.zip r.weights).map fun q => |q.2 * f t q.1|).sum ≤ ((r.points.zip r.weights).length : ℕ) • (1 : ℚ) := by
      refine (List.sum_le_card_nsmul _ 1 ?_).trans (le_of_eq (by simp))
      intro x hx
      obtain ⟨q, hq, rfl⟩ := List.mem_map.1 hx
      have hq2 := (List.of_mem_zip hq).2
      rw [hw] at hq2
      have : |q.2| ≤ 1 := by
        have : q.2 = fl (1 / 3) := by simpa using hq2
        rw [this]; decide +kernel
      rw [abs_mul]
      exact mul_le_one₀ this (abs_nonneg _) (hf _ _)
    refine h3.trans ?_
    have : (r.points.zip r.weights).length ≤ 3 := by
      rw [List.length_zip]
      exact (min_le_right _ _).trans (by rw [hw]; rfl)
    rw [nsmul_eq_mul, mul_one]
    exact_mod_cast this
  have b1 := bd (0, 1, 3)
  have b2 := bd (3, 2, 0)
  rw [Finset.sum_pair (by decide)]
  simp only [List.zip_cons_cons, List.zip_nil_right, List.map_cons, List.map_nil, List.sum_cons, List.sum_nil, add_zero, hl,
    List.length_cons, List.length_nil] at h
  refine h.trans ?_
  rw [abs_of_pos (by norm_num : (0 : ℚ) < 1 / 2)]
  push_cast
  nlinarith

end Tve
