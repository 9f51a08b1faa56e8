import Verif.Model.FloatSearch
import Verif.Model.PyState
import Verif.Lemmas.FloatRounding
import Verif.Props.Rounding

/-!
# C117: search ranges in double precision
-/

namespace Tve
open F64

/-- `z` is a number a solver that keeps bounds may return -/
def KeepsBounds (b : ℚ × ℚ) (z : ℚ) : Prop := b.1 ≤ z ∧ z ≤ b.2

/-- The state a step starts from is admissible: rounding never cuts it off the range handed to the solver. -/
theorem C117_feasible {x r : ℚ} (hx : IsDouble x) (hr : 0 ≤ r) : KeepsBounds (searchBounds x r) x := by
  constructor
  · have := fl_mono (show x - r ≤ x by linarith)
    rwa [fl_double hx] at this
  · have := fl_mono (show x ≤ x + r by linarith)
    rwa [fl_double hx] at this

/-- The same for temperatures, which stay nonnegative. -/
theorem C117_feasible_temperature {θ r : ℚ} (hx : IsDouble θ) (h0 : 0 ≤ θ) (hr : 0 ≤ r) :
    KeepsBounds (temperatureBounds θ r) θ ∧ ∀ z, KeepsBounds (temperatureBounds θ r) z ↔ 0 ≤ z ∧ KeepsBounds (searchBounds θ r) z := by
  have h := C117_feasible hx hr
  exact ⟨⟨max_le h0 h.1, h.2⟩, fun z =>
    ⟨fun hz => ⟨(le_max_left _ _).trans hz.1, (le_max_right _ _).trans hz.1, hz.2⟩, fun hz => ⟨max_le hz.1 hz.2.1, hz.2.2⟩⟩⟩

/-- No component moves farther in one step than the search radius and half a unit in the last place of the bounds. -/
theorem C117_width {x r z : ℚ} (hr : 0 ≤ r) (hz : KeepsBounds (searchBounds x r) z) :
    |z - x| ≤ r + (|x| + r) / 2 ^ 53 := by
  obtain ⟨h1, h2⟩ := hz
  simp only [searchBounds] at h1 h2
  have e1 := abs_le.1 (fl_error (x - r))
  have e2 := abs_le.1 (fl_error (x + r))
  have a1 : |x - r| ≤ |x| + r := by
    have := abs_sub x r
    rwa [abs_of_nonneg hr] at this
  have a2 : |x + r| ≤ |x| + r := by
    have := abs_add_le x r
    rwa [abs_of_nonneg hr] at this
  have a1' : |x - r| / 2 ^ 53 ≤ (|x| + r) / 2 ^ 53 := by gcongr
  have a2' : |x + r| / 2 ^ 53 ≤ (|x| + r) / 2 ^ 53 := by gcongr
  rw [abs_le]
  constructor <;> linarith [e1.1, e2.2]

/-- The bounds differ from those of the model of the solver's variables in exact arithmetic by rounding only. -/
theorem C117_model {x r : ℚ} (hr : 0 ≤ r) :
    |((searchBounds x r).1 : ℝ) - (VarData.centred x r).lb| ≤ (|x| + r) / 2 ^ 53 ∧
    |((searchBounds x r).2 : ℝ) - (VarData.centred x r).ub| ≤ (|x| + r) / 2 ^ 53 := by
  have a1 : |x - r| ≤ |x| + r := by
    have := abs_sub x r
    rwa [abs_of_nonneg hr] at this
  have a2 : |x + r| ≤ |x| + r := by
    have := abs_add_le x r
    rwa [abs_of_nonneg hr] at this
  have e1 : |fl (x - r) - (x - r)| ≤ (|x| + r) / 2 ^ 53 := (fl_error _).trans (by gcongr)
  have e2 : |fl (x + r) - (x + r)| ≤ (|x| + r) / 2 ^ 53 := (fl_error _).trans (by gcongr)
  have c1 : ((|fl (x - r) - (x - r)| : ℚ) : ℝ) ≤ (((|x| + r) / 2 ^ 53 : ℚ) : ℝ) := by exact_mod_cast e1
  have c2 : ((|fl (x + r) - (x + r)| : ℚ) : ℝ) ≤ (((|x| + r) / 2 ^ 53 : ℚ) : ℝ) := by exact_mod_cast e2
  push_cast at c1 c2
  rw [Rat.cast_abs]
  exact ⟨c1, c2⟩

/-- The range is exact if the two bounds are doubles, for instance if position and radius are multiples of a common power of
two and not too large. -/
theorem C117_exact {m n e : ℤ} (h : |m| + |n| < 2 ^ 53) (z : ℚ) :
    KeepsBounds (searchBounds (m * 2 ^ e) (n * 2 ^ e)) z ↔ |z - m * 2 ^ e| ≤ n * 2 ^ e := by
  have d1 : IsDouble ((m : ℚ) * 2 ^ e - n * 2 ^ e) := ⟨m - n, e, lt_of_le_of_lt (abs_sub _ _) h, by push_cast; ring⟩
  have d2 : IsDouble ((m : ℚ) * 2 ^ e + n * 2 ^ e) := ⟨m + n, e, lt_of_le_of_lt (abs_add_le _ _) h, by push_cast; ring⟩
  rw [KeepsBounds, searchBounds, fl_double d1, fl_double d2, abs_le]
  constructor
  · rintro ⟨h1, h2⟩
    constructor <;> linarith
  · rintro ⟨h1, h2⟩
    constructor <;> linarith

/-- The radius itself is not a bound: the range may be wider by rounding (radius `3 / 2^54` around `1`). -/
theorem C117_exact_radius_false : ∃ x r z : ℚ, IsDouble x ∧ IsDouble r ∧ 0 < r ∧ IsDouble z ∧ KeepsBounds (searchBounds x r) z ∧ r < |z - x| := by
  refine ⟨1, 3 / 2 ^ 54, 1 + 1 / 2 ^ 52, ⟨1, 0, by norm_num, by norm_num⟩, ⟨3, -54, by norm_num, by norm_num⟩, by norm_num,
    ⟨2 ^ 52 + 1, -52, by norm_num, by norm_num⟩, ⟨?_, ?_⟩, by norm_num⟩
  · have := (C117_feasible (x := 1) (r := 3 / 2 ^ 54) ⟨1, 0, by norm_num, by norm_num⟩ (by norm_num)).1
    linarith [show (0 : ℚ) ≤ 1 / 2 ^ 52 by norm_num]
  · have h1 : IsDouble (1 + 1 / 2 ^ 52) := ⟨2 ^ 52 + 1, -52, by norm_num, by norm_num⟩
    have h2 := fl_nearest (1 + 3 / 2 ^ 54) h1
    have h3 := (abs_le.1 (h2.trans (le_of_eq (show |(1 + 1 / 2 ^ 52 : ℚ) - (1 + 3 / 2 ^ 54)| = 1 / 2 ^ 54 by norm_num)))).1
    -- no double lies strictly between `1` and `1 + 1 / 2^52`
    have h4 := isDouble_fl (1 + 3 / 2 ^ 54)
    show _ ≤ fl (1 + 3 / 2 ^ 54)
    generalize fl (1 + 3 / 2 ^ 54) = d at *
    by_contra hc
    push Not at hc
    obtain ⟨m, e, hm, rfl⟩ := h4
    have hm' : (m : ℚ) < 2 ^ 53 := by exact_mod_cast (abs_lt.1 hm).2
    have hpos : (0 : ℚ) < 2 ^ e := by positivity
    have he : -52 ≤ e := by
      by_contra hlt
      push Not at hlt
      have : (2 : ℚ) ^ e ≤ 2 ^ (-53 : ℤ) := zpow_le_zpow_right₀ (by norm_num) (by omega)
      have h5 : (m : ℚ) * 2 ^ e ≤ 1 := by
        by_cases h0 : (m : ℚ) ≤ 0
        · nlinarith
        · push Not at h0
          calc (m : ℚ) * 2 ^ e ≤ 2 ^ 53 * 2 ^ (-53 : ℤ) := by gcongr
            _ = 1 := by norm_num
      have : (1 : ℚ) < 1 + 3 / 2 ^ 54 - 1 / 2 ^ 54 := by norm_num
      linarith
    obtain ⟨j, hj⟩ := Int.eq_ofNat_of_zero_le (show 0 ≤ e + 52 by omega)
    have e1 : (m : ℚ) * 2 ^ e = ((m * 2 ^ j : ℤ) : ℚ) / 2 ^ 52 := by
      rw [show e = j + (-52) by omega, zpow_add₀ (by norm_num)]
      push_cast
      rw [zpow_natCast]
      norm_num
      ring
    rw [e1] at h3 hc
    have h6 : ((m * 2 ^ j : ℤ) : ℚ) < 2 ^ 52 + 1 := by
      have := (div_lt_iff₀ (by norm_num : (0 : ℚ) < 2 ^ 52)).1 hc
      linarith [show (1 + 1 / 2 ^ 52 : ℚ) * 2 ^ 52 = 2 ^ 52 + 1 by norm_num]
    have h7 : (2 ^ 52 : ℚ) < ((m * 2 ^ j : ℤ) : ℚ) := by
      have h8 : (1 + 1 / 2 ^ 53 : ℚ) ≤ ((m * 2 ^ j : ℤ) : ℚ) / 2 ^ 52 := by
        have : (1 + 1 / 2 ^ 53 : ℚ) = 1 + 3 / 2 ^ 54 - 1 / 2 ^ 54 := by norm_num
        linarith
      have := (le_div_iff₀ (by norm_num : (0 : ℚ) < 2 ^ 52)).1 h8
      linarith [show (2 ^ 52 : ℚ) < (1 + 1 / 2 ^ 53) * 2 ^ 52 by norm_num]
    have h6' : m * 2 ^ j < 2 ^ 52 + 1 := by exact_mod_cast h6
    have h7' : 2 ^ 52 < m * 2 ^ j := by exact_mod_cast h7
    omega

/-- Over `k` steps no component moves farther than `k` times the radius, up to rounding. -/
theorem C117_run {x : ℕ → ℚ} {r : ℚ} (hr : 0 ≤ r) (h : ∀ k, KeepsBounds (searchBounds (x k) r) (x (k + 1))) (k : ℕ)
    (hk : k ≤ 2 ^ 53) : |x k - x 0| ≤ k * (1 + k / 2 ^ 53) * (r + (|x 0| + r) / 2 ^ 53) := by
  set e : ℚ := 1 / 2 ^ 53 with he
  have e0 : 0 < e := by norm_num [he]
  set A : ℚ := r + (|x 0| + r) * e with hA
  have A0 : 0 ≤ A := by have := abs_nonneg (x 0); positivity
  suffices H : |x k - x 0| ≤ k * (1 + k * e) * A by
    have : (k : ℚ) * (1 + k / 2 ^ 53) * (r + (|x 0| + r) / 2 ^ 53) = k * (1 + k * e) * A := by rw [hA, he]; ring
    rwa [this]
  induction k with
  | zero => simp
  | succ k ih =>
    have ih := ih (by omega)
    have hw := C117_width hr (h k)
    have h1 : |x k| ≤ |x 0| + |x k - x 0| := by
      have := abs_add_le (x 0) (x k - x 0)
      rwa [add_sub_cancel] at this
    have h2 : |x (k + 1) - x 0| ≤ |x (k + 1) - x k| + |x k - x 0| := abs_sub_le _ _ _
    have hw' : |x (k + 1) - x k| ≤ A + |x k - x 0| * e := by
      refine hw.trans ?_
      rw [hA, he]
      have : (|x k| + r) / 2 ^ 53 ≤ (|x 0| + |x k - x 0| + r) / 2 ^ 53 := by gcongr
      linarith
    have hke : (k : ℚ) * e ≤ 1 := by
      have : (k : ℚ) ≤ 2 ^ 53 := by exact_mod_cast (by omega : k ≤ 2 ^ 53)
      rw [he]
      have := div_le_one_of_le₀ this (by positivity)
      linarith
    have k0 : (0 : ℚ) ≤ k := by positivity
    have h3 : |x k - x 0| * (1 + e) ≤ k * (1 + k * e) * A * (1 + e) := by gcongr
    have h4 : (k : ℚ) * (1 + k * e) * (1 + e) + 1 ≤ ((k + 1 : ℕ) : ℚ) * (1 + ((k + 1 : ℕ) : ℚ) * e) := by
      push_cast
      have : (k : ℚ) * e * (k * e) ≤ k * e * 1 := by gcongr
      nlinarith
    have h5 := mul_le_mul_of_nonneg_right h4 A0
    linarith

/-- two doubles are equal or at least a unit in the last place apart -/
theorem double_gap {x d : ℚ} (hx : IsDouble x) (hd : IsDouble d) (h : d ≠ x) : |x| / 2 ^ 53 ≤ |d - x| := by
  obtain ⟨m, a, hm, rfl⟩ := hx
  obtain ⟨n, b, hn, rfl⟩ := hd
  have hm' : |(m : ℚ)| < 2 ^ 53 := by exact_mod_cast hm
  have hn' : |(n : ℚ)| < 2 ^ 53 := by exact_mod_cast hn
  have pa : (0 : ℚ) < 2 ^ a := by positivity
  have pb : (0 : ℚ) < 2 ^ b := by positivity
  have hxa : |(m : ℚ) * 2 ^ a| / 2 ^ 53 < 2 ^ a := by
    rw [abs_mul, abs_of_pos pa, div_lt_iff₀ (by norm_num)]
    nlinarith
  -- a nonzero multiple of a unit is at least the unit
  have unit : ∀ (z c : ℤ), (n : ℚ) * 2 ^ b - m * 2 ^ a = z * 2 ^ c → (2 : ℚ) ^ c ≤ |(n : ℚ) * 2 ^ b - m * 2 ^ a| := by
    intro z c hz
    have hz0 : z ≠ 0 := by
      rintro rfl
      simp only [Int.cast_zero, zero_mul] at hz
      exact h (sub_eq_zero.1 hz)
    rw [hz, abs_mul, abs_of_pos (by positivity : (0 : ℚ) < 2 ^ c)]
    have : (1 : ℚ) ≤ |(z : ℚ)| := by exact_mod_cast Int.one_le_abs hz0
    nlinarith [(by positivity : (0 : ℚ) < 2 ^ c)]
  rcases le_or_gt a b with hab | hab
  · obtain ⟨j, hj⟩ := Int.eq_ofNat_of_zero_le (sub_nonneg.2 hab)
    refine hxa.le.trans (unit (n * 2 ^ j - m) a ?_)
    rw [show b = j + a by omega, zpow_add₀ (by norm_num), zpow_natCast]
    push_cast
    ring
  · obtain ⟨j, hj⟩ := Int.eq_ofNat_of_zero_le (sub_nonneg.2 hab.le)
    have ha : (2 : ℚ) ^ a = 2 ^ j * 2 ^ b := by
      rw [show a = j + b by omega, zpow_add₀ (by norm_num), zpow_natCast]
    rcases le_or_gt |(m : ℚ) * 2 ^ a| (2 ^ 53 * 2 ^ b) with hs | hs
    · have h1 : |(m : ℚ) * 2 ^ a| / 2 ^ 53 ≤ 2 ^ b := by
        rw [div_le_iff₀ (by norm_num)]
        linarith
      refine h1.trans (unit (n - m * 2 ^ j) b ?_)
      rw [ha]
      push_cast
      ring
    · -- `x` lies outside the range of the doubles with the exponent of `d`
      have hd' : |(n : ℚ) * 2 ^ b| ≤ 2 ^ 53 * 2 ^ b := by
        rw [abs_mul, abs_of_pos pb]
        gcongr
      have hsub : |(m : ℚ) * 2 ^ a| - |(n : ℚ) * 2 ^ b| ≤ |(n : ℚ) * 2 ^ b - m * 2 ^ a| := by
        rw [abs_sub_comm]
        exact abs_sub_abs_le_abs_sub _ _
      have hX : |(m : ℚ) * 2 ^ a| = ((|m| * 2 ^ j : ℤ) : ℚ) * 2 ^ b := by
        rw [abs_mul, abs_of_pos pa, ha]
        push_cast
        ring
      have hM : (2 : ℤ) ^ 53 < |m| * 2 ^ j := by
        have : (2 : ℚ) ^ 53 * 2 ^ b < ((|m| * 2 ^ j : ℤ) : ℚ) * 2 ^ b := by rwa [← hX]
        exact_mod_cast lt_of_mul_lt_mul_right this pb.le
      rcases le_or_gt j 53 with hj | hj
      · have hM2 : (2 : ℤ) ^ 53 + 2 ^ j ≤ |m| * 2 ^ j := by
          have e1 : (2 : ℤ) ^ 53 = 2 ^ (53 - j) * 2 ^ j := by rw [← pow_add]; congr 1; omega
          rw [e1] at hM ⊢
          have := lt_of_mul_lt_mul_right hM (by positivity)
          have h7 : (2 : ℤ) ^ (53 - j) + 1 ≤ |m| := this
          nlinarith [(by positivity : (0 : ℤ) < 2 ^ j)]
        have hM3 : ((2 : ℚ) ^ 53 + 2 ^ j) * 2 ^ b ≤ |(m : ℚ) * 2 ^ a| := by
          rw [hX]
          exact mul_le_mul_of_nonneg_right (by exact_mod_cast hM2) pb.le
        refine hxa.le.trans ?_
        have : (2 : ℚ) ^ a ≤ |(m : ℚ) * 2 ^ a| - |(n : ℚ) * 2 ^ b| := by
          have : ((2 : ℚ) ^ 53 + 2 ^ j) * 2 ^ b = 2 ^ 53 * 2 ^ b + 2 ^ a := by rw [ha]; ring
          linarith
        exact this.trans hsub
      · have h8 : (2 : ℚ) * (2 ^ 53 * 2 ^ b) ≤ |(m : ℚ) * 2 ^ a| := by
          have hm1 : (1 : ℤ) ≤ |m| := by
            refine Int.one_le_abs ?_
            rintro rfl
            simp at hM
          have h9 : (2 : ℤ) ^ 54 ≤ |m| * 2 ^ j := by
            calc (2 : ℤ) ^ 54 ≤ 2 ^ j := pow_le_pow_right₀ (by norm_num) (by omega)
              _ ≤ |m| * 2 ^ j := le_mul_of_one_le_left (by positivity) hm1
          rw [hX]
          have : ((2 : ℚ) ^ 54) * 2 ^ b ≤ ((|m| * 2 ^ j : ℤ) : ℚ) * 2 ^ b := mul_le_mul_of_nonneg_right (by exact_mod_cast h9) pb.le
          linarith
        have : |(m : ℚ) * 2 ^ a| / 2 ^ 53 ≤ |(m : ℚ) * 2 ^ a| / 2 := by gcongr; norm_num
        linarith

/-- A radius of less than `2^-54` of a component freezes this component: its range is one point. -/
theorem C117_frozen {x r : ℚ} (hx : IsDouble x) (hr : 0 ≤ r) (h : r < |x| / 2 ^ 54) (z : ℚ) :
    KeepsBounds (searchBounds x r) z ↔ z = x := by
  have key : ∀ y, |y - x| = r → fl y = x := by
    intro y hy
    by_contra hne
    have h1 := double_gap hx (isDouble_fl y) hne
    have h2 := fl_nearest y hx
    rw [abs_sub_comm x y, hy] at h2
    have h3 := abs_sub_le (fl y) y x
    have : |x| / 2 ^ 53 = 2 * (|x| / 2 ^ 54) := by ring
    linarith
  have e1 : fl (x - r) = x := key _ (by rw [sub_sub_cancel_left, abs_neg, abs_of_nonneg hr])
  have e2 : fl (x + r) = x := key _ (by rw [add_sub_cancel_left, abs_of_nonneg hr])
  simp only [KeepsBounds, searchBounds, e1, e2]
  exact ⟨fun h => le_antisymm h.2 h.1, fun h => by rw [h]; exact ⟨le_refl _, le_refl _⟩⟩

/-- If the radius is at least `2^-52` of the component, the component can move in both directions by a quarter of the
radius. -/
theorem C117_free {x r z : ℚ} (hr : 0 ≤ r) (h : |x| / 2 ^ 52 ≤ r) (hz : |z - x| ≤ r / 4) :
    KeepsBounds (searchBounds x r) z := by
  have e1 := abs_le.1 (fl_error (x - r))
  have e2 := abs_le.1 (fl_error (x + r))
  have a1 : |x - r| ≤ |x| + r := by
    have := abs_sub x r
    rwa [abs_of_nonneg hr] at this
  have a2 : |x + r| ≤ |x| + r := by
    have := abs_add_le x r
    rwa [abs_of_nonneg hr] at this
  have a3 : (|x| + r) / 2 ^ 53 ≤ r / 2 + r / 2 ^ 53 := by
    have : (|x| + r) / 2 ^ 53 = |x| / 2 ^ 52 / 2 + r / 2 ^ 53 := by ring
    linarith
  have a1' : |x - r| / 2 ^ 53 ≤ (|x| + r) / 2 ^ 53 := by gcongr
  have a2' : |x + r| / 2 ^ 53 ≤ (|x| + r) / 2 ^ 53 := by gcongr
  have a4 : r / 2 ^ 53 ≤ r / 4 := by gcongr; norm_num
  have hz := abs_le.1 hz
  constructor
  · show fl (x - r) ≤ z
    linarith [e1.2]
  · show z ≤ fl (x + r)
    linarith [e2.1]

/-- the hypotheses are met: radius `0.25` (exact in binary) around `1 / 2`, and a run that moves by the radius in every step -/
example : IsDouble (1 / 2) ∧ KeepsBounds (searchBounds (1 / 2) (1 / 4)) (3 / 4) ∧
    ¬ KeepsBounds (searchBounds (1 / 2) (1 / 4)) (4 / 5) := by
  have h := C117_exact (m := 2) (n := 1) (e := -2) (by norm_num)
  have e1 : ((2 : ℤ) : ℚ) * 2 ^ (-2 : ℤ) = 1 / 2 := by norm_num
  have e2 : ((1 : ℤ) : ℚ) * 2 ^ (-2 : ℤ) = 1 / 4 := by norm_num
  rw [e1, e2] at h
  refine ⟨⟨1, -1, by norm_num, by norm_num⟩, (h _).2 (by norm_num), fun hc => ?_⟩
  have := (h _).1 hc
  norm_num [abs_le] at this

/-- a body moving to the right by the radius `1 / 4` in each of `k` steps: the runs of `C117_run` -/
example (k : ℕ) (hk : k < 2 ^ 52) : KeepsBounds (searchBounds (k / 4) (1 / 4)) ((k + 1 : ℕ) / 4) := by
  have h := C117_exact (m := k) (n := 1) (e := -2) (by rw [abs_of_nonneg (by positivity)]; norm_num; omega) ((k + 1 : ℕ) / 4)
  have e1 : ((k : ℤ) : ℚ) * 2 ^ (-2 : ℤ) = k / 4 := by norm_num; ring
  have e2 : ((1 : ℤ) : ℚ) * 2 ^ (-2 : ℤ) = 1 / 4 := by norm_num
  rw [e1, e2] at h
  refine h.2 ?_
  push_cast
  rw [show ((k : ℚ) + 1) / 4 - k / 4 = 1 / 4 by ring]
  norm_num

end Tve
