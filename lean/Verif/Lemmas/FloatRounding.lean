import Verif.Props.Rounding

/-!
# Rounding is correct: `fl x` is the double nearest to `x`, and rounding is odd and monotone
-/

namespace Tve
open F64

theorem roundEven_near (y : ℚ) (m : ℤ) : |(roundEven y : ℚ) - y| ≤ |(m : ℚ) - y| := by
  have h1 := Int.floor_le y
  have h2 := Int.lt_floor_add_one y
  have key : |(roundEven y : ℚ) - y| ≤ y - ⌊y⌋ ∧ |(roundEven y : ℚ) - y| ≤ ⌊y⌋ + 1 - y := by
    unfold roundEven
    split_ifs <;> push_cast <;> constructor <;> rw [abs_le] <;> constructor <;> linarith
  rcases le_or_gt m ⌊y⌋ with h | h
  · have : (m : ℚ) ≤ ⌊y⌋ := by exact_mod_cast h
    rw [abs_sub_comm (m : ℚ), abs_of_nonneg (by linarith : (0 : ℚ) ≤ y - m)]
    linarith [key.1]
  · have : (⌊y⌋ : ℚ) + 1 ≤ m := by exact_mod_cast h
    rw [abs_of_nonneg (by linarith : (0 : ℚ) ≤ (m : ℚ) - y)]
    linarith [key.2]

theorem roundEven_neg (y : ℚ) : roundEven (-y) = -roundEven y := by
  by_cases hy : (⌊y⌋ : ℚ) = y
  · rw [← hy, ← Int.cast_neg, roundEven_int, roundEven_int]
  · have h1 : (⌊y⌋ : ℚ) < y := lt_of_le_of_ne (Int.floor_le y) hy
    have h2 := Int.lt_floor_add_one y
    have hf : ⌊-y⌋ = -⌊y⌋ - 1 := by
      rw [Int.floor_eq_iff]; push_cast; constructor <;> linarith
    unfold roundEven
    rw [hf]
    push_cast
    by_cases c1 : y - ⌊y⌋ < 1 / 2
    · rw [if_pos c1, if_neg (by linarith), if_pos (by linarith)]; ring
    · by_cases c2 : 1 / 2 < y - ⌊y⌋
      · rw [if_neg c1, if_pos c2, if_pos (by linarith)]; ring
      · rw [if_neg c1, if_neg c2, if_neg (by linarith), if_neg (by linarith)]
        by_cases c3 : ⌊y⌋ % 2 = 0
        · rw [if_pos c3, if_neg (by omega)]; ring
        · rw [if_neg c3, if_pos (by omega)]; ring

theorem fl_neg (x : ℚ) : fl (-x) = -fl x := by
  unfold fl
  by_cases h : x = 0
  · simp [h]
  · rw [if_neg h, if_neg (neg_ne_zero.2 h), abs_neg, neg_div, roundEven_neg]
    push_cast
    ring

theorem fl_zero : fl 0 = 0 := by simp [fl]

/-- the mantissa and the exponent used for rounding -/
private theorem fl_scale {x : ℚ} (h : x ≠ 0) : ∃ c : ℚ, (∃ k : ℤ, c = 2 ^ (k - 52) ∧ (2 : ℚ) ^ k = c * 2 ^ 52) ∧
    c * 2 ^ 52 ≤ |x| ∧ |x| < c * 2 ^ 53 ∧ fl x = roundEven (x / c) * c := by
  have hx : 0 < |x| := abs_pos.2 h
  refine ⟨2 ^ (Int.log 2 |x| - 52), ⟨Int.log 2 |x|, rfl, ?_⟩, ?_, ?_, by rw [fl, if_neg h]⟩
  · rw [zpow_sub₀ (by norm_num), show ((2 : ℚ) ^ (52 : ℤ)) = 2 ^ 52 from by norm_cast]; field_simp
  · have := Int.zpow_log_le_self (b := 2) (r := |x|) (by norm_num) hx
    rw [zpow_sub₀ (by norm_num), show ((2 : ℚ) ^ (52 : ℤ)) = 2 ^ 52 from by norm_cast]
    push_cast at this
    rw [div_mul_cancel₀ _ (by positivity)]
    exact this
  · have := Int.lt_zpow_succ_log_self (b := 2) (by norm_num) |x|
    rw [zpow_sub₀ (by norm_num), show ((2 : ℚ) ^ (52 : ℤ)) = 2 ^ 52 from by norm_cast]
    push_cast at this
    rw [zpow_add₀ (by norm_num), zpow_one] at this
    calc |x| < 2 ^ Int.log 2 |x| * 2 := this
      _ = _ := by rw [show (2 : ℚ) ^ 53 = 2 ^ 52 * 2 from by norm_num, ← mul_assoc, div_mul_cancel₀ _ (by positivity)]

private theorem roundEven_le {y : ℚ} (h : |y| < 2 ^ 53) : |roundEven y| ≤ 2 ^ 53 := by
  have h3 := roundEven_error y
  generalize roundEven y = r at *
  have h4 : |(r : ℚ)| < ((2 ^ 53 + 1 : ℤ) : ℚ) := by
    have : |(r : ℚ)| ≤ |(r : ℚ) - y| + |y| := by
      have := abs_add_le ((r : ℚ) - y) y
      rwa [sub_add_cancel] at this
    push_cast
    linarith
  have h5 : |r| < 2 ^ 53 + 1 := by exact_mod_cast h4
  omega

theorem isDouble_fl (x : ℚ) : IsDouble (fl x) := by
  by_cases h : x = 0
  · exact ⟨0, 0, by norm_num, by simp [h, fl_zero]⟩
  obtain ⟨c, ⟨k, hk, -⟩, h1, h2, e⟩ := fl_scale h
  have hc : (0 : ℚ) < c := by rw [hk]; positivity
  have ha : |x / c| < 2 ^ 53 := by
    rw [abs_div, abs_of_pos hc, div_lt_iff₀ hc]; linarith
  have hr := roundEven_le ha
  generalize roundEven (x / c) = r at *
  rcases hr.lt_or_eq with hr | hr
  · exact ⟨_, _, hr, by rw [e, hk]⟩
  · rcases abs_eq (by norm_num : (0 : ℤ) ≤ 2 ^ 53) |>.1 hr with h5 | h5
    · refine ⟨2 ^ 52, k - 52 + 1, by norm_num, ?_⟩
      rw [e, h5, zpow_add₀ (by norm_num), zpow_one, ← hk]; push_cast; ring
    · refine ⟨-2 ^ 52, k - 52 + 1, by norm_num, ?_⟩
      rw [e, h5, zpow_add₀ (by norm_num), zpow_one, ← hk]; push_cast; ring

theorem fl_nearest (x : ℚ) {d : ℚ} (hd : IsDouble d) : |fl x - x| ≤ |d - x| := by
  by_cases h : x = 0
  · simp [h, fl_zero]
  obtain ⟨c, ⟨k, rfl, hk⟩, h1, h2, e⟩ := fl_scale h
  have hc : (0 : ℚ) < 2 ^ (k - 52) := by positivity
  set c : ℚ := 2 ^ (k - 52) with hcd
  -- multiples of the unit are at least as far away
  have mult : ∀ m : ℤ, |fl x - x| ≤ |(m : ℚ) * c - x| := by
    intro m
    have e1 : fl x - x = ((roundEven (x / c) : ℚ) - x / c) * c := by rw [e]; field_simp
    have e2 : (m : ℚ) * c - x = ((m : ℚ) - x / c) * c := by field_simp
    rw [e1, e2, abs_mul, abs_mul]
    exact mul_le_mul_of_nonneg_right (roundEven_near _ _) (abs_nonneg _)
  rcases lt_or_ge |d| (c * 2 ^ 52) with h3 | h3
  · rcases lt_or_gt_of_ne h with hx | hx
    · have := mult (-2 ^ 52)
      rw [abs_of_neg hx] at h1
      refine this.trans ?_
      rw [show (((-2 ^ 52 : ℤ)) : ℚ) = -2 ^ 52 by norm_num]
      rw [abs_of_nonneg (by linarith : (0 : ℚ) ≤ -2 ^ 52 * c - x)]
      have := neg_abs_le d
      exact le_trans (by linarith) (le_abs_self _)
    · have := mult (2 ^ 52)
      rw [abs_of_pos hx] at h1
      refine this.trans ?_
      rw [show (((2 ^ 52 : ℤ)) : ℚ) = 2 ^ 52 by norm_num]
      rw [abs_sub_comm, abs_of_nonneg (by linarith : (0 : ℚ) ≤ x - 2 ^ 52 * c), abs_sub_comm]
      have := le_abs_self d
      exact le_trans (by linarith) (le_abs_self _)
  · obtain ⟨m, f, hm, rfl⟩ := hd
    have hf : k - 52 ≤ f := by
      by_contra hlt
      push Not at hlt
      have hm' : |(m : ℚ)| < 2 ^ (53 : ℤ) := by exact_mod_cast hm
      have h4 : (2 : ℚ) ^ k < 2 ^ (53 + f) := by
        rw [zpow_add₀ (by norm_num), hk]
        calc c * 2 ^ 52 ≤ |(m : ℚ) * 2 ^ f| := h3
          _ = |(m : ℚ)| * 2 ^ f := by rw [abs_mul, abs_of_pos (by positivity : (0 : ℚ) < 2 ^ f)]
          _ < 2 ^ (53 : ℤ) * 2 ^ f := by gcongr
      have := (zpow_lt_zpow_iff_right₀ (by norm_num : (1 : ℚ) < 2)).1 h4
      omega
    obtain ⟨j, hj⟩ := Int.eq_ofNat_of_zero_le (sub_nonneg.2 hf)
    have : (m : ℚ) * 2 ^ f = ((m * 2 ^ j : ℤ) : ℚ) * c := by
      rw [hcd, show f = j + (k - 52) by omega, zpow_add₀ (by norm_num)]
      push_cast
      rw [zpow_natCast]
      ring
    rw [this]
    exact mult _

theorem fl_mono {x y : ℚ} (h : x ≤ y) : fl x ≤ fl y := by
  rcases h.eq_or_lt with rfl | h
  · exact le_refl _
  by_contra hc
  push Not at hc
  have h1 := fl_nearest x (isDouble_fl y)
  have h2 := fl_nearest y (isDouble_fl x)
  rcases abs_cases (fl x - x) with ⟨a1, b1⟩ | ⟨a1, b1⟩ <;> rcases abs_cases (fl y - x) with ⟨a2, b2⟩ | ⟨a2, b2⟩ <;>
    rcases abs_cases (fl y - y) with ⟨a3, b3⟩ | ⟨a3, b3⟩ <;> rcases abs_cases (fl x - y) with ⟨a4, b4⟩ | ⟨a4, b4⟩ <;>
    linarith

theorem fl_eq_zero {x : ℚ} : fl x = 0 ↔ x = 0 := by
  refine ⟨fun h => ?_, fun h => by rw [h, fl_zero]⟩
  have := fl_error x
  rw [h, zero_sub, abs_neg] at this
  by_contra hx
  have hp := abs_pos.2 hx
  have : |x| / 2 ^ 53 < |x| := div_lt_self hp (by norm_num)
  linarith

theorem fl_pos {x : ℚ} : 0 < fl x ↔ 0 < x := by
  constructor
  · intro h
    by_contra hx
    have := fl_mono (not_lt.1 hx)
    rw [fl_zero] at this
    linarith
  · intro h
    have := fl_mono h.le
    rw [fl_zero] at this
    exact lt_of_le_of_ne this (fun e => h.ne' (fl_eq_zero.1 e.symm))

end Tve
