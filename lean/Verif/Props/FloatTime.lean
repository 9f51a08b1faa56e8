import Verif.Model.FloatTime
import Verif.Props.Rounding
import Verif.Lemmas.FloatNorm

/-!
# C91: the times passed to the boundary data, in double precision
-/

namespace Tve
open F64

private theorem start (fps : ℚ) : currentTime fps 1 = 0 := by
  simp [currentTime, fl]

/-- a multiple of `2 ^ e` by less than `2 ^ 53` is a double -/
private theorem isDouble_nat {n m : ℕ} (e : ℤ) (h : n * m < 2 ^ 53) : IsDouble (n * (m * 2 ^ e)) := by
  refine ⟨(n * m : ℕ), e, ?_, by push_cast; ring⟩
  rw [abs_of_nonneg (by positivity)]
  exact_mod_cast h

/-- if the time step `1 / fps` is the double `m * 2 ^ e`, the `k`-th run uses the exact time `k / fps` as long as `k * m` stays
below `2 ^ 53` -/
private theorem exact_time {fps : ℚ} {m : ℕ} {e : ℤ} (h : 1 / fps = m * 2 ^ e) (hm : m < 2 ^ 53) (k : ℕ) (hk : k * m < 2 ^ 53) :
    runTime fps k = k / fps := by
  have ht : tau fps = m * 2 ^ e := by
    rw [tau, h]
    refine fl_double ⟨m, e, ?_, by push_cast; ring⟩
    rw [abs_of_nonneg (by positivity)]
    exact_mod_cast hm
  have hk' : (k : ℚ) / fps = k * (m * 2 ^ e) := by rw [← h]; ring
  rw [hk']
  clear hk'
  induction k with
  | zero => simpa [runTime] using start fps
  | succ k ih =>
    have hk2 : k * m < 2 ^ 53 := lt_of_le_of_lt (Nat.mul_le_mul_right m (Nat.le_succ k)) hk
    have := ih hk2
    rw [runTime] at this
    rw [runTime, currentTime, this, ht, show (k : ℚ) * (m * 2 ^ e) + m * 2 ^ e = ((k + 1 : ℕ) : ℚ) * (m * 2 ^ e) by push_cast; ring]
    exact fl_double (isDouble_nat e hk)

/-- **C91.** For a power of two as `fps` (the only doubles whose inverse is a double) the `k`-th run uses the exact time `k / fps`. -/
theorem C91_powers_of_two (j : ℤ) (k : ℕ) (hk : k < 2 ^ 53) : runTime (2 ^ j) k = k / 2 ^ j :=
  exact_time (m := 1) (e := -j) (by rw [zpow_neg]; simp) (by norm_num) k (by simpa using hk)

private theorem bounds {fps : ℚ} (hf : 0 < fps) (k : ℕ) :
    k / fps * (1 - 1 / 2 ^ 53) ^ (k + 1) ≤ runTime fps k ∧ runTime fps k ≤ k / fps * (1 + 1 / 2 ^ 53) ^ (k + 1) := by
  have ha : (0 : ℚ) ≤ 1 / fps := by positivity
  have t1 : 1 / fps * (1 - 1 / 2 ^ 53) ≤ tau fps := fl_ge ha le_rfl
  have t2 : tau fps ≤ 1 / fps * (1 + 1 / 2 ^ 53) := fl_le ha le_rfl
  have u0 : (0 : ℚ) ≤ 1 - 1 / 2 ^ 53 := by norm_num
  have u1 : (1 - 1 / 2 ^ 53 : ℚ) ≤ 1 := by norm_num
  have v1 : (1 : ℚ) ≤ 1 + 1 / 2 ^ 53 := by norm_num
  induction k with
  | zero => simp [runTime, start]
  | succ k ih =>
    obtain ⟨l, r⟩ := ih
    have hk : (k + 1 : ℕ) / fps = k / fps + 1 / fps := by push_cast; ring
    have p1 : (1 - 1 / 2 ^ 53 : ℚ) ^ (k + 1) ≤ 1 - 1 / 2 ^ 53 := by
      calc (1 - 1 / 2 ^ 53 : ℚ) ^ (k + 1) = (1 - 1 / 2 ^ 53) ^ k * (1 - 1 / 2 ^ 53) := pow_succ _ _
        _ ≤ 1 * (1 - 1 / 2 ^ 53) := by gcongr; exact pow_le_one₀ u0 u1
        _ = _ := one_mul _
    have p2 : (1 + 1 / 2 ^ 53 : ℚ) ≤ (1 + 1 / 2 ^ 53) ^ (k + 1) := le_self_pow₀ v1 (by omega)
    have lo : (k + 1 : ℕ) / fps * (1 - 1 / 2 ^ 53) ^ (k + 1) ≤ runTime fps k + tau fps := by
      rw [hk, add_mul]
      exact add_le_add l ((mul_le_mul_of_nonneg_left p1 ha).trans t1)
    have hi : runTime fps k + tau fps ≤ (k + 1 : ℕ) / fps * (1 + 1 / 2 ^ 53) ^ (k + 1) := by
      rw [hk, add_mul]
      exact add_le_add r (t2.trans (mul_le_mul_of_nonneg_left p2 ha))
    have l0 : (0 : ℚ) ≤ (k + 1 : ℕ) / fps * (1 - 1 / 2 ^ 53) ^ (k + 1) := by positivity
    constructor
    · rw [pow_succ, ← mul_assoc]
      exact fl_ge l0 lo
    · rw [pow_succ, ← mul_assoc]
      exact fl_le (l0.trans lo) hi

private theorem pow_le {k : ℕ} (hk : k < 2 ^ 52) : (1 + 1 / 2 ^ 53 : ℚ) ^ (k + 1) ≤ 1 + 2 * ((k + 1) / 2 ^ 53) := by
  have hk' : (k : ℚ) + 1 ≤ 2 ^ 52 := by exact_mod_cast hk
  have b := one_add_mul_le_pow (a := (-(1 / 2 ^ 53) : ℚ)) (by norm_num) (k + 1)
  push_cast at b
  have hx : ((k : ℚ) + 1) / 2 ^ 53 ≤ 1 / 2 := by rw [div_le_iff₀ (by positivity)]; linarith
  have hx0 : 0 ≤ ((k : ℚ) + 1) / 2 ^ 53 := by positivity
  set x := ((k : ℚ) + 1) / 2 ^ 53 with hxd
  have b' : 1 - x ≤ (1 - 1 / 2 ^ 53 : ℚ) ^ (k + 1) := by
    calc 1 - x = 1 + ((k : ℚ) + 1) * -(1 / 2 ^ 53) := by rw [hxd]; ring
      _ ≤ _ := by rw [sub_eq_add_neg]; exact b
  have pr : (1 - 1 / 2 ^ 53 : ℚ) ^ (k + 1) * (1 + 1 / 2 ^ 53) ^ (k + 1) ≤ 1 := by
    rw [← mul_pow]
    exact pow_le_one₀ (by norm_num) (by norm_num)
  have P0 : (0 : ℚ) ≤ (1 + 1 / 2 ^ 53) ^ (k + 1) := by positivity
  have q : (1 - x) * (1 + 1 / 2 ^ 53 : ℚ) ^ (k + 1) ≤ 1 := (mul_le_mul_of_nonneg_right b' P0).trans pr
  have q2 : (1 : ℚ) ≤ (1 - x) * (1 + 2 * x) := by nlinarith
  by_contra hc
  have h1 : (0 : ℚ) < 1 - x := by linarith
  have := mul_lt_mul_of_pos_left (not_le.1 hc) h1
  linarith

/-- **C91.** The time of the `k`-th run is `k / fps` up to a relative error of `(k + 1) / 2 ^ 52`. -/
theorem C91_error_partial {fps : ℚ} (hf : 0 < fps) {k : ℕ} (hk : k < 2 ^ 52) :
    |runTime fps k - k / fps| ≤ k / fps * ((k + 1) / 2 ^ 52) := by
  obtain ⟨l, r⟩ := bounds hf k
  have h0 : (0 : ℚ) ≤ k / fps := by positivity
  have b := one_add_mul_le_pow (a := (-(1 / 2 ^ 53) : ℚ)) (by norm_num) (k + 1)
  push_cast at b
  rw [← sub_eq_add_neg 1 (1 / 2 ^ 53 : ℚ)] at b
  have b1 := mul_le_mul_of_nonneg_left b h0
  have b2 := mul_le_mul_of_nonneg_left (pow_le hk) h0
  have e : (k : ℚ) / fps * ((k + 1) / 2 ^ 52) = 2 * (k / fps * ((k + 1) / 2 ^ 53)) := by ring
  have e0 : 0 ≤ (k : ℚ) / fps * ((k + 1) / 2 ^ 53) := by positivity
  have e1 : (k : ℚ) / fps * (1 + (k + 1) * -(1 / 2 ^ 53)) = k / fps - k / fps * ((k + 1) / 2 ^ 53) := by ring
  have e2 : (k : ℚ) / fps * (1 + 2 * ((k + 1) / 2 ^ 53)) = k / fps + 2 * (k / fps * ((k + 1) / 2 ^ 53)) := by ring
  rw [abs_le, e]
  constructor <;> linarith

/-- **C91.** Time never stands still: the times of the runs are strictly increasing, and those of all runs are positive. -/
theorem C91_increasing {fps : ℚ} (hf : 0 < fps) {k : ℕ} (hk : k < 2 ^ 50) :
    runTime fps k < runTime fps (k + 1) ∧ 0 < runTime fps (k + 1) := by
  have ha : (0 : ℚ) < 1 / fps := by positivity
  have t1 : 1 / fps * (1 - 1 / 2 ^ 53) ≤ tau fps := fl_ge ha.le le_rfl
  have hk2 : k < 2 ^ 52 := hk.trans (by norm_num)
  obtain ⟨l, r⟩ := bounds hf k
  have r' := r.trans (mul_le_mul_of_nonneg_left (pow_le hk2) (by positivity : (0 : ℚ) ≤ k / fps))
  have hk' : (k : ℚ) + 1 ≤ 2 ^ 50 := by exact_mod_cast hk
  have l0 : 0 ≤ runTime fps k := le_trans (by
    have : (0 : ℚ) ≤ 1 - 1 / 2 ^ 53 := by norm_num
    positivity) l
  have step : (runTime fps k + tau fps) * (1 - 1 / 2 ^ 53) ≤ runTime fps (k + 1) := by
    refine fl_ge ?_ le_rfl
    have : 0 ≤ tau fps := le_trans (by norm_num at ha ⊢; exact ha.le) t1
    show 0 ≤ runTime fps k + tau fps
    linarith
  have hx : ((k : ℚ) + 1) / 2 ^ 53 ≤ 1 / 8 := by rw [div_le_iff₀ (by positivity)]; linarith
  have hka : (k : ℚ) / fps ≤ 2 ^ 50 * (1 / fps) := by
    rw [div_eq_mul_one_div]
    exact mul_le_mul_of_nonneg_right (by linarith) ha.le
  have up : runTime fps k ≤ 2 ^ 50 * (1 / fps) * (5 / 4) := by
    calc runTime fps k ≤ k / fps * (1 + 2 * ((k + 1) / 2 ^ 53)) := r'
      _ ≤ k / fps * (5 / 4) := by
        apply mul_le_mul_of_nonneg_left _ (by positivity)
        linarith
      _ ≤ _ := mul_le_mul_of_nonneg_right hka (by norm_num)
  have main : runTime fps k < runTime fps (k + 1) := by
    refine lt_of_lt_of_le ?_ step
    generalize 1 / fps = a at *
    generalize tau fps = t at *
    generalize runTime fps k = T at *
    norm_num at *
    linarith
  exact ⟨main, lt_of_le_of_lt l0 main⟩

/-- **C91.** The times are not the doubles nearest to `k / fps`: with ten frames per second the third run is at a time later than
`0.3`, and the 80th, nominally at time 8, at a time earlier than 8, so that `t >= 8` is false. -/
theorem C91_nominal_false : fl (3 / 10) < runTime 10 3 ∧ runTime 10 80 < 8 := by decide +kernel

/-- The hypotheses are met: one frame per second, as in the example notebook, is exact; three frames per second, as in the README,
satisfy the error bound, and the error is not zero. -/
example : runTime 1 8 = 8 ∧ runTime 3 28 ≠ 28 / 3 ∧ |runTime 3 28 - 28 / 3| ≤ 1 / 10 ^ 12 ∧ runTime 3 27 < runTime 3 28 := by
  refine ⟨?_, by decide +kernel, ?_, (C91_increasing (by norm_num) (by norm_num)).1⟩
  · have := C91_powers_of_two 0 8 (by norm_num)
    norm_num at this
    exact this
  · refine (C91_error_partial (by norm_num) (by norm_num)).trans ?_
    norm_num

end Tve
