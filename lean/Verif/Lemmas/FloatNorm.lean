import Verif.Model.FloatRefine
import Verif.Props.Rounding
import Verif.Lemmas.GridComb
import Mathlib.Tactic.Linarith
import Mathlib.Tactic.FieldSimp

/-!
# Error analysis of distances of points near lattice points
-/

namespace Tve
open F64

theorem fl_nonneg {x : ℚ} (h : 0 ≤ x) : 0 ≤ fl x := by
  have h1 := abs_le.1 (fl_error x)
  rw [abs_of_nonneg h] at h1
  have : x / 2 ^ 53 ≤ x := div_le_self h (by norm_num)
  linarith [h1.1]

theorem fl_ge {x a : ℚ} (ha : 0 ≤ a) (h : a ≤ x) : a * (1 - 1 / 2 ^ 53) ≤ fl x := by
  have h1 := abs_le.1 (fl_error x)
  rw [abs_of_nonneg (ha.trans h)] at h1
  have h2 : a * (1 - 1 / 2 ^ 53) ≤ x * (1 - 1 / 2 ^ 53) := mul_le_mul_of_nonneg_right h (by norm_num)
  linarith [h1.1]

theorem fl_le {x b : ℚ} (h0 : 0 ≤ x) (h : x ≤ b) : fl x ≤ b * (1 + 1 / 2 ^ 53) := by
  have h1 := abs_le.1 (fl_error x)
  rw [abs_of_nonneg h0] at h1
  have h2 : x * (1 + 1 / 2 ^ 53) ≤ b * (1 + 1 / 2 ^ 53) := mul_le_mul_of_nonneg_right h (by norm_num)
  linarith [h1.2]

theorem fl_abs_le {x b : ℚ} (h : |x| ≤ b) : |fl x| ≤ b * (1 + 1 / 2 ^ 53) := by
  have h1 := abs_le.1 (fl_error x)
  have h3 : |x| / 2 ^ 53 ≤ b / 2 ^ 53 := div_le_div_of_nonneg_right h (by norm_num)
  have h2 := abs_le.1 h
  exact abs_le.2 ⟨by linarith [h1.1], by linarith [h1.2]⟩

theorem fl_abs_ge {x a : ℚ} (h : a ≤ |x|) : a * (1 - 1 / 2 ^ 53) ≤ |fl x| := by
  have h1 := fl_error x
  have h2 : |x| ≤ |fl x| + |fl x - x| := by
    have := abs_sub (fl x) (fl x - x)
    rwa [sub_sub_cancel] at this
  have h3 : a * (1 - 1 / 2 ^ 53) ≤ |x| * (1 - 1 / 2 ^ 53) := mul_le_mul_of_nonneg_right h (by norm_num)
  linarith

/-- `y` scaled to at least 105 binary digits, with its rounded root -/
theorem sqrt_spec {x : ℚ} (hx : 0 < x) : ∃ (c r : ℚ), 0 < c ∧ F64.sqrt x = r * c ∧ 2 ^ 52 ≤ r ∧
    (r - 1 / 2) ^ 2 ≤ x / c ^ 2 ∧ x / c ^ 2 ≤ (r + 1 / 2) ^ 2 := by
  set k := Int.log 2 x with hk
  set e := k / 2 - 52 with he
  set y := x / 4 ^ e with hy
  set m := Nat.sqrt ⌊y⌋₊ with hm
  have h4 : (0 : ℚ) < 4 ^ e := zpow_pos (by norm_num) _
  have hy0 : 0 < y := div_pos hx h4
  have hkx : (2 : ℚ) ^ k ≤ x := by
    have := Int.zpow_log_le_self (b := 2) (by norm_num) hx
    exact_mod_cast this
  have h42 : (4 : ℚ) ^ e = 2 ^ (2 * e) := by rw [zpow_mul]; norm_num
  have hy1 : (2 : ℚ) ^ 104 ≤ y := by
    rw [hy, le_div_iff₀ h4, h42]
    calc (2 : ℚ) ^ 104 * 2 ^ (2 * e) = 2 ^ (104 + 2 * e) := by
          rw [zpow_add₀ (by norm_num)]; norm_num
      _ ≤ 2 ^ k := by
          apply zpow_le_zpow_right₀ (by norm_num)
          rw [he]; omega
      _ ≤ x := hkx
  have hf1 : (⌊y⌋₊ : ℚ) ≤ y := Nat.floor_le hy0.le
  have hf2 : y < ⌊y⌋₊ + 1 := Nat.lt_floor_add_one y
  have hfl : 2 ^ 104 ≤ ⌊y⌋₊ := Nat.le_floor (by exact_mod_cast hy1)
  have hm1 : m ^ 2 ≤ ⌊y⌋₊ := Nat.sqrt_le' _
  have hm2 : ⌊y⌋₊ < (m + 1) ^ 2 := Nat.lt_succ_sqrt' _
  have hm3 : 2 ^ 52 ≤ m := by
    rw [hm, Nat.le_sqrt']; calc (2 ^ 52) ^ 2 = 2 ^ 104 := by norm_num
      _ ≤ _ := hfl
  have hm1' : (m : ℚ) ^ 2 ≤ y := (by exact_mod_cast hm1 : (m : ℚ) ^ 2 ≤ ⌊y⌋₊).trans hf1
  have hm2' : y ≤ ((m : ℚ) + 1) ^ 2 := by
    have : (⌊y⌋₊ : ℚ) + 1 ≤ (m + 1) ^ 2 := by exact_mod_cast hm2
    linarith
  have hm3' : (2 : ℚ) ^ 52 ≤ m := by exact_mod_cast hm3
  have hc2 : ((2 : ℚ) ^ e) ^ 2 = 4 ^ e := by
    rw [← zpow_natCast, ← zpow_mul, h42]; congr 1; push_cast; ring
  have hm0 : (0 : ℚ) ≤ m := by positivity
  have hdef : F64.sqrt x = (if y < (m + 1 / 2) ^ 2 then (m : ℚ) else if (m + 1 / 2) ^ 2 < y then (m : ℚ) + 1
      else if m % 2 = 0 then (m : ℚ) else (m : ℚ) + 1) * 2 ^ e := by
    unfold F64.sqrt
    rw [if_neg (not_le.2 hx)]
    simp only [← hk, ← he, ← hy, ← hm]
    congr 1
    split_ifs <;> push_cast <;> rfl
  have hdn : ∀ z : ℚ, z = (m : ℚ) → y ≤ (m + 1 / 2) ^ 2 →
      2 ^ 52 ≤ z ∧ (z - 1 / 2) ^ 2 ≤ x / (2 ^ e) ^ 2 ∧ x / (2 ^ e) ^ 2 ≤ (z + 1 / 2) ^ 2 := by
    rintro z rfl h
    rw [hc2, ← hy]
    exact ⟨hm3', by nlinarith, h⟩
  have hup : ∀ z : ℚ, z = (m : ℚ) + 1 → (m + 1 / 2) ^ 2 ≤ y →
      2 ^ 52 ≤ z ∧ (z - 1 / 2) ^ 2 ≤ x / (2 ^ e) ^ 2 ∧ x / (2 ^ e) ^ 2 ≤ (z + 1 / 2) ^ 2 := by
    rintro z rfl h
    rw [hc2, ← hy]
    exact ⟨by linarith, by nlinarith, by nlinarith⟩
  refine ⟨2 ^ e, _, zpow_pos (by norm_num) _, hdef, ?_⟩
  split_ifs with h1 h2 h3
  · exact hdn _ rfl h1.le
  · exact hup _ rfl h2.le
  · exact hdn _ rfl (not_lt.1 h2)
  · exact hup _ rfl (not_lt.1 h1)

theorem sqrt_ge {x a : ℚ} (ha : 0 ≤ a) (h : a ^ 2 ≤ x) : a * (1 - 1 / 2 ^ 53) ≤ F64.sqrt x := by
  rcases ha.eq_or_lt with rfl | ha
  · rcases (show 0 ≤ x by simpa using h).eq_or_lt with rfl | hx
    · simp [F64.sqrt]
    · obtain ⟨c, r, hc, hr, h1, -⟩ := sqrt_spec hx
      rw [hr, zero_mul]; positivity
  have hx : 0 < x := lt_of_lt_of_le (by positivity) h
  obtain ⟨c, r, hc, hr, h1, -, h3⟩ := sqrt_spec hx
  have hb : (a / c) ^ 2 ≤ (r + 1 / 2) ^ 2 := by
    refine le_trans ?_ h3
    rw [div_pow]; exact div_le_div_of_nonneg_right h (by positivity)
  have hb' : a / c ≤ r + 1 / 2 := by
    refine abs_le_of_sq_le_sq' hb (by linarith) |>.2
  rw [hr]
  have : a / c * (1 - 1 / 2 ^ 53) ≤ r := by
    rcases le_or_gt (a / c) (2 ^ 52) with hle | hgt
    · have : 0 ≤ a / c := by positivity
      nlinarith
    · norm_num at *; nlinarith
  calc a * (1 - 1 / 2 ^ 53) = a / c * (1 - 1 / 2 ^ 53) * c := by field_simp
    _ ≤ r * c := mul_le_mul_of_nonneg_right this hc.le

theorem sqrt_le {x b : ℚ} (hb0 : 0 ≤ b) (h : x ≤ b ^ 2) : F64.sqrt x ≤ b * (1 + 1 / 2 ^ 52) := by
  rcases le_or_gt x 0 with hx | hx
  · rw [F64.sqrt, if_pos hx]; positivity
  obtain ⟨c, r, hc, hr, h1, h2, -⟩ := sqrt_spec hx
  have hb : (r - 1 / 2) ^ 2 ≤ (b / c) ^ 2 := by
    refine h2.trans ?_
    rw [div_pow]; exact div_le_div_of_nonneg_right h (by positivity)
  have hbc : 0 ≤ b / c := by positivity
  have hb' : r - 1 / 2 ≤ b / c := abs_le_of_sq_le_sq' hb hbc |>.2
  rw [hr]
  have : r ≤ b / c * (1 + 1 / 2 ^ 52) := by norm_num at *; linarith
  calc r * c ≤ b / c * (1 + 1 / 2 ^ 52) * c := mul_le_mul_of_nonneg_right this hc.le
    _ = b * (1 + 1 / 2 ^ 52) := by field_simp

theorem norm_pair (x y : ℚ) : F64.norm ⟨[x, y]⟩ = F64.sqrt (fl (fl (0 + fl (x * x)) + fl (y * y))) := rfl

/-- lower bound of a norm -/
theorem norm_ge {x y a : ℚ} (ha : 0 ≤ a) (h : a ≤ |x| ∨ a ≤ |y|) : a * (99 / 100) ≤ F64.norm ⟨[x, y]⟩ := by
  have key : ∀ z : ℚ, a ≤ |z| → a ^ 2 * (1 - 1 / 2 ^ 53) ≤ fl (z * z) := by
    intro z hz
    apply fl_ge (by positivity)
    rw [← abs_mul_abs_self z]; nlinarith
  have hx0 : 0 ≤ fl (0 + fl (x * x)) := fl_nonneg (by rw [zero_add]; exact fl_nonneg (mul_self_nonneg x))
  have hy0 : 0 ≤ fl (y * y) := fl_nonneg (mul_self_nonneg y)
  have hs : a ^ 2 * (1 - 1 / 2 ^ 53) * (1 - 1 / 2 ^ 53) ≤ fl (0 + fl (x * x)) + fl (y * y) := by
    rcases h with h | h
    · have h1 := key x h
      have h2 : a ^ 2 * (1 - 1 / 2 ^ 53) * (1 - 1 / 2 ^ 53) ≤ fl (0 + fl (x * x)) :=
        fl_ge (mul_nonneg (by positivity) (by norm_num)) (by rw [zero_add]; exact h1)
      linarith
    · have h1 := key y h
      have : 0 ≤ a ^ 2 := by positivity
      norm_num at *; linarith
  have hs2 := fl_ge (mul_nonneg (mul_nonneg (by positivity : (0 : ℚ) ≤ a ^ 2) (by norm_num)) (by norm_num)) hs
  rw [norm_pair]
  have h3 : (a * (999 / 1000)) ^ 2 ≤ fl (fl (0 + fl (x * x)) + fl (y * y)) := by
    have : 0 ≤ a ^ 2 := by positivity
    norm_num at *; nlinarith
  have := sqrt_ge (by positivity) h3
  norm_num at *; linarith

/-- upper bound of a norm -/
theorem norm_le {x y b : ℚ} (hx : |x| ≤ b) (hy : |y| ≤ b) : F64.norm ⟨[x, y]⟩ ≤ b * (1416 / 1000) := by
  have hb : 0 ≤ b := (abs_nonneg x).trans hx
  have key : ∀ z : ℚ, |z| ≤ b → fl (z * z) ≤ b ^ 2 * (1 + 1 / 2 ^ 53) := by
    intro z hz
    apply fl_le (mul_self_nonneg z)
    rw [← abs_mul_abs_self z]
    have := abs_nonneg z
    nlinarith
  have hx0 : 0 ≤ fl (x * x) := fl_nonneg (mul_self_nonneg x)
  have hy0 : 0 ≤ fl (y * y) := fl_nonneg (mul_self_nonneg y)
  have h1 : fl (0 + fl (x * x)) ≤ b ^ 2 * (1 + 1 / 2 ^ 53) * (1 + 1 / 2 ^ 53) :=
    fl_le (by rw [zero_add]; exact hx0) (by rw [zero_add]; exact key x hx)
  have h10 : 0 ≤ fl (0 + fl (x * x)) := fl_nonneg (by rw [zero_add]; exact hx0)
  have h2 := key y hy
  have h3 := fl_le (add_nonneg h10 hy0) (add_le_add h1 h2)
  rw [norm_pair]
  have h4 : fl (fl (0 + fl (x * x)) + fl (y * y)) ≤ (b * (1415 / 1000)) ^ 2 := by
    have : 0 ≤ b ^ 2 := by positivity
    norm_num at *; nlinarith
  have := sqrt_le (by positivity) h4
  norm_num at *; linarith

/-! ### points near lattice points -/

/-- the point with index `a` of the lattice with mesh size `h`, up to `e` in each coordinate -/
def NearPt (e h : ℚ) (a : LP) (p : Vec ℚ) : Prop := ∃ x y, p = ⟨[x, y]⟩ ∧ |x - a.1 * h| ≤ e ∧ |y - a.2 * h| ≤ e

/-- distance of two points in floating point arithmetic -/
theorem vsub_near {e h : ℚ} {a b : LP} {p q : Vec ℚ} (hp : NearPt e h a p) (hq : NearPt e h b q) :
    ∃ x y, vsub p q = .ok ⟨[fl x, fl y]⟩ ∧ |x - ((a.1 : ℚ) - b.1) * h| ≤ 2 * e ∧ |y - ((a.2 : ℚ) - b.2) * h| ≤ 2 * e := by
  obtain ⟨x, y, rfl, hx, hy⟩ := hp
  obtain ⟨x', y', rfl, hx', hy'⟩ := hq
  refine ⟨x - x', y - y', by simp [vsub, Vec.size], ?_, ?_⟩
  · rw [show x - x' - ((a.1 : ℚ) - b.1) * h = (x - a.1 * h) - (x' - b.1 * h) by ring]
    exact (abs_sub _ _).trans (by linarith)
  · rw [show y - y' - ((a.2 : ℚ) - b.2) * h = (y - a.2 * h) - (y' - b.2 * h) by ring]
    exact (abs_sub _ _).trans (by linarith)

private theorem int_gap {m k : ℕ} (h : m ≠ k) : (1 : ℚ) ≤ |(m : ℚ) - k| := by
  have : (1 : ℤ) ≤ |(m : ℤ) - k| := Int.one_le_abs (by omega)
  have : ((1 : ℤ) : ℚ) ≤ ((|(m : ℤ) - k| : ℤ) : ℚ) := by exact_mod_cast this
  push_cast at this; exact this

theorem dist_same {e h : ℚ} (he : e ≤ h * (2 / 10 ^ 9)) {a : LP} {p q : Vec ℚ} (hp : NearPt e h a p)
    (hq : NearPt e h a q) : ∃ d, vsub p q = .ok d ∧ F64.norm d ≤ h / 10 ^ 8 := by
  obtain ⟨x, y, e1, hx, hy⟩ := vsub_near hp hq
  rw [sub_self, zero_mul, sub_zero] at hx hy
  refine ⟨_, e1, (norm_le (fl_abs_le hx) (fl_abs_le hy)).trans ?_⟩
  have : 0 ≤ 2 * e := (abs_nonneg _).trans hx
  norm_num at *; linarith

theorem dist_ne {e h : ℚ} (hh : 0 < h) (he : e ≤ h * (2 / 10 ^ 9)) {a b : LP} (hab : a ≠ b) {p q : Vec ℚ}
    (hp : NearPt e h a p) (hq : NearPt e h b q) : ∃ d, vsub p q = .ok d ∧ h * (98 / 100) ≤ F64.norm d := by
  obtain ⟨x, y, e1, hx, hy⟩ := vsub_near hp hq
  refine ⟨_, e1, ?_⟩
  have key : ∀ (m k : ℕ) (z : ℚ), m ≠ k → |z - ((m : ℚ) - k) * h| ≤ 2 * e → h * (999 / 1000) ≤ |fl z| := by
    intro m k z hmk hz
    have h1 := int_gap hmk
    have h2 : h ≤ |((m : ℚ) - k) * h| := by rw [abs_mul, abs_of_pos hh]; nlinarith
    have h3 : |((m : ℚ) - k) * h| ≤ |z| + |z - ((m : ℚ) - k) * h| := by
      have := abs_sub z (z - ((m : ℚ) - k) * h)
      rwa [sub_sub_cancel] at this
    have h4 : h * (9999 / 10000) ≤ |z| := by norm_num at *; linarith
    have := fl_abs_ge h4
    norm_num at *; linarith
  have : h * (999 / 1000) ≤ |fl x| ∨ h * (999 / 1000) ≤ |fl y| := by
    by_cases h1 : a.1 = b.1
    · right; exact key _ _ _ (fun h2 => hab (Prod.ext h1 h2)) hy
    · left; exact key _ _ _ h1 hx
  have := norm_ge (by positivity) this
  linarith

/-- different lattice points whose coordinates differ by at most one -/
def Adjacent (a b : LP) : Prop := a ≠ b ∧ |(a.1 : ℚ) - b.1| ≤ 1 ∧ |(a.2 : ℚ) - b.2| ≤ 1

theorem dist_adjacent {e h : ℚ} (hh : 0 < h) (he : e ≤ h * (2 / 10 ^ 9)) {a b : LP} (hab : Adjacent a b) {p q : Vec ℚ}
    (hp : NearPt e h a p) (hq : NearPt e h b q) :
    ∃ d, vsub p q = .ok d ∧ h * (98 / 100) ≤ F64.norm d ∧ F64.norm d ≤ h * (142 / 100) := by
  obtain ⟨d, e1, h1⟩ := dist_ne hh he hab.1 hp hq
  obtain ⟨x, y, e2, hx, hy⟩ := vsub_near hp hq
  obtain rfl : d = ⟨[fl x, fl y]⟩ := by rw [e1] at e2; exact Except.ok.inj e2
  refine ⟨_, e1, h1, ?_⟩
  have key : ∀ (m k : ℕ) (z : ℚ), |(m : ℚ) - k| ≤ 1 → |z - ((m : ℚ) - k) * h| ≤ 2 * e → |fl z| ≤ h * (1002 / 1000) := by
    intro m k z hmk hz
    have h2 : |((m : ℚ) - k) * h| ≤ h := by rw [abs_mul, abs_of_pos hh]; nlinarith
    have h3 : |z| ≤ |z - ((m : ℚ) - k) * h| + |((m : ℚ) - k) * h| := by
      have := abs_add_le (z - ((m : ℚ) - k) * h) (((m : ℚ) - k) * h)
      rwa [sub_add_cancel] at this
    have h4 : |z| ≤ h * (1001 / 1000) := by norm_num at *; linarith
    have := fl_abs_le h4
    norm_num at *; linarith
  have := norm_le (key _ _ _ hab.2.1 hx) (key _ _ _ hab.2.2 hy)
  linarith

end Tve
