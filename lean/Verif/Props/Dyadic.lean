import Verif.Model.FloatRefine
import Verif.Props.Rounding

/-!
# C79: which grids and refinements are free of rounding errors
-/

namespace Tve
open F64

/-- integers below `2 ^ 53` times a power of two are not rounded -/
private theorem fl_dyadic (z : ℤ) (e : ℤ) (h : |z| < 2 ^ 53) : fl (z * 2 ^ e) = z * 2 ^ e := fl_double ⟨z, e, h, rfl⟩

private theorem fl_nat (n : ℕ) (e : ℤ) (h : n < 2 ^ 53) : fl (n * 2 ^ e) = n * 2 ^ e := by
  have := fl_dyadic n e (by rw [abs_of_nonneg (by positivity)]; exact_mod_cast h)
  exact_mod_cast this

/-- **C79.** If width and height are multiples of a mesh size `m * 2 ^ e`, all coordinates being doubles, the grid is free of
rounding errors: it has the exact numbers of cells, and its points are exactly the multiples of the mesh size. -/
theorem C79_dyadic_grid {m a b : ℕ} {e : ℤ} (hm : 1 ≤ m) (ha : a * m < 2 ^ 53) (hb : b * m < 2 ^ 53) :
    numCells (a * (m * 2 ^ e)) (m * 2 ^ e) = a ∧ numCells (b * (m * 2 ^ e)) (m * 2 ^ e) = b ∧
    gridVecs (a + 1) (b + 1) (m * 2 ^ e) =
      (RectGrid.vertices (a + 1) (b + 1)).map fun v => ⟨[(v % (a + 1) : ℕ) * (m * 2 ^ e), (v / (a + 1) : ℕ) * (m * 2 ^ e)]⟩ := by
  have cells : ∀ n : ℕ, n * m < 2 ^ 53 → numCells (n * (m * 2 ^ e)) (m * 2 ^ e) = n := by
    intro n hn
    have hs : (m * 2 ^ e : ℚ) ≠ 0 := by
      have : (0 : ℚ) < m := by exact_mod_cast hm
      positivity
    have hn' : n < 2 ^ 53 := lt_of_le_of_lt (Nat.le_mul_of_pos_right n hm) hn
    rw [numCells, mul_div_cancel_right₀ _ hs]
    have := fl_nat n 0 hn'
    rw [zpow_zero, mul_one] at this
    rw [this]
    simp
  have mul : ∀ n : ℕ, n * m < 2 ^ 53 → fl (n * (m * 2 ^ e)) = n * (m * 2 ^ e) := by
    intro n hn
    have := fl_nat (n * m) e hn
    push_cast at this
    rw [← mul_assoc, this]
  refine ⟨cells a ha, cells b hb, List.map_congr_left fun v hv => ?_⟩
  have hv' : v < (a + 1) * (b + 1) := by simpa [RectGrid.vertices] using hv
  have h1 : v % (a + 1) ≤ a := Nat.lt_succ_iff.1 (Nat.mod_lt _ (Nat.succ_pos a))
  have h2 : v / (a + 1) ≤ b := Nat.lt_succ_iff.1 ((Nat.div_lt_iff_lt_mul (Nat.succ_pos a)).2 (by rw [Nat.mul_comm]; exact hv'))
  rw [mul _ (lt_of_le_of_lt (Nat.mul_le_mul_right m h1) ha), mul _ (lt_of_le_of_lt (Nat.mul_le_mul_right m h2) hb)]

/-- **C79.** Refining such a grid by a power of two is free of rounding errors, as long as the new coordinates are doubles: the
weights are exactly `1 - k / n - l / n`, `k / n`, `l / n`, and the new points are exactly the weighted means of the corners. -/
theorem C79_dyadic_refine {r k l m A B C M : ℕ} {e : ℤ} (hkl : k + l ≤ 2 ^ r) (hm : 1 ≤ m) (hM : 1 ≤ M) (hA : A ≤ M) (hB : B ≤ M)
    (hC : C ≤ M) (h : 2 ^ r * (M * m) < 2 ^ 53) :
    fineCoords (2 ^ r) k l = ((1 : ℚ) - k / 2 ^ r - l / 2 ^ r, (k : ℚ) / 2 ^ r, (l : ℚ) / 2 ^ r) ∧
    finePoint (2 ^ r) k l (A * (m * 2 ^ e)) (B * (m * 2 ^ e)) (C * (m * 2 ^ e)) =
      (1 - k / 2 ^ r - l / 2 ^ r) * (A * (m * 2 ^ e)) + k / 2 ^ r * (B * (m * 2 ^ e)) + l / 2 ^ r * (C * (m * 2 ^ e)) := by
  have hMm : 1 ≤ M * m := Nat.mul_pos hM hm
  have hr : 2 ^ r < 2 ^ 53 := lt_of_le_of_lt (Nat.le_mul_of_pos_right _ hMm) h
  obtain ⟨i, hi⟩ := Nat.exists_eq_add_of_le hkl
  have hiQ : (2 : ℚ) ^ r = k + l + i := by exact_mod_cast hi
  have p0 : (2 : ℚ) ^ r ≠ 0 := by positivity
  have dv : ∀ x : ℕ, x ≤ 2 ^ r → fl ((x : ℚ) / 2 ^ r) = x / 2 ^ r := by
    intro x hx
    have := fl_nat x (-r) (lt_of_le_of_lt hx hr)
    rwa [zpow_neg, zpow_natCast, ← div_eq_mul_inv] at this
  have e1 : (1 : ℚ) - k / 2 ^ r = ((l + i : ℕ) : ℚ) / 2 ^ r := by
    field_simp; push_cast; linarith
  have e2 : ((l + i : ℕ) : ℚ) / 2 ^ r - l / 2 ^ r = (i : ℚ) / 2 ^ r := by
    field_simp; push_cast; ring
  have e3 : (1 : ℚ) - i / 2 ^ r = ((k + l : ℕ) : ℚ) / 2 ^ r := by
    field_simp; push_cast; linarith
  have e4 : ((k + l : ℕ) : ℚ) / 2 ^ r - k / 2 ^ r = (l : ℚ) / 2 ^ r := by
    field_simp; push_cast; ring
  have cl : ∀ x : ℕ, x ≤ 2 ^ r → (if (x : ℚ) / 2 ^ r < 0 then 0 else if (x : ℚ) / 2 ^ r > 1 then 1 else (x : ℚ) / 2 ^ r) = x / 2 ^ r := by
    intro x hx
    have h0 : ¬ (x : ℚ) / 2 ^ r < 0 := not_lt.2 (by positivity)
    have h1 : ¬ (x : ℚ) / 2 ^ r > 1 := by
      rw [gt_iff_lt, not_lt, div_le_one (by positivity)]
      exact_mod_cast hx
    rw [if_neg h0, if_neg h1]
  have w : fineCoords (2 ^ r) k l = ((i : ℚ) / 2 ^ r, (k : ℚ) / 2 ^ r, (l : ℚ) / 2 ^ r) := by
    unfold fineCoords
    push_cast
    rw [dv k (by omega), dv l (by omega), e1, dv (l + i) (by omega), e2, dv i (by omega), e3, dv (k + l) (by omega), e4,
      dv l (by omega)]
    simp only [cl i (by omega), cl k (by omega), cl l (by omega)]
  have w1 : (1 : ℚ) - k / 2 ^ r - l / 2 ^ r = i / 2 ^ r := by rw [e1, e2]
  have pr : ∀ x : ℕ, x * m ≤ 2 ^ r * (M * m) → fl ((x : ℚ) / 2 ^ r * (m * 2 ^ e)) = x / 2 ^ r * (m * 2 ^ e) := by
    intro x hx
    have := fl_nat (x * m) (e - r) (lt_of_le_of_lt hx h)
    have z : ((x * m : ℕ) : ℚ) * 2 ^ (e - r) = x / 2 ^ r * (m * 2 ^ e) := by
      rw [zpow_sub₀ (by norm_num), zpow_natCast]; push_cast; ring
    rwa [z] at this
  have bd : ∀ x y : ℕ, x ≤ 2 ^ r → y ≤ M → x * y * m ≤ 2 ^ r * (M * m) := by
    intro x y hx hy
    rw [← Nat.mul_assoc]
    exact Nat.mul_le_mul_right m (Nat.mul_le_mul hx hy)
  have q : ∀ x y : ℕ, (x : ℚ) / 2 ^ r * (y * (m * 2 ^ e)) = ((x * y : ℕ) : ℚ) / 2 ^ r * (m * 2 ^ e) := by
    intro x y; push_cast; ring
  refine ⟨by rw [w, w1], ?_⟩
  unfold finePoint
  rw [w, w1]
  simp only [q]
  have s1 : ((i * A : ℕ) : ℚ) / 2 ^ r * (m * 2 ^ e) + ((k * B : ℕ) : ℚ) / 2 ^ r * (m * 2 ^ e) =
      ((i * A + k * B : ℕ) : ℚ) / 2 ^ r * (m * 2 ^ e) := by push_cast; ring
  have s2 : ((i * A + k * B : ℕ) : ℚ) / 2 ^ r * (m * 2 ^ e) + ((l * C : ℕ) : ℚ) / 2 ^ r * (m * 2 ^ e) =
      ((i * A + k * B + l * C : ℕ) : ℚ) / 2 ^ r * (m * 2 ^ e) := by push_cast; ring
  have tot : (i * A + k * B + l * C) * m ≤ 2 ^ r * (M * m) := by
    rw [← Nat.mul_assoc]
    refine Nat.mul_le_mul_right m ?_
    calc i * A + k * B + l * C ≤ i * M + k * M + l * M := by gcongr
      _ = 2 ^ r * M := by rw [hi]; ring
  rw [pr _ (bd i A (by omega) hA), pr _ (bd k B (by omega) hB), pr _ (bd l C (by omega) hC), s1,
    pr _ (le_trans (Nat.mul_le_mul_right m (Nat.le_add_right _ _)) tot), s2, pr _ tot]

/-- The hypotheses are met: the square of the README, `width = height = 1` with mesh size `0.25`, refined by 4. -/
example : numCells 1 (1 / 4) = 4 ∧ finePoint 4 1 2 (1 / 4) (1 / 2) (1 / 2) = 7 / 16 := by
  have h1 := (C79_dyadic_grid (m := 1) (a := 4) (b := 4) (e := -2) le_rfl (by norm_num) (by norm_num)).1
  have h2 := (C79_dyadic_refine (r := 2) (k := 1) (l := 2) (m := 1) (A := 1) (B := 2) (C := 2) (M := 2) (e := -2) (by norm_num) le_rfl
    (by norm_num) (by norm_num) le_rfl le_rfl (by norm_num)).2
  norm_num at h1 h2
  exact ⟨h1, h2⟩

end Tve
