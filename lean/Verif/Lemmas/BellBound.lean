import Verif.Lemmas.BellStable

/-! The Bell interpolation on a right isosceles triangle depends stably on the nodal data. -/

set_option linter.unusedSimpArgs false

namespace Tve
namespace Bell

/-- the bounds of the six shape functions of a vertex -/
noncomputable def shapeBound (s : ℝ) : Fin 6 → ℝ := ![1, 3 / 5 * s, 3 / 5 * s, 7 / 60 * s ^ 2, 7 / 30 * s ^ 2, 7 / 60 * s ^ 2]

theorem coef_le {b c : Fin 3 → ℝ} {s : ℝ} (hb : ∀ i, |b i| ≤ s) (hc : ∀ i, |c i| ≤ s) (h21 : |R21 b c| ≤ 1)
    (h31 : |R31 b c| ≤ 1) (k : Fin 6) (i : Fin 8) : |coef b c k i| ≤ shapeBound s k * mult i := by
  have hs : 0 ≤ s := (abs_nonneg _).trans (hb 0)
  have two : ∀ {x y : ℝ}, |x| ≤ s → |y| ≤ s → |x * y| ≤ s ^ 2 := fun h1 h2 => by
    rw [abs_mul, sq]; exact mul_le_mul h1 h2 (abs_nonneg _) hs
  have rs : ∀ {r x : ℝ}, |r| ≤ 1 → |x| ≤ s → |r * x| ≤ s := fun h1 h2 => by
    rw [abs_mul]
    calc _ ≤ 1 * s := mul_le_mul h1 h2 (abs_nonneg _) (by norm_num)
      _ = s := one_mul _
  have rss : ∀ {r x y : ℝ}, |r| ≤ 1 → |x| ≤ s → |y| ≤ s → |r * (x * y)| ≤ s ^ 2 := fun h1 h2 h3 => by
    rw [abs_mul]
    calc _ ≤ 1 * s ^ 2 := mul_le_mul h1 (two h2 h3) (abs_nonneg _) (by norm_num)
      _ = s ^ 2 := one_mul _
  have b0 := abs_le.1 (hb 0)
  have b1 := abs_le.1 (hb 1)
  have b2 := abs_le.1 (hb 2)
  have c0 := abs_le.1 (hc 0)
  have c1 := abs_le.1 (hc 1)
  have c2 := abs_le.1 (hc 2)
  have r1 := abs_le.1 h21
  have r2 := abs_le.1 h31
  have rb1 := abs_le.1 (rs h21 (hb 1))
  have rb2 := abs_le.1 (rs h31 (hb 2))
  have rc1 := abs_le.1 (rs h21 (hc 1))
  have rc2 := abs_le.1 (rs h31 (hc 2))
  have q1 := abs_le.1 (two (hc 2) (hc 2))
  have q2 := abs_le.1 (two (hc 1) (hc 1))
  have q3 := abs_le.1 (two (hc 1) (hc 2))
  have q4 := abs_le.1 (two (hc 0) (hc 1))
  have q5 := abs_le.1 (two (hc 0) (hc 2))
  have q6 := abs_le.1 (two (hb 2) (hb 2))
  have q7 := abs_le.1 (two (hb 1) (hb 1))
  have q8 := abs_le.1 (two (hb 1) (hb 2))
  have q9 := abs_le.1 (two (hb 0) (hb 1))
  have q10 := abs_le.1 (two (hb 0) (hb 2))
  have q11 := abs_le.1 (two (hb 1) (hc 1))
  have q12 := abs_le.1 (two (hb 2) (hc 2))
  have q13 := abs_le.1 (two (hb 1) (hc 2))
  have q14 := abs_le.1 (two (hb 2) (hc 1))
  have q15 := abs_le.1 (two (hb 0) (hc 1))
  have q16 := abs_le.1 (two (hb 1) (hc 0))
  have q17 := abs_le.1 (two (hb 0) (hc 2))
  have q18 := abs_le.1 (two (hb 2) (hc 0))
  have s1 := abs_le.1 (rss h21 (hc 1) (hc 1))
  have s2 := abs_le.1 (rss h31 (hc 2) (hc 2))
  have s3 := abs_le.1 (rss h21 (hb 1) (hb 1))
  have s4 := abs_le.1 (rss h31 (hb 2) (hb 2))
  have s5 := abs_le.1 (rss h21 (hb 1) (hc 1))
  have s6 := abs_le.1 (rss h31 (hb 2) (hc 2))
  have hs2 : 0 ≤ s ^ 2 := sq_nonneg s
  generalize hR1 : R21 b c = r at *
  generalize hR2 : R31 b c = r' at *
  rw [abs_le]
  constructor <;> fin_cases k <;> fin_cases i <;> simp [coef, shapeBound, mult, hR1, hR2] <;> linarith

end Bell
end Tve
