import Verif.Props.ApproxC1
import Verif.Lemmas.Consistency
import Verif.Props.InterpEval

/-!
# Quadratures over refined grids of functions of Bell interpolated fields
-/

namespace Tve

open MeasureTheory Helpers

theorem weights_abs {r : TriRule ℝ} (h : r.Good) : (r.weights.map abs).sum = r.weights.sum := by
  congr 1
  conv_rhs => rw [← List.map_id r.weights]
  exact List.map_congr_left fun w hw => abs_of_pos (h.pos w hw)

theorem dunavant5_sum : ∃ r, dunavant5 ℝ = .ok r ∧ r.Good ∧ r.weights.sum ≤ 1 ∧ 1 - 1 / 10 ^ 14 ≤ r.weights.sum := by
  obtain ⟨r, h1, h2, h3, -⟩ := rule_good (weights := [(225 / 1000 : ℝ),
     132394152788506 / 10 ^ 15, 132394152788506 / 10 ^ 15, 132394152788506 / 10 ^ 15,
     125939180544827 / 10 ^ 15, 125939180544827 / 10 ^ 15, 125939180544827 / 10 ^ 15])
    (points := [(1 / 3, 1 / 3),
     (59715871789770 / 10 ^ 15, 470142064105115 / 10 ^ 15),
     (470142064105115 / 10 ^ 15, 59715871789770 / 10 ^ 15),
     (470142064105115 / 10 ^ 15, 470142064105115 / 10 ^ 15),
     (797426985353087 / 10 ^ 15, 101286507323456 / 10 ^ 15),
     (101286507323456 / 10 ^ 15, 797426985353087 / 10 ^ 15),
     (101286507323456 / 10 ^ 15, 101286507323456 / 10 ^ 15)])
    (by intro p hp; simp only [List.mem_cons, List.not_mem_nil, or_false] at hp
        rcases hp with rfl | rfl | rfl | rfl | rfl | rfl | rfl <;> norm_num) (by norm_num [abs_le]) rfl
    (by intro w hw; simp only [List.mem_cons, List.not_mem_nil, or_false] at hw
        rcases hw with rfl | rfl | rfl | rfl | rfl | rfl | rfl <;> norm_num) (by simp)
  exact ⟨r, h1, h2, by rw [h3]; norm_num, by rw [h3]; norm_num⟩

/-- quadrature over a grid of a function close to a continuous function of the point -/
theorem close_error {g : Grid ℝ} {nx ny : ℕ} {s : ℝ} (G : LibraryGrid g nx ny s) {r : TriRule ℝ} (hg : r.Good)
    (h1 : r.weights.sum ≤ 1) (h2 : 1 - 1 / 10 ^ 14 ≤ r.weights.sum) {f : ℝ × ℝ → ℝ} {ω M κ : ℝ}
    (hf : ContinuousOn f (gridRect nx ny s))
    (hω : ∀ z ∈ gridRect nx ny s, ∀ z' ∈ gridRect nx ny s, |z.1 - z'.1| ≤ s → |z.2 - z'.2| ≤ s → |f z - f z'| ≤ ω)
    (hM : ∀ z ∈ gridRect nx ny s, |f z| ≤ M) {A : Tri → Bary ℝ → ℝ}
    (hA : ∀ t ∈ g.triangles, ∀ b ∈ r.points, |A t b - f (g.pointAt t b)| ≤ κ) (hκ : 0 ≤ κ) :
    |g.quad r A - ∫ z in gridRect nx ny s, f z| ≤ (nx * s) * (ny * s) * (κ + ω + M / 10 ^ 14) := by
  have hs := (C22_structure G).1
  have q1 := quad_close hg.len hA
  have q2 := quad_error G hg.len hg.inside hf hω hM
  have h0 : ((0 : ℝ), (0 : ℝ)) ∈ gridRect nx ny s := ⟨le_rfl, by constructor <;> simp <;> positivity⟩
  have hω0 : 0 ≤ ω := (abs_nonneg _).trans (hω _ h0 _ h0 (by simpa using hs.le) (by simpa using hs.le))
  have hM0 : 0 ≤ M := (abs_nonneg _).trans (hM _ h0)
  rw [weights_abs hg] at q1 q2
  rw [Grid.area, library_total_area G] at q1
  have ha : 0 ≤ (nx * s) * (ny * s) := by positivity
  have hs1 : |r.weights.sum - 1| ≤ 1 / 10 ^ 14 := by rw [abs_le]; constructor <;> linarith
  have b1 : (nx * s) * (ny * s) * (κ * r.weights.sum) ≤ (nx * s) * (ny * s) * κ :=
    mul_le_mul_of_nonneg_left (by nlinarith) ha
  have b2 : (nx * s) * (ny * s) * (ω * r.weights.sum + |r.weights.sum - 1| * M) ≤ (nx * s) * (ny * s) * (ω + M / 10 ^ 14) := by
    refine mul_le_mul_of_nonneg_left (add_le_add (by nlinarith) ?_) ha
    have := mul_le_mul_of_nonneg_right hs1 hM0
    linarith
  have := abs_sub_le (g.quad r A) (g.quad r fun t b => f (g.pointAt t b)) (∫ z in gridRect nx ny s, f z)
  nlinarith

theorem refined_rect {nx ny n : ℕ} {s : ℝ} (hn : 1 ≤ n) : gridRect (n * nx) (n * ny) (s / n) = gridRect nx ny s := by
  have hn' : (n : ℝ) ≠ 0 := by exact_mod_cast (by omega : n ≠ 0)
  have ex : ((n * nx : ℕ) : ℝ) * (s / n) = nx * s := by push_cast; field_simp
  have ey : ((n * ny : ℕ) : ℝ) * (s / n) = ny * s := by push_cast; field_simp
  rw [gridRect, gridRect, ex, ey]

theorem reg_close {g : Grid ℝ} {nx ny : ℕ} {s : ℝ} (G : LibraryGrid g nx ny s) {R : Set (ℝ × ℝ)} {a b : ℝ} (hR : gridRect nx ny s = R)
    (ha : nx * s = a) (hb : ny * s = b) {r : TriRule ℝ} (hg : r.Good)
    (h1 : r.weights.sum ≤ 1) (h2 : 1 - 1 / 10 ^ 14 ≤ r.weights.sum) {f : ℝ × ℝ → ℝ} {ω M κ : ℝ} {P : Tri → Bary ℝ → ℝ → Prop}
    (hP : ∀ t ∈ g.triangles, ∀ b : Bary ℝ, b.Inside → ∃ v, P t b v ∧ |v - f (g.pointAt t b)| ≤ κ)
    (hf : ContinuousOn f R) (hω : Varies f R s ω) (hM : ∀ z ∈ R, |f z| ≤ M) (hκ : 0 ≤ κ) :
    ∃ A : Tri → Bary ℝ → ℝ, (∀ t ∈ g.triangles, ∀ b : Bary ℝ, b.Inside → P t b (A t b)) ∧
      |g.quad r A - ∫ z in R, f z| ≤ a * b * (κ + ω + M / 10 ^ 14) := by
  subst hR ha hb
  classical
  set A : Tri → Bary ℝ → ℝ := fun t b => if h : t ∈ g.triangles ∧ b.Inside then (hP t h.1 b h.2).choose else 0 with hA
  have hA' : ∀ t ∈ g.triangles, ∀ b : Bary ℝ, b.Inside → P t b (A t b) ∧ |A t b - f (g.pointAt t b)| ≤ κ := by
    intro t ht b hb
    simp only [hA, dif_pos (And.intro ht hb)]
    exact (hP t ht b hb).choose_spec
  exact ⟨A, fun t ht b hb => (hA' t ht b hb).1, close_error G hg h1 h2 hf hω hM
    (fun t ht b hb => (hA' t ht b (hg.inside b hb)).2) hκ⟩

theorem stack_hessians (a b c d a' b' c' d' : ℝ) : (matOf !![a, b; c, d]).stack (matOf !![a', b'; c', d']) =
    .ok (tenOf ![![![a, b], ![c, d]], ![![a', b'], ![c', d']]]) := by
  simp [Mat.stack, matOf, tenOf, Ten3.new, List.ofFn_succ, Mat.rows]

end Tve
