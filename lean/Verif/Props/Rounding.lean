import Verif.Model.Float64
import Verif.Props.Refine

/-!
# C79: rounding errors in gridding and refinement
-/

namespace Tve
open F64

/-- the doubles: integers of at most 53 binary digits times powers of two -/
def IsDouble (x : ℚ) : Prop := ∃ m e : ℤ, |m| < 2 ^ 53 ∧ x = m * 2 ^ e

theorem roundEven_error (y : ℚ) : |(roundEven y : ℚ) - y| ≤ 1 / 2 := by
  have h1 := Int.floor_le y
  have h2 := Int.lt_floor_add_one y
  unfold roundEven
  split_ifs <;> push_cast <;> rw [abs_le] <;> constructor <;> linarith

theorem roundEven_int (m : ℤ) : roundEven m = m := by
  unfold roundEven
  simp

/-- the relative error of rounding is at most `2⁻⁵³` -/
theorem fl_error (x : ℚ) : |fl x - x| ≤ |x| / 2 ^ 53 := by
  unfold fl
  split_ifs with h
  · simp [h]
  · have hx : 0 < |x| := abs_pos.2 h
    set c : ℚ := 2 ^ (Int.log 2 |x| - 52) with hc
    have hc0 : 0 < c := by positivity
    have h1 : (roundEven (x / c) : ℚ) * c - x = ((roundEven (x / c) : ℚ) - x / c) * c := by
      field_simp
    rw [h1, abs_mul, abs_of_pos hc0]
    have h2 : c * 2 ^ 52 ≤ |x| := by
      have := Int.zpow_log_le_self (b := 2) (r := |x|) (by norm_num) hx
      rw [hc, zpow_sub₀ (by norm_num)]
      push_cast at this
      calc (2 : ℚ) ^ Int.log 2 |x| / 2 ^ (52 : ℤ) * 2 ^ 52 = 2 ^ Int.log 2 |x| := by
            rw [show ((2 : ℚ) ^ (52 : ℤ)) = 2 ^ 52 from by norm_cast]; field_simp
        _ ≤ |x| := this
    have h3 := roundEven_error (x / c)
    calc |(roundEven (x / c) : ℚ) - x / c| * c ≤ 1 / 2 * c := by gcongr
      _ ≤ |x| / 2 ^ 53 := by
        rw [le_div_iff₀ (by positivity)]
        calc 1 / 2 * c * 2 ^ 53 = c * 2 ^ 52 := by ring
          _ ≤ |x| := h2

/-- doubles are not rounded -/
theorem fl_double {x : ℚ} (h : IsDouble x) : fl x = x := by
  obtain ⟨m, e, hm, rfl⟩ := h
  by_cases h : (m : ℚ) * 2 ^ e = 0
  · simp [fl, h]
  · rw [fl, if_neg h]
    set x : ℚ := m * 2 ^ e with hx
    set L := Int.log 2 |x| with hL
    have hxa : |x| = |(m : ℚ)| * 2 ^ e := by rw [hx, abs_mul, abs_of_pos (by positivity : (0 : ℚ) < 2 ^ e)]
    have h1 : (2 : ℚ) ^ L ≤ |x| := by
      have := Int.zpow_log_le_self (b := 2) (r := |x|) (by norm_num) (abs_pos.2 h)
      exact_mod_cast this
    have hm' : |(m : ℚ)| < 2 ^ (53 : ℤ) := by exact_mod_cast hm
    have he : L - 52 ≤ e := by
      by_contra hlt
      push Not at hlt
      have h2 : (2 : ℚ) ^ L < 2 ^ (53 + e) := by
        rw [zpow_add₀ (by norm_num)]
        calc (2 : ℚ) ^ L ≤ |(m : ℚ)| * 2 ^ e := by rw [← hxa]; exact h1
          _ < 2 ^ (53 : ℤ) * 2 ^ e := by gcongr
      have := (zpow_lt_zpow_iff_right₀ (by norm_num : (1 : ℚ) < 2)).1 h2
      omega
    obtain ⟨d, hd⟩ := Int.eq_ofNat_of_zero_le (sub_nonneg.2 he)
    have h3 : x / 2 ^ (L - 52) = ((m * 2 ^ d : ℤ) : ℚ) := by
      rw [div_eq_iff (by positivity), hx, show e = d + (L - 52) by omega, zpow_add₀ (by norm_num)]
      push_cast
      rw [zpow_natCast]
      ring
    rw [h3, roundEven_int, ← h3]
    field_simp

/-! ### the number of cells -/

/-- With rounding, the grid still covers the rectangle up to one cell, and exceeds it at most by the relative error `2⁻⁵³`. -/
theorem C79_cells_partial {w s : ℚ} (hw : 0 ≤ w) (hs : 0 < s) :
    0 ≤ numCells w s ∧ numCells w s * s ≤ w * (1 + 1 / 2 ^ 53) ∧ w * (1 - 1 / 2 ^ 53) < (numCells w s + 1) * s ∧
    ∀ k : ℕ, k < 2 ^ 53 → w = k * s → numCells w s = k := by
  have hq : 0 ≤ w / s := by positivity
  have h1 := fl_error (w / s)
  rw [abs_of_nonneg hq, abs_le] at h1
  have h2 := Int.floor_le (fl (w / s))
  have h3 := Int.lt_floor_add_one (fl (w / s))
  have hws : w = w / s * s := by field_simp
  refine ⟨?_, ?_, ?_, ?_⟩
  · refine Int.floor_nonneg.2 ?_
    have : w / s / 2 ^ 53 ≤ w / s := div_le_self hq (by norm_num)
    linarith
  · rw [numCells]
    calc (⌊fl (w / s)⌋ : ℚ) * s ≤ (w / s * (1 + 1 / 2 ^ 53)) * s := by
          gcongr
          linarith
      _ = w * (1 + 1 / 2 ^ 53) := by field_simp
  · rw [numCells]
    calc w * (1 - 1 / 2 ^ 53) = (w / s * (1 - 1 / 2 ^ 53)) * s := by field_simp
      _ < (⌊fl (w / s)⌋ + 1) * s := by
          gcongr
          linarith
  · rintro k hk rfl
    rw [numCells, mul_div_assoc, div_self hs.ne', mul_one, fl_double ⟨k, 0, by rw [abs_of_nonneg (by positivity)]; exact_mod_cast hk, by simp⟩]
    simp

/-- The width 0.3 and the scale 0.1, entered as decimals, give two cells instead of three: the right third of the rectangle
is not covered by the grid. -/
theorem C79_decimal_cells_false : numCells (fl (3 / 10)) (fl (1 / 10)) = 2 := by decide +kernel

/-! ### refining twice -/

private theorem pyFor_error {α σ : Type} {l : List α} {s : σ} {f : σ → α → PyM σ} {a : α} (ha : a ∈ l)
    (h : ∀ s, ∃ e, f s a = .error e) : ∃ e, pyFor l s f = .error e := by
  induction l generalizing s with
  | nil => simp at ha
  | cons b l ih =>
    rw [pyFor_cons]
    rcases List.mem_cons.1 ha with rfl | ha
    · obtain ⟨e, he⟩ := h s
      exact ⟨e, by rw [he]; rfl⟩
    · cases hb : f s b with
      | error e => exact ⟨e, rfl⟩
      | ok s' => exact ih ha

/-- `refine` raises for every grid in which the first edge of some triangle is horizontal only up to an error of `1e-15`
or more, whatever the size of the grid. -/
theorem C79_tolerance {g : Grid ℝ} {t : Tri} (ht : t ∈ g.triangles) {p q : ℝ × ℝ} (hp : g.At t.1 p) (hq : g.At t.2.1 q)
    (h : 1 / 10 ^ 15 ≤ |p.2 - q.2|) (d : RectDomain ℝ) (n : ℤ) : ∃ e, d.refine g n = .error e := by
  rw [RectDomain.refine]
  split_ifs with hn
  · exact ⟨_, rfl⟩
  · cases hg : Grid.new g.vertices [] [] ⟨g.boundary.vertices, []⟩ ⟨g.dirichlet.vertices, []⟩ ⟨g.neumann.vertices, []⟩
      g.points with
    | error e => exact ⟨e, rfl⟩
    | ok ig =>
      obtain ⟨e, he⟩ := pyFor_error (s := (⟨ig, PyDict.empty, PyDict.empty, PyDict.empty, PyDict.empty⟩ : RefState ℝ))
        (f := refineTriangle g n.toNat) ht (fun s => by
          cases hr : g.points[t.2.2]? with
          | none =>
            refine ⟨.indexError, ?_⟩
            have : g.triangleVertices t = .error .indexError := by
              rw [Grid.triangleVertices, if_neg (by simpa using ht), pyGet_eq_ok.2 hp, pyGet_eq_ok.2 hq, pyGet, hr]
              rfl
            rw [refineTriangle, this]; rfl
          | some r =>
            refine ⟨.assertion, ?_⟩
            have : ¬ |p.2 - q.2| < 1 / 10 ^ 15 := not_lt.2 h
            rw [refineTriangle, (C18_triangle_vertices g t).2 _ _ _ ht hp hq hr, bind_ok]
            have h1 : (vec2 p).getItem 1 = .ok p.2 := rfl
            have h2 : (vec2 q).getItem 1 = .ok q.2 := rfl
            simp only [h1, h2, bind_ok, tiny, this, decide_false, Bool.not_false, if_true])
      exact ⟨e, by rw [bind_ok, he]; rfl⟩

/-- In double arithmetic a refined grid need not be refinable. In the triangle with corners at the heights 4, 4, 5, refined by
5, two neighbouring vertices of the same row differ in height by more than `1e-15`. They lie in the interior of the
triangle, so `refine` takes them over as computed, and their edge is the first edge of a fine triangle; refining a grid
with such a triangle raises, for every factor. (A regularized simulation refines its refined grid for plotting,
simulation.py:157.) -/
theorem C79_second_refinement_false : ∃ n k l : ℕ, ∃ a c : ℚ, 1 ≤ k ∧ 1 ≤ l ∧ k + 1 + l < n ∧ IsDouble a ∧ IsDouble c ∧
    ∀ (g : Grid ℝ), ∀ t ∈ g.triangles, ∀ x x' : ℝ, g.At t.1 (x, (finePoint n k l a a c : ℚ)) →
      g.At t.2.1 (x', (finePoint n (k + 1) l a a c : ℚ)) → ∀ (d : RectDomain ℝ) (m : ℤ), ∃ e, d.refine g m = .error e := by
  refine ⟨5, 1, 1, 4, 5, le_rfl, le_rfl, by norm_num, ⟨4, 0, by norm_num, by norm_num⟩, ⟨5, 0, by norm_num, by norm_num⟩,
    fun g t ht x x' h1 h2 d m => C79_tolerance ht h1 h2 ?_ d m⟩
  have h : (1 : ℚ) / 10 ^ 15 ≤ |finePoint 5 1 1 4 4 5 - finePoint 5 (1 + 1) 1 4 4 5| := by decide +kernel
  have h' : ((1 / 10 ^ 15 : ℚ) : ℝ) ≤ ((|finePoint 5 1 1 4 4 5 - finePoint 5 (1 + 1) 1 4 4 5| : ℚ) : ℝ) := by
    exact_mod_cast h
  push_cast at h'
  exact h'

private theorem fl_abs {x B : ℚ} (h : |x| ≤ B) : |fl x - x| ≤ B / 2 ^ 53 :=
  (fl_error x).trans (by gcongr)

private theorem clamp_error {x y e : ℚ} (h : |x - y| ≤ e) (h0 : 0 ≤ y) (h1 : y ≤ 1) :
    |(if x < 0 then 0 else if x > 1 then 1 else x) - y| ≤ e ∧ 0 ≤ (if x < 0 then 0 else if x > 1 then 1 else x) ∧
      (if x < 0 then 0 else if x > 1 then 1 else x) ≤ 1 := by
  rw [abs_le] at h ⊢
  split_ifs <;> refine ⟨⟨?_, ?_⟩, ?_, ?_⟩ <;> linarith

/-- the weights are exact up to a few units of rounding -/
private theorem fineCoords_error {n k l : ℕ} (h : k + l ≤ n) (hn : 1 ≤ n) :
    |(fineCoords n k l).1 - (1 - k / n - l / n)| ≤ 5 / 2 / 2 ^ 53 ∧ |(fineCoords n k l).2.1 - k / n| ≤ 1 / 2 ^ 53 ∧
    |(fineCoords n k l).2.2 - l / n| ≤ 6 / 2 ^ 53 ∧ (0 ≤ (fineCoords n k l).1 ∧ (fineCoords n k l).1 ≤ 1) ∧
    (0 ≤ (fineCoords n k l).2.1 ∧ (fineCoords n k l).2.1 ≤ 1) ∧
    (0 ≤ (fineCoords n k l).2.2 ∧ (fineCoords n k l).2.2 ≤ 1) := by
  have hn' : (0 : ℚ) < n := by exact_mod_cast hn
  have hk : (0 : ℚ) ≤ k / n := by positivity
  have hl : (0 : ℚ) ≤ l / n := by positivity
  have hkl : (k : ℚ) / n + l / n ≤ 1 := by
    rw [← add_div, div_le_one hn']
    exact_mod_cast h
  simp only [fineCoords]
  generalize (k : ℚ) / n = κ at *
  generalize (l : ℚ) / n = μ at *
  have e1 := fl_abs (x := κ) (B := κ) (by rw [abs_of_nonneg hk])
  have e2 := fl_abs (x := μ) (B := μ) (by rw [abs_of_nonneg hl])
  generalize fl κ = f1 at *
  generalize fl μ = f2 at *
  rw [abs_le] at e1 e2
  have e3 := fl_abs (x := 1 - f1) (B := 1 - κ + 1 / 2 ^ 53) (by rw [abs_le]; constructor <;> linarith)
  generalize fl (1 - f1) = g at *
  rw [abs_le] at e3
  have e4 := fl_abs (x := g - f2) (B := 1 - κ - μ + 4 / 2 ^ 53) (by rw [abs_le]; constructor <;> linarith)
  generalize fl (g - f2) = l1 at *
  rw [abs_le] at e4
  have e5 := fl_abs (x := 1 - l1) (B := κ + μ + 3 / 2 ^ 53) (by rw [abs_le]; constructor <;> linarith)
  generalize fl (1 - l1) = g' at *
  rw [abs_le] at e5
  have e6 := fl_abs (x := g' - f1) (B := μ + 6 / 2 ^ 53) (by rw [abs_le]; constructor <;> linarith)
  generalize fl (g' - f1) = l3 at *
  rw [abs_le] at e6
  have c1 := clamp_error (x := l1) (y := 1 - κ - μ) (e := 5 / 2 / 2 ^ 53) (by rw [abs_le]; constructor <;> linarith)
    (by linarith) (by linarith)
  have c2 := clamp_error (x := f1) (y := κ) (e := 1 / 2 ^ 53) (by rw [abs_le]; constructor <;> linarith)
    (by linarith) (by linarith)
  have c3 := clamp_error (x := l3) (y := μ) (e := 6 / 2 ^ 53) (by rw [abs_le]; constructor <;> linarith)
    (by linarith) (by linarith)
  exact ⟨c1.1, c2.1, c3.1, c1.2, c2.2, c3.2⟩

/-- The rounding error of a coordinate of a fine vertex: at most `13 · 2⁻⁵³` times the largest coordinate of the corners. -/
theorem C79_fine_point_error {n k l : ℕ} (h : k + l ≤ n) (hn : 1 ≤ n) {a b c M : ℚ} (ha : |a| ≤ M) (hb : |b| ≤ M)
    (hc : |c| ≤ M) :
    |finePoint n k l a b c - ((1 - k / n - l / n) * a + k / n * b + l / n * c)| ≤ 13 / 2 ^ 53 * M := by
  obtain ⟨e1, e2, e3, r1, r2, r3⟩ := fineCoords_error h hn
  have hM : 0 ≤ M := (abs_nonneg a).trans ha
  have hn' : (0 : ℚ) < n := by exact_mod_cast hn
  unfold finePoint
  generalize fineCoords n k l = w at *
  obtain ⟨w1, w2, w3⟩ := w
  simp only at *
  have hsum : w1 + w2 + w3 ≤ 1 + 10 / 2 ^ 53 := by
    have h1 := (abs_le.1 e1).2
    have h2 := (abs_le.1 e2).2
    have h3 := (abs_le.1 e3).2
    linarith
  generalize (k : ℚ) / n = κ at *
  generalize (l : ℚ) / n = μ at *
  -- the weights
  have f (x y z e : ℚ) (hx : |x - y| ≤ e) (hz : |z| ≤ M) : |x * z - y * z| ≤ e * M := by
    rw [← sub_mul, abs_mul]
    exact mul_le_mul hx hz (abs_nonneg _) ((abs_nonneg _).trans hx)
  have g1 := abs_le.1 (f _ _ _ _ e1 ha)
  have g2 := abs_le.1 (f _ _ _ _ e2 hb)
  have g3 := abs_le.1 (f _ _ _ _ e3 hc)
  -- the products
  have p (x z : ℚ) (hx : 0 ≤ x) (hz : |z| ≤ M) : |x * z| ≤ x * M := by
    rw [abs_mul, abs_of_nonneg hx]; gcongr
  have q1 := p _ _ r1.1 ha
  have q2 := p _ _ r2.1 hb
  have q3 := p _ _ r3.1 hc
  have k1 := abs_le.1 (fl_abs q1)
  have k2 := abs_le.1 (fl_abs q2)
  have k3 := abs_le.1 (fl_abs q3)
  have hs : w1 * M + w2 * M + w3 * M ≤ (1 + 10 / 2 ^ 53) * M := by
    rw [← add_mul, ← add_mul]; gcongr
  have m1 : 0 ≤ w1 * M := mul_nonneg r1.1 hM
  have m2 : 0 ≤ w2 * M := mul_nonneg r2.1 hM
  have m3 : 0 ≤ w3 * M := mul_nonneg r3.1 hM
  rw [abs_le] at q1 q2 q3
  generalize fl (w1 * a) = x1 at *
  generalize fl (w2 * b) = x2 at *
  generalize fl (w3 * c) = x3 at *
  -- the sums
  have s1 := abs_le.1 (fl_abs (x := x1 + x2) (B := (1 + 1 / 2 ^ 40) * M) (by rw [abs_le]; constructor <;> linarith))
  generalize fl (x1 + x2) = y1 at *
  have s2 := abs_le.1 (fl_abs (x := y1 + x3) (B := (1 + 1 / 2 ^ 39) * M) (by rw [abs_le]; constructor <;> linarith))
  generalize fl (y1 + x3) = y2 at *
  rw [abs_le]
  constructor <;> linarith

/-- For coordinates of size at most `1/3` rounding does no harm: any two computed fine vertices whose exact coordinates agree, no
matter from which triangles they were computed, have coordinates that agree up to less than `1e-15`, the tolerance of
`refine`. -/
theorem C79_second_refinement_partial {n k l n' k' l' : ℕ} (h : k + l ≤ n) (hn : 1 ≤ n) (h' : k' + l' ≤ n') (hn' : 1 ≤ n')
    {a b c a' b' c' : ℚ} (ha : |a| ≤ 1 / 3) (hb : |b| ≤ 1 / 3) (hc : |c| ≤ 1 / 3) (ha' : |a'| ≤ 1 / 3) (hb' : |b'| ≤ 1 / 3)
    (hc' : |c'| ≤ 1 / 3)
    (he : (1 - k / n - l / n : ℚ) * a + k / n * b + l / n * c = (1 - k' / n' - l' / n') * a' + k' / n' * b' + l' / n' * c') :
    |finePoint n k l a b c - finePoint n' k' l' a' b' c'| < 1 / 10 ^ 15 := by
  have h1 := abs_le.1 (C79_fine_point_error h hn ha hb hc)
  have h2 := abs_le.1 (C79_fine_point_error h' hn' ha' hb' hc')
  rw [he] at h1
  rw [abs_lt]
  constructor <;> linarith

/-- two neighbouring vertices of a row in the triangle with corners at the heights `1/4`, `1/4`, `1/3` (rounded) -/
example : |finePoint 7 2 3 (1 / 4) (1 / 4) (fl (1 / 3)) - finePoint 7 3 3 (1 / 4) (1 / 4) (fl (1 / 3))| < 1 / 10 ^ 15 := by
  have h : |fl (1 / 3)| ≤ 1 / 3 := by decide +kernel
  refine C79_second_refinement_partial (by norm_num) (by norm_num) (by norm_num) (by norm_num)
    (by rw [abs_of_pos] <;> norm_num) (by rw [abs_of_pos] <;> norm_num) h (by rw [abs_of_pos] <;> norm_num)
    (by rw [abs_of_pos] <;> norm_num) h ?_
  push_cast
  ring

end Tve
