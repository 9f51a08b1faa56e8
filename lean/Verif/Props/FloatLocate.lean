import Verif.Lemmas.FloatLocate

/-!
# C85: point location and evaluation in double precision
-/

namespace Tve
open F64

/-- In double arithmetic every point of a triangle whose coordinates are at most 128 is found to be in it. -/
theorem C85_contains {p1 p2 p3 : Point} (h1 : Point.Within 128 p1) (h2 : Point.Within 128 p2) (h3 : Point.Within 128 p3)
    {c : Bary ℚ} (hc : c.l1 + c.l2 + c.l3 = 1) (h0 : 0 ≤ c.l1 ∧ 0 ≤ c.l2 ∧ 0 ≤ c.l3) :
    containsPoint p1 p2 p3 (combo p1 p2 p3 c) = true := by
  obtain ⟨a, b, d⟩ := h0
  refine contains_of_signExact (δ := 0) h1 h2 h3 (within_combo h1 h2 h3 hc ⟨a, b, d⟩) (by norm_num) ?_
  obtain ⟨s1, s2, s3⟩ := signs_combo p1 p2 p3 hc
  rw [s1, s2, s3]
  simp only [List.mem_cons, List.not_mem_nil, or_false, forall_eq_or_imp, forall_eq, neg_zero]
  rcases le_total 0 (area2 p1 p2 p3) with h | h
  · left; exact ⟨mul_nonneg d h, mul_nonneg a h, mul_nonneg b h⟩
  · right; exact ⟨mul_nonpos_of_nonneg_of_nonpos d h, mul_nonpos_of_nonneg_of_nonpos a h, mul_nonpos_of_nonneg_of_nonpos b h⟩

/-- The vertices of a refinement, as computed in double arithmetic, are found to be in the triangle they refine, if the
coordinates of its corners are at most 100. -/
theorem C85_fine {p1 p2 p3 : Point} (h1 : Point.Within 100 p1) (h2 : Point.Within 100 p2) (h3 : Point.Within 100 p3)
    {n k l : ℕ} (h : k + l ≤ n) (hn : 1 ≤ n) :
    containsPoint p1 p2 p3 (finePoint n k l p1.1 p2.1 p3.1, finePoint n k l p1.2 p2.2 p3.2) = true := by
  have e1 := C79_fine_point_error h hn h1.1 h2.1 h3.1
  have e2 := C79_fine_point_error h hn h1.2 h2.2 h3.2
  set p : Point := (finePoint n k l p1.1 p2.1 p3.1, finePoint n k l p1.2 p2.2 p3.2) with hp
  have hn' : (0 : ℚ) < n := by exact_mod_cast hn
  have hk : (k : ℚ) / n + l / n ≤ 1 := by
    rw [← add_div, div_le_one hn']; exact_mod_cast h
  set c : Bary ℚ := ⟨1 - k / n - l / n, k / n, l / n⟩ with hcdef
  have hc : c.l1 + c.l2 + c.l3 = 1 := by simp only [hcdef]; ring
  have h0 : 0 ≤ c.l1 ∧ 0 ≤ c.l2 ∧ 0 ≤ c.l3 := ⟨by simp only [hcdef]; linarith, by positivity, by positivity⟩
  have hw := within_combo h1 h2 h3 hc h0
  have d1 : |p.1 - (combo p1 p2 p3 c).1| ≤ 13 / 2 ^ 53 * 100 := e1
  have d2 : |p.2 - (combo p1 p2 p3 c).2| ≤ 13 / 2 ^ 53 * 100 := e2
  have near : ∀ {q r : Point}, Point.Within 100 q → Point.Within 100 r →
      |signExact p q r - signExact (combo p1 p2 p3 c) q r| ≤ 52 / 2 ^ 53 * 100 ^ 2 := by
    intro q r hq hr
    have e : signExact p q r - signExact (combo p1 p2 p3 c) q r =
        (p.1 - (combo p1 p2 p3 c).1) * (q.2 - r.2) - (q.1 - r.1) * (p.2 - (combo p1 p2 p3 c).2) := by
      simp only [signExact]; ring
    rw [e]
    have i1 := mul_le_mul d1 (sub_within hq.2 hr.2) (abs_nonneg _) (by norm_num)
    have i2 := mul_le_mul (sub_within hq.1 hr.1) d2 (abs_nonneg _) (by norm_num)
    rw [← abs_mul] at i1 i2
    refine (abs_sub _ _).trans ((add_le_add i1 i2).trans (by norm_num))
  obtain ⟨s1, s2, s3⟩ := signs_combo p1 p2 p3 hc
  have n1 := near h1 h2
  have n2 := near h2 h3
  have n3 := near h3 h1
  rw [s1] at n1
  rw [s2] at n2
  rw [s3] at n3
  rw [abs_le] at n1 n2 n3 d1 d2
  have wp : Point.Within (100 + 1 / 10 ^ 9) p := by
    have w1 := abs_le.1 hw.1
    have w2 := abs_le.1 hw.2
    norm_num at d1 d2
    constructor <;> rw [abs_le] <;> constructor <;> norm_num <;> linarith [d1.1, d1.2, d2.1, d2.2, w1.1, w1.2, w2.1, w2.2]
  have up : ∀ {q : Point}, Point.Within 100 q → Point.Within (100 + 1 / 10 ^ 9) q := fun hq =>
    ⟨hq.1.trans (by norm_num), hq.2.trans (by norm_num)⟩
  refine contains_of_signExact (δ := 52 / 2 ^ 53 * 100 ^ 2) (up h1) (up h2) (up h3) wp (by norm_num) ?_
  simp only [List.mem_cons, List.not_mem_nil, or_false, forall_eq_or_imp, forall_eq]
  obtain ⟨a, b, d⟩ := h0
  rcases le_total 0 (area2 p1 p2 p3) with hA | hA
  · left
    have := mul_nonneg a hA
    have := mul_nonneg b hA
    have := mul_nonneg d hA
    exact ⟨by linarith [n1.1], by linarith [n2.1], by linarith [n3.1]⟩
  · right
    have := mul_nonpos_of_nonneg_of_nonpos a hA
    have := mul_nonpos_of_nonneg_of_nonpos b hA
    have := mul_nonpos_of_nonneg_of_nonpos d hA
    exact ⟨by linarith [n1.2], by linarith [n2.2], by linarith [n3.2]⟩

/-! ### grids of rectangles -/

variable {nx ny : ℕ} {s : ℚ}

theorem gridPoints_get {i j : ℕ} (hi : i ≤ nx) (hj : j ≤ ny) :
    pyGet (gridPoints (nx + 1) (ny + 1) s) (RectGrid.pv (nx + 1) i j) = .ok (fl (i * s), fl (j * s)) := by
  have h : RectGrid.pv (nx + 1) i j < (nx + 1) * (ny + 1) := by
    unfold RectGrid.pv
    calc j * (nx + 1) + i < j * (nx + 1) + (nx + 1) := by omega
      _ = (nx + 1) * (j + 1) := by ring
      _ ≤ (nx + 1) * (ny + 1) := Nat.mul_le_mul_left _ (by omega)
  have h1 : RectGrid.pv (nx + 1) i j % (nx + 1) = i := by
    unfold RectGrid.pv; rw [Nat.mul_add_mod']; exact Nat.mod_eq_of_lt (by omega)
  have h2 : RectGrid.pv (nx + 1) i j / (nx + 1) = j := by
    unfold RectGrid.pv
    rw [Nat.mul_comm, Nat.mul_add_div (by omega), Nat.div_eq_of_lt (by omega), add_zero]
  unfold pyGet gridPoints RectGrid.vertices
  simp [h, h1, h2]

/-- a triangle of the grid with the computed coordinates of its corners -/
inductive GridTri (nx ny : ℕ) (s : ℚ) : Tri → Point → Point → Point → Prop
  | lower {i j : ℕ} (hi : i < nx) (hj : j < ny) : GridTri nx ny s
      (RectGrid.pv (nx + 1) i j, RectGrid.pv (nx + 1) (i + 1) j, RectGrid.pv (nx + 1) (i + 1) (j + 1))
      (fl (i * s), fl (j * s)) (fl ((i + 1 : ℕ) * s), fl (j * s)) (fl ((i + 1 : ℕ) * s), fl ((j + 1 : ℕ) * s))
  | upper {i j : ℕ} (hi : i < nx) (hj : j < ny) : GridTri nx ny s
      (RectGrid.pv (nx + 1) (i + 1) (j + 1), RectGrid.pv (nx + 1) i (j + 1), RectGrid.pv (nx + 1) i j)
      (fl ((i + 1 : ℕ) * s), fl ((j + 1 : ℕ) * s)) (fl (i * s), fl ((j + 1 : ℕ) * s)) (fl (i * s), fl (j * s))

theorem gridTri_of_mem {t : Tri} (ht : t ∈ RectGrid.triangles (nx + 1) (ny + 1)) : ∃ p1 p2 p3, GridTri nx ny s t p1 p2 p3 := by
  simp only [RectGrid.triangles, RectGrid.lowerTriangles, RectGrid.upperTriangles, List.mem_append, List.mem_flatMap,
    List.mem_map, List.mem_range, Nat.add_sub_cancel] at ht
  rcases ht with ⟨i, hi, j, hj, rfl⟩ | ⟨i, hi, j, hj, rfl⟩
  · exact ⟨_, _, _, .lower hi hj⟩
  · exact ⟨_, _, _, .upper hi hj⟩

theorem GridTri.mem {t : Tri} {p1 p2 p3 : Point} (h : GridTri nx ny s t p1 p2 p3) : t ∈ RectGrid.triangles (nx + 1) (ny + 1) := by
  simp only [RectGrid.triangles, RectGrid.lowerTriangles, RectGrid.upperTriangles, List.mem_append, List.mem_flatMap,
    List.mem_map, List.mem_range, Nat.add_sub_cancel]
  cases h with
  | lower hi hj => exact .inl ⟨_, hi, _, hj, rfl⟩
  | upper hi hj => exact .inr ⟨_, hi, _, hj, rfl⟩

theorem GridTri.get {t : Tri} {p1 p2 p3 : Point} (h : GridTri nx ny s t p1 p2 p3) :
    pyGet (gridPoints (nx + 1) (ny + 1) s) t.1 = .ok p1 ∧ pyGet (gridPoints (nx + 1) (ny + 1) s) t.2.1 = .ok p2 ∧
      pyGet (gridPoints (nx + 1) (ny + 1) s) t.2.2 = .ok p3 := by
  cases h with
  | lower hi hj =>
    exact ⟨gridPoints_get hi.le hj.le, gridPoints_get hi hj.le, gridPoints_get hi hj⟩
  | upper hi hj =>
    exact ⟨gridPoints_get hi hj, gridPoints_get hi.le hj, gridPoints_get hi.le hj.le⟩

theorem coord_error {n i : ℕ} (hs : 1 / 10 ^ 4 ≤ s) (hn : n * s ≤ 99) (hi : i ≤ n) :
    |fl (i * s) - i * s| ≤ 1 / 10 ^ 13 / 4 ∧ |fl (i * s)| ≤ 100 := by
  have h0 : 0 < s := lt_of_lt_of_le (by norm_num) hs
  have h1 : (i : ℚ) * s ≤ 99 := by
    have : (i : ℚ) ≤ n := by exact_mod_cast hi
    nlinarith
  have h2 : 0 ≤ (i : ℚ) * s := by positivity
  have h3 := fl_error ((i : ℚ) * s)
  rw [abs_of_nonneg h2] at h3
  have h4 : |fl (i * s) - i * s| ≤ 1 / 10 ^ 13 / 4 := h3.trans (by norm_num; linarith)
  refine ⟨h4, ?_⟩
  rw [abs_le] at *
  norm_num at h4
  constructor <;> linarith [h4.1, h4.2]

theorem cell_size {n i : ℕ} (hs : 1 / 10 ^ 4 ≤ s) (hn : n * s ≤ 99) (hi : i < n) :
    s * (1 - 1 / 10 ^ 9) ≤ fl ((i + 1 : ℕ) * s) - fl (i * s) ∧ fl ((i + 1 : ℕ) * s) - fl (i * s) ≤ s * (1 + 1 / 10 ^ 9) := by
  have a := abs_le.1 (coord_error hs hn hi.le).1
  have b := abs_le.1 (coord_error hs hn (i := i + 1) hi).1
  push_cast at *
  norm_num at *
  constructor <;> linarith [a.1, a.2, b.1, b.2]

/-- the triangles of the grid are shaped as in exact arithmetic, nearly -/
theorem GridTri.shape {t : Tri} {p1 p2 p3 : Point} (h : GridTri nx ny s t p1 p2 p3) (hs : 1 / 10 ^ 4 ≤ s) (hx : nx * s ≤ 99)
    (hy : ny * s ≤ 99) :
    (Point.Within 100 p1 ∧ Point.Within 100 p2 ∧ Point.Within 100 p3) ∧
    9 / 10 * s ^ 2 ≤ area2 p1 p2 p3 ∧ |p2.1 - p1.1| ≤ s * (1 + 1 / 10 ^ 9) ∧ |p2.2 - p1.2| ≤ s * (1 + 1 / 10 ^ 9) ∧
      |p3.1 - p1.1| ≤ s * (1 + 1 / 10 ^ 9) ∧ |p3.2 - p1.2| ≤ s * (1 + 1 / 10 ^ 9) := by
  have h0 : 0 < s := lt_of_lt_of_le (by norm_num) hs
  cases h with
  | lower hi hj =>
    obtain ⟨a1, a2⟩ := cell_size hs hx hi
    obtain ⟨b1, b2⟩ := cell_size hs hy hj
    have x0 := (coord_error hs hx hi.le).2
    have x1 := (coord_error hs hx (i := _ + 1) hi).2
    have y0 := (coord_error hs hy hj.le).2
    have y1 := (coord_error hs hy (i := _ + 1) hj).2
    have l0 : 0 ≤ s * (1 - 1 / 10 ^ 9) := by positivity
    refine ⟨⟨⟨x0, y0⟩, ⟨x1, y0⟩, ⟨x1, y1⟩⟩, ?_, ?_, ?_, ?_, ?_⟩
    · have := mul_le_mul a1 b1 l0 (l0.trans a1)
      simp only [area2, sub_self, zero_mul, sub_zero]
      refine le_trans ?_ this
      nlinarith
    · rw [abs_of_nonneg (l0.trans a1)]; exact a2
    · rw [sub_self, abs_zero]; positivity
    · rw [abs_of_nonneg (l0.trans a1)]; exact a2
    · rw [abs_of_nonneg (l0.trans b1)]; exact b2
  | upper hi hj =>
    obtain ⟨a1, a2⟩ := cell_size hs hx hi
    obtain ⟨b1, b2⟩ := cell_size hs hy hj
    have x0 := (coord_error hs hx hi.le).2
    have x1 := (coord_error hs hx (i := _ + 1) hi).2
    have y0 := (coord_error hs hy hj.le).2
    have y1 := (coord_error hs hy (i := _ + 1) hj).2
    have l0 : 0 ≤ s * (1 - 1 / 10 ^ 9) := by positivity
    refine ⟨⟨⟨x1, y1⟩, ⟨x0, y1⟩, ⟨x0, y0⟩⟩, ?_, ?_, ?_, ?_, ?_⟩
    · have := mul_le_mul a1 b1 l0 (l0.trans a1)
      simp only [area2, sub_self, zero_mul, sub_zero]
      refine le_trans ?_ (this.trans (le_of_eq (by ring)))
      nlinarith
    · rw [abs_sub_comm, abs_of_nonneg (l0.trans a1)]; exact a2
    · rw [sub_self, abs_zero]; positivity
    · rw [abs_sub_comm, abs_of_nonneg (l0.trans a1)]; exact a2
    · rw [abs_sub_comm, abs_of_nonneg (l0.trans b1)]; exact b2

/-- every point has barycentric coordinates -/
theorem exists_weights {p1 p2 p3 : Point} (h : area2 p1 p2 p3 ≠ 0) (p : Point) :
    ∃ w : Bary ℚ, w.l1 + w.l2 + w.l3 = 1 ∧ combo p1 p2 p3 w = p := by
  refine ⟨⟨signExact p p2 p3 / area2 p1 p2 p3, signExact p p3 p1 / area2 p1 p2 p3, signExact p p1 p2 / area2 p1 p2 p3⟩, ?_, ?_⟩
  · simp only [← add_div]
    rw [div_eq_one_iff_eq h]
    simp only [signExact, area2]; ring
  · simp only [combo]
    refine Prod.ext ?_ ?_
    · simp only
      field_simp
      simp only [signExact, area2]; ring
    · simp only
      field_simp
      simp only [signExact, area2]; ring

theorem GridTri.denom {t : Tri} {p1 p2 p3 : Point} (h : GridTri nx ny s t p1 p2 p3) (hs : 1 / 10 ^ 4 ≤ s) (hx : nx * s ≤ 99)
    (hy : ny * s ≤ 99) : baryDenom p1 p2 p3 ≠ 0 := by
  have h0 : 0 < s := lt_of_lt_of_le (by norm_num) hs
  obtain ⟨-, hD, a, b, c, d⟩ := h.shape hs hx hy
  have e : combo p1 p2 p3 ⟨1, 0, 0⟩ = p1 := by simp [combo]
  refine (bary_error (c := ⟨1, 0, 0⟩) (by norm_num) (h := s * (1 + 1 / 10 ^ 9)) (by positivity) ?_ a b c d ?_ ?_ (by norm_num)
    (by norm_num)).1
  · rw [abs_of_nonneg (le_trans (by positivity) hD)]
    nlinarith
  · rw [e, sub_self, abs_zero]; positivity
  · rw [e, sub_self, abs_zero]; positivity

theorem locate_first {points : List Point} {p : Point} {ts : List Tri}
    (hg : ∀ t ∈ ts, ∃ p1 p2 p3, pyGet points t.1 = .ok p1 ∧ pyGet points t.2.1 = .ok p2 ∧ pyGet points t.2.2 = .ok p3 ∧
      baryDenom p1 p2 p3 ≠ 0)
    (hc : ∃ t ∈ ts, ∃ p1 p2 p3, pyGet points t.1 = .ok p1 ∧ pyGet points t.2.1 = .ok p2 ∧ pyGet points t.2.2 = .ok p3 ∧
      containsPoint p1 p2 p3 p = true) :
    ∃ t ∈ ts, ∃ p1 p2 p3, pyGet points t.1 = .ok p1 ∧ pyGet points t.2.1 = .ok p2 ∧ pyGet points t.2.2 = .ok p3 ∧
      containsPoint p1 p2 p3 p = true ∧ locate points p ts = .ok (some ⟨t, bary p1 p2 p3 p⟩) := by
  induction ts with
  | nil => obtain ⟨t, ht, -⟩ := hc; simp at ht
  | cons t ts ih =>
    obtain ⟨p1, p2, p3, g1, g2, g3, gd⟩ := hg t (by simp)
    by_cases hp : containsPoint p1 p2 p3 p = true
    · refine ⟨t, by simp, p1, p2, p3, g1, g2, g3, hp, ?_⟩
      simp only [locate, g1, g2, g3, bind_ok, hp, if_true, if_neg gd]
    · have hc' : ∃ t ∈ ts, ∃ p1 p2 p3, pyGet points t.1 = .ok p1 ∧ pyGet points t.2.1 = .ok p2 ∧ pyGet points t.2.2 = .ok p3 ∧
          containsPoint p1 p2 p3 p = true := by
        obtain ⟨t', ht', q1, q2, q3, k1, k2, k3, k4⟩ := hc
        rcases List.mem_cons.1 ht' with rfl | ht'
        · rw [g1] at k1; rw [g2] at k2; rw [g3] at k3
          cases k1; cases k2; cases k3
          exact absurd k4 hp
        · exact ⟨t', ht', q1, q2, q3, k1, k2, k3, k4⟩
      obtain ⟨t', ht', q1, q2, q3, k1, k2, k3, k4, k5⟩ := ih (fun t ht => hg t (by simp [ht])) hc'
      refine ⟨t', by simp [ht'], q1, q2, q3, k1, k2, k3, k4, ?_⟩
      simp only [locate, g1, g2, g3, bind_ok, hp]
      exact k5

/-- `c` are, up to `10⁻¹²`, the barycentric coordinates `w` of `p` in the triangle `t` of the grid, in which `p` lies up to
`2.5 · 10⁻¹⁰ / s²` -/
def IsLocated (nx ny : ℕ) (s : ℚ) (p : Point) (t : Tri) (c w : Bary ℚ) : Prop :=
  ∃ p1 p2 p3, t ∈ RectGrid.triangles (nx + 1) (ny + 1) ∧ pyGet (gridPoints (nx + 1) (ny + 1) s) t.1 = .ok p1 ∧
    pyGet (gridPoints (nx + 1) (ny + 1) s) t.2.1 = .ok p2 ∧ pyGet (gridPoints (nx + 1) (ny + 1) s) t.2.2 = .ok p3 ∧
    w.l1 + w.l2 + w.l3 = 1 ∧ combo p1 p2 p3 w = p ∧
    (∀ x ∈ [w.l1, w.l2, w.l3], -(1 / 4 / 10 ^ 9) / s ^ 2 ≤ x) ∧
    |c.l1 - w.l1| ≤ 1 / 10 ^ 12 ∧ |c.l2 - w.l2| ≤ 1 / 10 ^ 12 ∧ |c.l3 - w.l3| ≤ 1 / 10 ^ 12

/-- what is known about a point found to be in a triangle of the grid -/
theorem located_of_contains (hs : 1 / 10 ^ 4 ≤ s) (hx : nx * s ≤ 99) (hy : ny * s ≤ 99) {p : Point} (hp : Point.Within 100 p)
    (hc : ∃ t p1 p2 p3, GridTri nx ny s t p1 p2 p3 ∧ containsPoint p1 p2 p3 p = true) :
    ∃ t c w, locate (gridPoints (nx + 1) (ny + 1) s) p (RectGrid.triangles (nx + 1) (ny + 1)) = .ok (some ⟨t, c⟩) ∧
      IsLocated nx ny s p t c w := by
  have h0 : 0 < s := lt_of_lt_of_le (by norm_num) hs
  obtain ⟨t, ht, p1, p2, p3, g1, g2, g3, g4, g5⟩ := locate_first (points := gridPoints (nx + 1) (ny + 1) s) (p := p)
    (ts := RectGrid.triangles (nx + 1) (ny + 1))
    (fun t ht => by
      obtain ⟨p1, p2, p3, h⟩ := gridTri_of_mem (s := s) ht
      obtain ⟨g1, g2, g3⟩ := h.get
      exact ⟨p1, p2, p3, g1, g2, g3, h.denom hs hx hy⟩)
    (by
      obtain ⟨t, p1, p2, p3, h, hc⟩ := hc
      obtain ⟨g1, g2, g3⟩ := h.get
      exact ⟨t, h.mem, p1, p2, p3, g1, g2, g3, hc⟩)
  obtain ⟨q1, q2, q3, h⟩ := gridTri_of_mem (s := s) ht
  obtain ⟨k1, k2, k3⟩ := h.get
  cases k1.symm.trans g1
  cases k2.symm.trans g2
  cases k3.symm.trans g3
  obtain ⟨⟨w1, w2, w3⟩, hD, a, b, c, d⟩ := h.shape hs hx hy
  have hDpos : 0 < area2 p1 p2 p3 := lt_of_lt_of_le (by positivity) hD
  have hs2 : 1 / 10 ^ 8 ≤ s ^ 2 := by nlinarith
  obtain ⟨w, hw, rfl⟩ := exists_weights hDpos.ne' p
  obtain ⟨l1, l2, l3⟩ := weights_of_contains hw w1 w2 w3 hp (by rw [abs_of_pos hDpos]; norm_num at *; linarith) g4
  rw [abs_of_pos hDpos] at l1 l2 l3
  have bound : ∀ x : ℚ, -(2 / 10 ^ 10) ≤ x * area2 p1 p2 p3 → -(1 / 4 / 10 ^ 9) / s ^ 2 ≤ x ∧ -(1 / 40) ≤ x := by
    intro x hxx
    have : -(1 / 4 / 10 ^ 9) / s ^ 2 ≤ x := by
      rw [div_le_iff₀ (by positivity)]
      by_contra hlt
      push Not at hlt
      have : x < 0 := by
        by_contra hn
        have := mul_nonneg (not_lt.1 hn) (sq_nonneg s)
        norm_num at hlt
        linarith
      have : x * area2 p1 p2 p3 ≤ x * (9 / 10 * s ^ 2) := mul_le_mul_of_nonpos_left hD this.le
      norm_num at *
      linarith
    refine ⟨this, le_trans ?_ this⟩
    rw [le_div_iff₀ (by positivity)]
    norm_num at *
    linarith
  obtain ⟨b1, c1⟩ := bound _ l1
  obtain ⟨b2, c2⟩ := bound _ l2
  obtain ⟨b3, c3⟩ := bound _ l3
  have habs : |w.l2| + |w.l3| ≤ 11 / 10 ∧ |w.l2| ≤ 5 / 4 ∧ |w.l3| ≤ 5 / 4 := by
    rcases abs_cases w.l2 with ⟨e, _⟩ | ⟨e, _⟩ <;> rcases abs_cases w.l3 with ⟨e', _⟩ | ⟨e', _⟩ <;> rw [e, e'] <;>
      refine ⟨?_, ?_, ?_⟩ <;> linarith
  have hh : 0 < s * (1 + 1 / 10 ^ 9) := by positivity
  have v3 : ∀ x y z : ℚ, |y - x| ≤ s * (1 + 1 / 10 ^ 9) → |z - x| ≤ s * (1 + 1 / 10 ^ 9) →
      |w.l1 * x + w.l2 * y + w.l3 * z - x| ≤ 2 * (s * (1 + 1 / 10 ^ 9)) := by
    intro x y z hy hz
    rw [show w.l1 * x + w.l2 * y + w.l3 * z - x = w.l2 * (y - x) + w.l3 * (z - x) by
      rw [show w.l1 = 1 - w.l2 - w.l3 by linarith]; ring]
    have i1 := mul_le_mul_of_nonneg_left hy (abs_nonneg w.l2)
    have i2 := mul_le_mul_of_nonneg_left hz (abs_nonneg w.l3)
    rw [← abs_mul] at i1 i2
    have i3 : (|w.l2| + |w.l3|) * (s * (1 + 1 / 10 ^ 9)) ≤ 11 / 10 * (s * (1 + 1 / 10 ^ 9)) :=
      mul_le_mul_of_nonneg_right habs.1 hh.le
    have := abs_add_le (w.l2 * (y - x)) (w.l3 * (z - x))
    linarith
  obtain ⟨-, e1, e2, e3⟩ := bary_error hw hh (by rw [abs_of_pos hDpos]; nlinarith) a b c d (v3 _ _ _ a c) (v3 _ _ _ b d)
    habs.2.1 habs.2.2
  exact ⟨t, _, w, g5, p1, p2, p3, ht, g1, g2, g3, hw, rfl, by
    intro x hx
    simp only [List.mem_cons, List.not_mem_nil, or_false] at hx
    rcases hx with rfl | rfl | rfl <;> assumption, e1, e2, e3⟩

/-- discrete intermediate value -/
theorem exists_interval (f : ℕ → ℚ) {n : ℕ} (hn : 1 ≤ n) {x : ℚ} (h0 : f 0 ≤ x) (h1 : x ≤ f n) : ∃ i < n, f i ≤ x ∧ x ≤ f (i + 1) := by
  induction n with
  | zero => omega
  | succ n ih =>
    by_cases h : f n ≤ x
    · exact ⟨n, by omega, h, h1⟩
    · push Not at h
      have hn' : 1 ≤ n := by
        rcases Nat.eq_zero_or_pos n with rfl | hp
        · exact absurd h0 (not_le.2 h)
        · exact hp
      obtain ⟨i, hi, k⟩ := ih hn' h.le
      exact ⟨i, by omega, k⟩

/-- **C85** (rectangles of size up to 99 with a mesh size of at least `10⁻⁴`). In double arithmetic every point of the rectangle
covered by the grid is located: in a triangle which contains it up to the tolerance, with its barycentric coordinates up to
`10⁻¹²`. -/
theorem C85_located_partial (h1x : 1 ≤ nx) (h1y : 1 ≤ ny) (hs : 1 / 10 ^ 4 ≤ s) (hx : nx * s ≤ 99) (hy : ny * s ≤ 99) {p : Point}
    (px : 0 ≤ p.1 ∧ p.1 ≤ fl (nx * s)) (py : 0 ≤ p.2 ∧ p.2 ≤ fl (ny * s)) :
    ∃ t c w, locate (gridPoints (nx + 1) (ny + 1) s) p (RectGrid.triangles (nx + 1) (ny + 1)) = .ok (some ⟨t, c⟩) ∧
      IsLocated nx ny s p t c w := by
  have hf0 : fl 0 = 0 := by simp [fl]
  have hp : Point.Within 100 p := by
    have a := (coord_error hs hx le_rfl).2
    have b := (coord_error hs hy le_rfl).2
    exact ⟨by rw [abs_of_nonneg px.1]; exact px.2.trans ((le_abs_self _).trans a),
      by rw [abs_of_nonneg py.1]; exact py.2.trans ((le_abs_self _).trans b)⟩
  refine located_of_contains hs hx hy hp ?_
  obtain ⟨i, hi, i1, i2⟩ := exists_interval (fun i : ℕ => fl (i * s)) h1x (x := p.1) (by simpa [hf0] using px.1) px.2
  obtain ⟨j, hj, j1, j2⟩ := exists_interval (fun i : ℕ => fl (i * s)) h1y (x := p.2) (by simpa [hf0] using py.1) py.2
  have L := GridTri.lower (s := s) hi hj
  have U := GridTri.upper (s := s) hi hj
  obtain ⟨⟨l1, l2, l3⟩, -⟩ := L.shape hs hx hy
  obtain ⟨⟨u1, u2, u3⟩, -⟩ := U.shape hs hx hy
  have nX : 0 ≤ fl ((i + 1 : ℕ) * s) - fl (i * s) := by linarith
  have nY : 0 ≤ fl ((j + 1 : ℕ) * s) - fl (j * s) := by linarith
  have A := mul_nonneg (sub_nonneg.2 i2) nY
  have B := mul_nonneg (sub_nonneg.2 j1) nX
  have C := mul_nonneg (sub_nonneg.2 i1) nY
  have D := mul_nonneg (sub_nonneg.2 j2) nX
  rcases le_total ((p.2 - fl (j * s)) * (fl ((i + 1 : ℕ) * s) - fl (i * s)))
    ((p.1 - fl (i * s)) * (fl ((j + 1 : ℕ) * s) - fl (j * s))) with h | h
  · refine ⟨_, _, _, _, L, contains_of_signExact (δ := 0) l1 l2 l3 hp (by norm_num) (.inl ?_)⟩
    simp only [List.mem_cons, List.not_mem_nil, or_false, forall_eq_or_imp, forall_eq, signExact, neg_zero]
    exact ⟨by linarith, by linarith, by linarith⟩
  · refine ⟨_, _, _, _, U, contains_of_signExact (δ := 0) u1 u2 u3 hp (by norm_num) (.inl ?_)⟩
    simp only [List.mem_cons, List.not_mem_nil, or_false, forall_eq_or_imp, forall_eq, signExact, neg_zero]
    exact ⟨by linarith, by linarith, by linarith⟩

/-- **C85** (refinements of the same grids). The vertices of a refinement, as computed in double arithmetic, are located in the
coarse grid, also if rounding has moved them out of the rectangle. -/
theorem C85_refined_partial (hs : 1 / 10 ^ 4 ≤ s) (hx : nx * s ≤ 98) (hy : ny * s ≤ 98) {t : Tri} {p1 p2 p3 : Point}
    (ht : t ∈ RectGrid.triangles (nx + 1) (ny + 1)) (g1 : pyGet (gridPoints (nx + 1) (ny + 1) s) t.1 = .ok p1)
    (g2 : pyGet (gridPoints (nx + 1) (ny + 1) s) t.2.1 = .ok p2) (g3 : pyGet (gridPoints (nx + 1) (ny + 1) s) t.2.2 = .ok p3)
    {n k l : ℕ} (h : k + l ≤ n) (hn : 1 ≤ n) :
    ∃ t' c w, locate (gridPoints (nx + 1) (ny + 1) s) (finePoint n k l p1.1 p2.1 p3.1, finePoint n k l p1.2 p2.2 p3.2)
        (RectGrid.triangles (nx + 1) (ny + 1)) = .ok (some ⟨t', c⟩) ∧
      IsLocated nx ny s (finePoint n k l p1.1 p2.1 p3.1, finePoint n k l p1.2 p2.2 p3.2) t' c w := by
  obtain ⟨q1, q2, q3, G⟩ := gridTri_of_mem (s := s) ht
  obtain ⟨k1, k2, k3⟩ := G.get
  cases k1.symm.trans g1
  cases k2.symm.trans g2
  cases k3.symm.trans g3
  obtain ⟨⟨w1, w2, w3⟩, -⟩ := G.shape hs (by linarith) (by linarith)
  have sharp : Point.Within 99 p1 ∧ Point.Within 99 p2 ∧ Point.Within 99 p3 := by
    have key : ∀ {m i : ℕ}, (m : ℚ) * s ≤ 98 → i ≤ m → |fl (i * s)| ≤ 99 := by
      intro m i hm hi
      have h0 : 0 < s := lt_of_lt_of_le (by norm_num) hs
      have e := abs_le.1 (coord_error hs (hm.trans (by norm_num)) hi).1
      have h1 : (i : ℚ) * s ≤ 98 := by
        have : (i : ℚ) ≤ m := by exact_mod_cast hi
        nlinarith
      have h2 : 0 ≤ (i : ℚ) * s := by positivity
      rw [abs_le]
      norm_num at e
      constructor <;> linarith [e.1, e.2]
    cases G with
    | lower hi hj => exact ⟨⟨key hx hi.le, key hy hj.le⟩, ⟨key hx hi, key hy hj.le⟩, ⟨key hx hi, key hy hj⟩⟩
    | upper hi hj => exact ⟨⟨key hx hi, key hy hj⟩, ⟨key hx hi.le, key hy hj⟩, ⟨key hx hi.le, key hy hj.le⟩⟩
  refine located_of_contains hs (by linarith) (by linarith) ?_ ⟨t, p1, p2, p3, G, C85_fine w1 w2 w3 h hn⟩
  have fine : ∀ {a b c : ℚ}, |a| ≤ 99 → |b| ≤ 99 → |c| ≤ 99 → |finePoint n k l a b c| ≤ 100 := by
    intro a b c ha hb hc
    have e := C79_fine_point_error h hn ha hb hc
    have hn' : (0 : ℚ) < n := by exact_mod_cast hn
    have hk : (k : ℚ) / n + l / n ≤ 1 := by
      rw [← add_div, div_le_one hn']; exact_mod_cast h
    have := (within_combo (p1 := (a, a)) (p2 := (b, b)) (p3 := (c, c)) (M := 99) ⟨ha, ha⟩ ⟨hb, hb⟩ ⟨hc, hc⟩
      (c := ⟨1 - k / n - l / n, k / n, l / n⟩) (by simp only; ring) ⟨by simp only; linarith, by positivity, by positivity⟩).1
    simp only [combo] at this
    rw [abs_le] at *
    norm_num at e
    constructor <;> linarith [e.1, e.2, this.1, this.2]
  exact ⟨fine sharp.1.1 sharp.2.1.1 sharp.2.2.1, fine sharp.1.2 sharp.2.1.2 sharp.2.2.2⟩

/-- **C85** (values). Evaluating a piecewise affine function at a located point gives, up to `4 · 10⁻¹²` times its largest nodal
value, its affine extension from the triangle. -/
theorem C85_value {params : List ℚ} {B : ℚ} (hl : params.length = (nx + 1) * (ny + 1)) (hB : ∀ x ∈ params, |x| ≤ B) {p : Point}
    {t : Tri} {c w : Bary ℚ} (hs : 1 / 10 ^ 4 ≤ s)
    (h : locate (gridPoints (nx + 1) (ny + 1) s) p (RectGrid.triangles (nx + 1) (ny + 1)) = .ok (some ⟨t, c⟩))
    (hw : IsLocated nx ny s p t c w) :
    ∃ x a b d, p1Eval (gridPoints (nx + 1) (ny + 1) s) (RectGrid.triangles (nx + 1) (ny + 1)) params p = .ok x ∧
      pyGet params t.1 = .ok a ∧ pyGet params t.2.1 = .ok b ∧ pyGet params t.2.2 = .ok d ∧
      |x - (w.l1 * a + w.l2 * b + w.l3 * d)| ≤ 4 / 10 ^ 12 * B := by
  obtain ⟨p1, p2, p3, ht, g1, g2, g3, hsum, -, hlow, e1, e2, e3⟩ := hw
  have hlen : (gridPoints (nx + 1) (ny + 1) s).length = params.length := by
    simp [gridPoints, RectGrid.vertices, hl]
  have get : ∀ {v : ℕ} {q : Point}, pyGet (gridPoints (nx + 1) (ny + 1) s) v = .ok q →
      ∃ x, pyGet params v = .ok x ∧ |x| ≤ B := by
    intro v q hq
    unfold pyGet at hq ⊢
    have hv : v < params.length := by
      rw [← hlen]
      by_contra hn
      rw [List.getElem?_eq_none (not_lt.1 hn)] at hq
      cases hq
    rw [List.getElem?_eq_getElem hv]
    exact ⟨_, rfl, hB _ (List.getElem_mem hv)⟩
  obtain ⟨a, ga, ba⟩ := get g1
  obtain ⟨b, gb, bb⟩ := get g2
  obtain ⟨d, gd, bd⟩ := get g3
  have hB0 : 0 ≤ B := (abs_nonneg _).trans ba
  have hs2 : 1 / 10 ^ 8 ≤ s ^ 2 := by
    have : (1 / 10 ^ 4) ^ 2 ≤ s ^ 2 := by gcongr
    norm_num at *; linarith
  simp only [List.mem_cons, List.not_mem_nil, or_false, forall_eq_or_imp, forall_eq] at hlow
  have low : ∀ x : ℚ, -(1 / 4 / 10 ^ 9) / s ^ 2 ≤ x → -(1 / 40) ≤ x := fun x hx => by
    refine le_trans ?_ hx
    rw [le_div_iff₀ (by linarith [show (0 : ℚ) < 1 / 10 ^ 8 by norm_num])]
    norm_num at *
    linarith
  have l1 := low _ hlow.1
  have l2 := low _ hlow.2.1
  have l3 := low _ hlow.2.2
  have k : ∀ x y z : ℚ, -(1 / 40) ≤ x → -(1 / 40) ≤ y → -(1 / 40) ≤ z → x + y + z = 1 → |x| ≤ 11 / 10 := by
    intro x y z h1 h2 h3 h4
    rw [abs_le]; constructor <;> linarith
  have A1 : Ap c.l1 w.l1 (1 / 10 ^ 12) (11 / 10) := ⟨e1, k _ _ _ l1 l2 l3 hsum⟩
  have A2 : Ap c.l2 w.l2 (1 / 10 ^ 12) (11 / 10) := ⟨e2, k _ _ _ l2 l1 l3 (by linarith)⟩
  have A3 : Ap c.l3 w.l3 (1 / 10 ^ 12) (11 / 10) := ⟨e3, k _ _ _ l3 l1 l2 (by linarith)⟩
  have key := (((A1.mul (Ap.of ba)).fl.add (A2.mul (Ap.of bb)).fl).fl.add (A3.mul (Ap.of bd)).fl).fl
  refine ⟨_, a, b, d, ?_, ga, gb, gd, key.1.trans ?_⟩
  · simp only [p1Eval, h, bind_ok, p1Call, ga, gb, gd]
    rfl
  · ring_nf
    linarith

/-- A concrete case: the rectangle `1 × 1/2` with two cells of size `1/2`; the point `(1/4, 1/4)` on a diagonal is located, and
every piecewise affine function is evaluated there up to rounding. -/
theorem example_float_located : ∃ t c w,
    locate (gridPoints (2 + 1) (1 + 1) (1 / 2)) (1 / 4, 1 / 4) (RectGrid.triangles (2 + 1) (1 + 1)) = .ok (some ⟨t, c⟩) ∧
      IsLocated 2 1 (1 / 2) (1 / 4, 1 / 4) t c w ∧
    ∃ x a b d, p1Eval (gridPoints (2 + 1) (1 + 1) (1 / 2)) (RectGrid.triangles (2 + 1) (1 + 1)) [1, 2, 3, 4, 5, 6] (1 / 4, 1 / 4) =
        .ok x ∧ pyGet [1, 2, 3, 4, 5, 6] t.1 = .ok a ∧ pyGet [1, 2, 3, 4, 5, 6] t.2.1 = .ok b ∧
      pyGet [1, 2, 3, 4, 5, 6] t.2.2 = .ok d ∧ |x - (w.l1 * a + w.l2 * b + w.l3 * d)| ≤ 4 / 10 ^ 12 * 6 := by
  have f1 : fl ((2 : ℕ) * (1 / 2)) = 1 := by decide +kernel
  have f2 : fl ((1 : ℕ) * (1 / 2)) = 1 / 2 := by decide +kernel
  obtain ⟨t, c, w, h, hw⟩ := C85_located_partial (nx := 2) (ny := 1) (s := 1 / 2) (p := (1 / 4, 1 / 4)) (by norm_num) (by norm_num)
    (by norm_num) (by norm_num) (by norm_num) (by rw [f1]; norm_num) (by rw [f2]; norm_num)
  exact ⟨t, c, w, h, hw, C85_value (by rfl) (by simp; norm_num) (by norm_num) h hw⟩

/-- For large rectangles point location fails: the rectangle `1000 × 1000` with one cell, refined by 7. A vertex of the
refinement on the upper side is computed with the height `1000.0000000000001` and is found in no triangle of the coarse grid;
evaluating a function of the coarse grid there raises `ValueError` ("point lies outside the domain"). -/
theorem C85_large_false : ∃ t ∈ RectGrid.triangles 2 2, ∃ p1 p2 p3, pyGet (gridPoints 2 2 1000) t.1 = .ok p1 ∧
    pyGet (gridPoints 2 2 1000) t.2.1 = .ok p2 ∧ pyGet (gridPoints 2 2 1000) t.2.2 = .ok p3 ∧
    locate (gridPoints 2 2 1000) (finePoint 7 1 0 p1.1 p2.1 p3.1, finePoint 7 1 0 p1.2 p2.2 p3.2) (RectGrid.triangles 2 2) =
      .ok none ∧
    ∀ params, p1Eval (gridPoints 2 2 1000) (RectGrid.triangles 2 2) params
      (finePoint 7 1 0 p1.1 p2.1 p3.1, finePoint 7 1 0 p1.2 p2.2 p3.2) = .error .valueError := by
  have hp : gridPoints 2 2 1000 = [(0, 0), (1000, 0), (0, 1000), (1000, 1000)] := by decide +kernel
  have ht : RectGrid.triangles 2 2 = [(0, 1, 3), (3, 2, 0)] := by decide +kernel
  have c1 : containsPoint (0, 0) (1000, 0) (1000, 1000) (finePoint 7 1 0 1000 0 0, finePoint 7 1 0 1000 1000 0) = false := by
    decide +kernel
  have c2 : containsPoint (1000, 1000) (0, 1000) (0, 0) (finePoint 7 1 0 1000 0 0, finePoint 7 1 0 1000 1000 0) = false := by
    decide +kernel
  have key : locate (gridPoints 2 2 1000) (finePoint 7 1 0 1000 0 0, finePoint 7 1 0 1000 1000 0) (RectGrid.triangles 2 2) =
      .ok none := by
    rw [hp, ht]
    simp [locate, pyGet, c1, c2]
  refine ⟨(3, 2, 0), by rw [ht]; simp, (1000, 1000), (0, 1000), (0, 0), by rw [hp]; rfl, by rw [hp]; rfl, by rw [hp]; rfl, key,
    fun params => ?_⟩
  rw [p1Eval]
  simp only [key, bind_ok]

end Tve
