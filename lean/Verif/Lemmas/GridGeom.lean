import Verif.Lemmas.GridLattice

/-! Geometry of lattice grids: tiling, point location, vertex lookup. -/

namespace Tve

theorem cross_cyc (p q r : ℝ × ℝ) : cross q r p = cross p q r := by unfold cross; ring

theorem cross_add (p q r z : ℝ × ℝ) : cross p q z + cross q r z + cross r p z = cross p q r := by
  unfold cross; ring

/-- a nondegenerate positively oriented triangle is the intersection of three half planes -/
theorem mem_closedTriangle_iff {p q r z : ℝ × ℝ} (h : 0 < cross p q r) :
    z ∈ closedTriangle p q r ↔ 0 ≤ cross p q z ∧ 0 ≤ cross q r z ∧ 0 ≤ cross r p z := by
  constructor
  · rintro ⟨a, b, c, ha, hb, hc, hs, rfl⟩
    have e1 : cross p q (baryPoint p q r a b c) = c * cross p q r := by
      have : a = 1 - b - c := by linarith
      subst this; simp [baryPoint, cross]; ring
    have e2 : cross q r (baryPoint p q r a b c) = a * cross p q r := by
      have : b = 1 - a - c := by linarith
      subst this; simp [baryPoint, cross]; ring
    have e3 : cross r p (baryPoint p q r a b c) = b * cross p q r := by
      have : c = 1 - a - b := by linarith
      subst this; simp [baryPoint, cross]; ring
    rw [e1, e2, e3]
    exact ⟨mul_nonneg hc h.le, mul_nonneg ha h.le, mul_nonneg hb h.le⟩
  · rintro ⟨h1, h2, h3⟩
    have hs := cross_add p q r z
    refine ⟨cross q r z / cross p q r, cross r p z / cross p q r, cross p q z / cross p q r,
      div_nonneg h2 h.le, div_nonneg h3 h.le, div_nonneg h1 h.le, ?_, ?_⟩
    · field_simp; linarith
    · have hne := h.ne'
      ext
      · simp only [baryPoint, Prod.fst_add, Prod.smul_fst, smul_eq_mul]
        field_simp
        unfold cross; ring
      · simp only [baryPoint, Prod.snd_add, Prod.smul_snd, smul_eq_mul]
        field_simp
        unfold cross; ring

theorem interior_halfplane {p q z : ℝ × ℝ} {S : Set (ℝ × ℝ)} (hpq : p ≠ q) (hS : ∀ w ∈ S, 0 ≤ cross p q w)
    (hz : z ∈ interior S) : 0 < cross p q z := by
  have h0 := hS z (interior_subset hz)
  rcases h0.lt_or_eq with h | h
  · exact h
  exfalso
  let γ : ℝ → ℝ × ℝ := fun ε => (z.1 + ε * (q.2 - p.2), z.2 - ε * (q.1 - p.1))
  have hγ : Continuous γ := by fun_prop
  have hopen : IsOpen (γ ⁻¹' interior S) := isOpen_interior.preimage hγ
  have hmem : (0 : ℝ) ∈ γ ⁻¹' interior S := by
    show γ 0 ∈ interior S
    have : γ 0 = z := by simp [γ]
    rw [this]; exact hz
  obtain ⟨δ, hδ, hball⟩ := Metric.isOpen_iff.1 hopen 0 hmem
  have hin : δ / 2 ∈ Metric.ball (0 : ℝ) δ := by
    rw [Metric.mem_ball, Real.dist_eq, sub_zero, abs_of_pos (by linarith)]; linarith
  have h1 := hS _ (interior_subset (hball hin))
  have e : cross p q (γ (δ / 2)) = cross p q z - δ / 2 * ((q.1 - p.1) ^ 2 + (q.2 - p.2) ^ 2) := by
    simp only [γ, cross]; ring
  rw [e, ← h] at h1
  have hpos : 0 < (q.1 - p.1) ^ 2 + (q.2 - p.2) ^ 2 := by
    by_contra hcon
    have h2 : (q.1 - p.1) ^ 2 = 0 := by nlinarith [sq_nonneg (q.1 - p.1), sq_nonneg (q.2 - p.2)]
    have h3 : (q.2 - p.2) ^ 2 = 0 := by nlinarith [sq_nonneg (q.1 - p.1), sq_nonneg (q.2 - p.2)]
    apply hpq
    ext
    · have := pow_eq_zero_iff (two_ne_zero) |>.1 h2; linarith
    · have := pow_eq_zero_iff (two_ne_zero) |>.1 h3; linarith
  have : 0 < δ / 2 * ((q.1 - p.1) ^ 2 + (q.2 - p.2) ^ 2) := mul_pos (by linarith) hpos
  linarith

theorem interior_closedTriangle {p q r z : ℝ × ℝ} (h : 0 < cross p q r) (hz : z ∈ interior (closedTriangle p q r)) :
    0 < cross p q z ∧ 0 < cross q r z ∧ 0 < cross r p z := by
  have h1 : p ≠ q := by rintro rfl; simp [cross] at h
  have h2 : q ≠ r := by rintro rfl; rw [cross] at h; linarith
  have h3 : r ≠ p := by rintro rfl; simp [cross] at h
  exact ⟨interior_halfplane h1 (fun w hw => ((mem_closedTriangle_iff h).1 hw).1) hz,
    interior_halfplane h2 (fun w hw => ((mem_closedTriangle_iff h).1 hw).2.1) hz,
    interior_halfplane h3 (fun w hw => ((mem_closedTriangle_iff h).1 hw).2.2) hz⟩

/-! ### lattice triangles -/

/-- the closed triangle of a lattice triangle -/
def regionL (h : ℝ) (t : LP × LP × LP) : Set (ℝ × ℝ) := closedTriangle (pos h t.1) (pos h t.2.1) (pos h t.2.2)

theorem latTri_geom {nx ny : ℕ} {h : ℝ} {t : LP × LP × LP} (ht : LatTri nx ny t) :
    cross (pos h t.1) (pos h t.2.1) (pos h t.2.2) = h ^ 2 ∧ (pos h t.1).2 = (pos h t.2.1).2 ∧
      (pos h t.2.1).1 = (pos h t.2.2).1 := by
  obtain ⟨i, j, _, _, rfl | rfl⟩ := ht <;>
  · refine ⟨?_, rfl, rfl⟩
    simp only [cross, pos]; push_cast; ring

theorem mem_lowerL {h : ℝ} (hh : 0 < h) {i j : ℕ} {z : ℝ × ℝ} :
    z ∈ regionL h ((i, j), (i + 1, j), (i + 1, j + 1)) ↔
      j * h ≤ z.2 ∧ z.1 ≤ (i + 1) * h ∧ z.2 - j * h ≤ z.1 - i * h := by
  have hc := (latTri_geom (h := h) (nx := i + 1) (ny := j + 1) (t := ((i, j), (i + 1, j), (i + 1, j + 1)))
    ⟨i, j, by omega, by omega, .inl rfl⟩).1
  have e1 : cross (pos h (i, j)) (pos h (i + 1, j)) z = h * (z.2 - j * h) := by
    simp only [cross, pos]; push_cast; ring
  have e2 : cross (pos h (i + 1, j)) (pos h (i + 1, j + 1)) z = h * ((i + 1) * h - z.1) := by
    simp only [cross, pos]; push_cast; ring
  have e3 : cross (pos h (i + 1, j + 1)) (pos h (i, j)) z = h * ((z.1 - i * h) - (z.2 - j * h)) := by
    simp only [cross, pos]; push_cast; ring
  rw [regionL, mem_closedTriangle_iff (by rw [hc]; positivity)]
  simp only [e1, e2, e3]
  rw [mul_nonneg_iff_of_pos_left hh, mul_nonneg_iff_of_pos_left hh, mul_nonneg_iff_of_pos_left hh,
    sub_nonneg, sub_nonneg, sub_nonneg]

theorem mem_upperL {h : ℝ} (hh : 0 < h) {i j : ℕ} {z : ℝ × ℝ} :
    z ∈ regionL h ((i + 1, j + 1), (i, j + 1), (i, j)) ↔
      z.2 ≤ (j + 1) * h ∧ i * h ≤ z.1 ∧ z.1 - i * h ≤ z.2 - j * h := by
  have hc := (latTri_geom (h := h) (nx := i + 1) (ny := j + 1) (t := ((i + 1, j + 1), (i, j + 1), (i, j)))
    ⟨i, j, by omega, by omega, .inr rfl⟩).1
  have e1 : cross (pos h (i + 1, j + 1)) (pos h (i, j + 1)) z = h * ((j + 1) * h - z.2) := by
    simp only [cross, pos]; push_cast; ring
  have e2 : cross (pos h (i, j + 1)) (pos h (i, j)) z = h * (z.1 - i * h) := by
    simp only [cross, pos]; push_cast; ring
  have e3 : cross (pos h (i, j)) (pos h (i + 1, j + 1)) z = h * ((z.2 - j * h) - (z.1 - i * h)) := by
    simp only [cross, pos]; push_cast; ring
  rw [regionL, mem_closedTriangle_iff (by rw [hc]; positivity)]
  simp only [e1, e2, e3]
  rw [mul_nonneg_iff_of_pos_left hh, mul_nonneg_iff_of_pos_left hh, mul_nonneg_iff_of_pos_left hh,
    sub_nonneg, sub_nonneg, sub_nonneg]

theorem interior_lowerL {h : ℝ} (hh : 0 < h) {i j : ℕ} {z : ℝ × ℝ}
    (hz : z ∈ interior (regionL h ((i, j), (i + 1, j), (i + 1, j + 1)))) :
      j * h < z.2 ∧ z.1 < (i + 1) * h ∧ z.2 - j * h < z.1 - i * h := by
  have hc := (latTri_geom (h := h) (nx := i + 1) (ny := j + 1) (t := ((i, j), (i + 1, j), (i + 1, j + 1)))
    ⟨i, j, by omega, by omega, .inl rfl⟩).1
  have e1 : cross (pos h (i, j)) (pos h (i + 1, j)) z = h * (z.2 - j * h) := by
    simp only [cross, pos]; push_cast; ring
  have e2 : cross (pos h (i + 1, j)) (pos h (i + 1, j + 1)) z = h * ((i + 1) * h - z.1) := by
    simp only [cross, pos]; push_cast; ring
  have e3 : cross (pos h (i + 1, j + 1)) (pos h (i, j)) z = h * ((z.1 - i * h) - (z.2 - j * h)) := by
    simp only [cross, pos]; push_cast; ring
  have := interior_closedTriangle (by rw [hc]; positivity) hz
  simp only [e1, e2, e3] at this
  rw [mul_pos_iff_of_pos_left hh, mul_pos_iff_of_pos_left hh, mul_pos_iff_of_pos_left hh,
    sub_pos, sub_pos, sub_pos] at this
  exact this

theorem interior_upperL {h : ℝ} (hh : 0 < h) {i j : ℕ} {z : ℝ × ℝ}
    (hz : z ∈ interior (regionL h ((i + 1, j + 1), (i, j + 1), (i, j)))) :
      z.2 < (j + 1) * h ∧ i * h < z.1 ∧ z.1 - i * h < z.2 - j * h := by
  have hc := (latTri_geom (h := h) (nx := i + 1) (ny := j + 1) (t := ((i + 1, j + 1), (i, j + 1), (i, j)))
    ⟨i, j, by omega, by omega, .inr rfl⟩).1
  have e1 : cross (pos h (i + 1, j + 1)) (pos h (i, j + 1)) z = h * ((j + 1) * h - z.2) := by
    simp only [cross, pos]; push_cast; ring
  have e2 : cross (pos h (i, j + 1)) (pos h (i, j)) z = h * (z.1 - i * h) := by
    simp only [cross, pos]; push_cast; ring
  have e3 : cross (pos h (i, j)) (pos h (i + 1, j + 1)) z = h * ((z.2 - j * h) - (z.1 - i * h)) := by
    simp only [cross, pos]; push_cast; ring
  have := interior_closedTriangle (by rw [hc]; positivity) hz
  simp only [e1, e2, e3] at this
  rw [mul_pos_iff_of_pos_left hh, mul_pos_iff_of_pos_left hh, mul_pos_iff_of_pos_left hh,
    sub_pos, sub_pos, sub_pos] at this
  exact this

/-- cell index of a coordinate -/
theorem exists_cell {n : ℕ} (hn : 1 ≤ n) {h x : ℝ} (hh : 0 < h) (h0 : 0 ≤ x) (h1 : x ≤ n * h) :
    ∃ i < n, (i : ℝ) * h ≤ x ∧ x ≤ (i + 1) * h := by
  by_cases hx : x < n * h
  · refine ⟨⌊x / h⌋₊, ?_, ?_, ?_⟩
    · exact (Nat.floor_lt (div_nonneg h0 hh.le)).2 ((div_lt_iff₀ hh).2 hx)
    · exact (le_div_iff₀ hh).1 (Nat.floor_le (div_nonneg h0 hh.le))
    · exact ((div_lt_iff₀ hh).1 (Nat.lt_floor_add_one (x / h))).le
  · have hx' : x = n * h := le_antisymm h1 (not_lt.1 hx)
    have hc : ((n - 1 : ℕ) : ℝ) = (n : ℝ) - 1 := by push_cast [Nat.cast_sub hn]; ring
    refine ⟨n - 1, by omega, ?_, ?_⟩
    · rw [hc, hx']; nlinarith
    · rw [hc, hx']; apply le_of_eq; ring

theorem cover_box {nx ny : ℕ} (hx : 1 ≤ nx) (hy : 1 ≤ ny) {h : ℝ} (hh : 0 < h) {z : ℝ × ℝ} (h1 : 0 ≤ z.1)
    (h2 : z.1 ≤ nx * h) (h3 : 0 ≤ z.2) (h4 : z.2 ≤ ny * h) : ∃ t, LatTri nx ny t ∧ z ∈ regionL h t := by
  obtain ⟨i, hi, hi1, hi2⟩ := exists_cell hx hh h1 h2
  obtain ⟨j, hj, hj1, hj2⟩ := exists_cell hy hh h3 h4
  by_cases hd : z.2 - j * h ≤ z.1 - i * h
  · exact ⟨_, ⟨i, j, hi, hj, .inl rfl⟩, (mem_lowerL hh).2 ⟨hj1, hi2, hd⟩⟩
  · exact ⟨_, ⟨i, j, hi, hj, .inr rfl⟩, (mem_upperL hh).2 ⟨hj2, hi1, (not_le.1 hd).le⟩⟩

theorem latTri_box {nx ny : ℕ} {h : ℝ} (hh : 0 < h) {t : LP × LP × LP} (ht : LatTri nx ny t) {z : ℝ × ℝ}
    (hz : z ∈ regionL h t) : 0 ≤ z.1 ∧ z.1 ≤ nx * h ∧ 0 ≤ z.2 ∧ z.2 ≤ ny * h := by
  obtain ⟨i, j, hi, hj, ht⟩ := ht
  have hi0 : (0 : ℝ) ≤ i * h := by positivity
  have hj0 : (0 : ℝ) ≤ j * h := by positivity
  have hi' : ((i : ℝ) + 1) * h ≤ nx * h := mul_le_mul_of_nonneg_right (by exact_mod_cast hi) hh.le
  have hj' : ((j : ℝ) + 1) * h ≤ ny * h := mul_le_mul_of_nonneg_right (by exact_mod_cast hj) hh.le
  rcases ht with rfl | rfl
  · obtain ⟨h1, h2, h3⟩ := (mem_lowerL hh).1 hz
    refine ⟨?_, ?_, ?_, ?_⟩ <;> nlinarith
  · obtain ⟨h1, h2, h3⟩ := (mem_upperL hh).1 hz
    refine ⟨?_, ?_, ?_, ?_⟩ <;> nlinarith

theorem cell_unique {h x : ℝ} (hh : 0 < h) {i i' : ℕ} (h1 : (i : ℝ) * h < x) (h2 : x < (i + 1) * h)
    (h3 : (i' : ℝ) * h < x) (h4 : x < (i' + 1) * h) : i = i' := by
  have a : (i : ℝ) < i' + 1 := by nlinarith
  have b : (i' : ℝ) < i + 1 := by nlinarith
  have a' : i < i' + 1 := by exact_mod_cast a
  have b' : i' < i + 1 := by exact_mod_cast b
  omega

theorem interior_disjointL {nx ny : ℕ} {h : ℝ} (hh : 0 < h) {t t' : LP × LP × LP} (ht : LatTri nx ny t)
    (ht' : LatTri nx ny t') {z : ℝ × ℝ} (h1 : z ∈ interior (regionL h t)) (h2 : z ∈ interior (regionL h t')) :
    t = t' := by
  obtain ⟨i, j, hi, hj, ht⟩ := ht
  obtain ⟨i', j', hi', hj', ht'⟩ := ht'
  rcases ht with rfl | rfl <;> rcases ht' with rfl | rfl
  · obtain ⟨a1, a2, a3⟩ := interior_lowerL hh h1
    obtain ⟨b1, b2, b3⟩ := interior_lowerL hh h2
    obtain rfl := cell_unique hh (x := z.1) (by linarith) a2 (by linarith) b2
    obtain rfl := cell_unique hh (x := z.2) a1 (by linarith) b1 (by linarith)
    rfl
  · exfalso
    obtain ⟨a1, a2, a3⟩ := interior_lowerL hh h1
    obtain ⟨b1, b2, b3⟩ := interior_upperL hh h2
    obtain rfl := cell_unique hh (x := z.1) (by linarith) a2 b2 (by linarith)
    obtain rfl := cell_unique hh (x := z.2) a1 (by linarith) (by linarith) b1
    linarith
  · exfalso
    obtain ⟨a1, a2, a3⟩ := interior_upperL hh h1
    obtain ⟨b1, b2, b3⟩ := interior_lowerL hh h2
    obtain rfl := cell_unique hh (x := z.1) a2 (by linarith) (by linarith) b2
    obtain rfl := cell_unique hh (x := z.2) (by linarith) a1 b1 (by linarith)
    linarith
  · obtain ⟨a1, a2, a3⟩ := interior_upperL hh h1
    obtain ⟨b1, b2, b3⟩ := interior_upperL hh h2
    obtain rfl := cell_unique hh (x := z.1) a2 (by linarith) b2 (by linarith)
    obtain rfl := cell_unique hh (x := z.2) (by linarith) a1 (by linarith) b1
    rfl

section
variable {g : Grid ℝ} {nx ny : ℕ} {h : ℝ} {P : List LP} {dg : Bool} {E : List (LP × LP)}
  {T : List (LP × LP × LP)} {BV : List LP} {BE : List (LP × LP)}

namespace Lattice

theorem region_labT (L : Lattice g nx ny h P dg E T BV BE) {t : LP × LP × LP} (ht : t ∈ T) :
    g.region (labT P t) = regionL h t := by
  have hm := L.memT_P ht
  ext z
  constructor
  · rintro ⟨p, q, r, h1, h2, h3, hz⟩
    have e1 := (L.at_lab hm.1).symm.trans h1
    have e2 := (L.at_lab hm.2.1).symm.trans h2
    have e3 := (L.at_lab hm.2.2).symm.trans h3
    rw [← vec2_inj (Option.some.inj e1), ← vec2_inj (Option.some.inj e2), ← vec2_inj (Option.some.inj e3)] at hz
    exact hz
  · intro hz
    exact ⟨_, _, _, L.at_lab hm.1, L.at_lab hm.2.1, L.at_lab hm.2.2, hz⟩

theorem tri_geom (L : Lattice g nx ny h P dg E T BV BE) {t : Tri} (ht : t ∈ g.triangles) :
    ∃ p q r, g.At t.1 p ∧ g.At t.2.1 q ∧ g.At t.2.2 r ∧ cross p q r = h ^ 2 ∧ p.2 = q.2 ∧ q.1 = r.1 := by
  rw [L.triangles] at ht
  obtain ⟨t, ht', rfl⟩ := List.mem_map.1 ht
  have hm := L.memT_P ht'
  have := latTri_geom (h := h) ((L.memT t).1 ht')
  exact ⟨_, _, _, L.at_lab hm.1, L.at_lab hm.2.1, L.at_lab hm.2.2, this⟩

theorem covers (L : Lattice g nx ny h P dg E T BV BE) (z : ℝ × ℝ) :
    (∃ t ∈ g.triangles, z ∈ g.region t) ↔ 0 ≤ z.1 ∧ z.1 ≤ nx * h ∧ 0 ≤ z.2 ∧ z.2 ≤ ny * h := by
  constructor
  · rintro ⟨t, ht, hz⟩
    rw [L.triangles] at ht
    obtain ⟨t, ht', rfl⟩ := List.mem_map.1 ht
    rw [L.region_labT ht'] at hz
    exact latTri_box L.h_pos ((L.memT t).1 ht') hz
  · rintro ⟨h1, h2, h3, h4⟩
    obtain ⟨t, ht, hz⟩ := cover_box L.hx L.hy L.h_pos h1 h2 h3 h4
    have ht' := (L.memT t).2 ht
    refine ⟨labT P t, by rw [L.triangles]; exact List.mem_map_of_mem ht', ?_⟩
    rw [L.region_labT ht']; exact hz

theorem interiors (L : Lattice g nx ny h P dg E T BV BE) {t t' : Tri} (ht : t ∈ g.triangles) (ht' : t' ∈ g.triangles)
    (hne : t ≠ t') : Disjoint (interior (g.region t)) (interior (g.region t')) := by
  rw [L.triangles] at ht ht'
  obtain ⟨t, h1, rfl⟩ := List.mem_map.1 ht
  obtain ⟨t', h2, rfl⟩ := List.mem_map.1 ht'
  rw [L.region_labT h1, L.region_labT h2, Set.disjoint_left]
  intro z hz hz'
  exact hne (by rw [interior_disjointL L.h_pos ((L.memT t).1 h1) ((L.memT t').1 h2) hz hz'])

theorem points_planar (L : Lattice g nx ny h P dg E T BV BE) :
    g.points = planar P.length (fun v => pos h (co P v)) := by
  rw [L.points, planar]
  apply List.ext_getElem
  · simp
  · intro i h1 h2
    simp only [List.length_map] at h1
    simp [co, h1]

theorem areas (L : Lattice g nx ny h P dg E T BV BE) (r : TriRule ℝ) :
    Integrator.new r g.triangles g.points = .ok ⟨g.triangles, r, g.triangles.map fun _ => h ^ 2 / 2⟩ := by
  rw [L.points_planar, integrator_new_ok]
  · congr 2
    apply List.map_congr_left
    intro t ht
    rw [L.triangles] at ht
    obtain ⟨t, ht', rfl⟩ := List.mem_map.1 ht
    have hm := L.memT_P ht'
    simp only [triArea, labT, co_lab hm.1, co_lab hm.2.1, co_lab hm.2.2]
    rw [(latTri_geom (h := h) ((L.memT t).1 ht')).1, abs_of_nonneg (sq_nonneg h)]
  · intro t ht
    rw [L.triangles] at ht
    obtain ⟨t, ht', rfl⟩ := List.mem_map.1 ht
    have hm := L.memT_P ht'
    exact ⟨lab_lt hm.1, lab_lt hm.2.1, lab_lt hm.2.2⟩

end Lattice
end
end Tve
