import Verif.Props.GridEq
import Verif.Lemmas.RefineEdge

/-!
# Properties C22-C27: refinement
-/

namespace Tve

/-! ### C22 -/

/-- A refinement factor below one is rejected. -/
theorem C22_factor_below_one {K : Type} [Field K] [LinearOrder K] [PySqrt K] (d : RectDomain K) (g : Grid K) {n : ℤ}
    (hn : n < 1) : d.refine g n = .error .valueError := by
  rw [RectDomain.refine, if_pos hn]

/-- the lattice description of a refinement -/
theorem LibraryGrid.refinedOf {g : Grid ℝ} {nx ny : ℕ} {s : ℝ} (G : LibraryGrid g nx ny s) {n : ℕ} (hn : 1 ≤ n)
    (hs : 1 / 10 ^ 15 ≤ s / n) {d : RectDomain ℝ} {r : RefinedGrid ℝ} (hr : d.refine g n = .ok r) :
    ∃ P dg E T BV BE DV DE NV NE, LGrid g nx ny s P dg E T BV BE DV DE NV NE ∧
      RefinedOf n g s P dg T BV DV NV BE DE NE r := by
  obtain ⟨P, dg, E, T, BV, BE, DV, DE, NV, NE, h⟩ := G.lgrid
  obtain ⟨r', hr', R⟩ := refine_ok hn d h.lat hs h.pd h.pn
  rw [hr] at hr'
  cases hr'
  exact ⟨P, dg, E, T, BV, BE, DV, DE, NV, NE, h, R⟩

/-- What every grid of the library looks like: `(nx + 1) (ny + 1)` vertices at the lattice points of mesh size `s`, and
`2 nx ny` counterclockwise right triangles with legs `s`, the right angle at the second vertex. -/
theorem C22_structure {g : Grid ℝ} {nx ny : ℕ} {s : ℝ} (G : LibraryGrid g nx ny s) :
    0 < s ∧ 1 ≤ nx ∧ 1 ≤ ny ∧ g.vertices = List.range ((nx + 1) * (ny + 1)) ∧
    g.points.length = (nx + 1) * (ny + 1) ∧
    (∀ q, (∃ v, g.At v q) ↔ ∃ i j : ℕ, i ≤ nx ∧ j ≤ ny ∧ q = (i * s, j * s)) ∧
    g.triangles.length = 2 * (nx * ny) ∧
    ∀ t ∈ g.triangles, ∃ p q r, g.At t.1 p ∧ g.At t.2.1 q ∧ g.At t.2.2 r ∧ dist2 p q = s ∧ dist2 q r = s ∧
      (p.1 - q.1) * (r.1 - q.1) + (p.2 - q.2) * (r.2 - q.2) = 0 ∧ 0 < cross p q r := by
  obtain ⟨P, dg, E, T, BV, BE, L⟩ := G.lattice
  have hs := L.h_pos
  refine ⟨hs, L.hx, L.hy, by rw [L.vertices, L.lengthP], by rw [L.points, List.length_map, L.lengthP], ?_,
    by rw [L.triangles, List.length_map, L.lengthT], ?_⟩
  · intro q
    constructor
    · rintro ⟨v, hv⟩
      obtain ⟨a, ha, -, rfl⟩ := L.at_iff.1 hv
      obtain ⟨h1, h2⟩ := (L.memP a).1 ha
      exact ⟨a.1, a.2, h1, h2, rfl⟩
    · rintro ⟨i, j, hi, hj, rfl⟩
      exact ⟨_, L.at_lab ((L.memP (i, j)).2 ⟨hi, hj⟩)⟩
  · intro t ht
    rw [L.triangles] at ht
    obtain ⟨t, ht', rfl⟩ := List.mem_map.1 ht
    replace ht := ht'
    have hP := L.memT_P ht
    refine ⟨_, _, _, L.at_lab hP.1, L.at_lab hP.2.1, L.at_lab hP.2.2, ?_⟩
    have hA := (latTri_geom (h := s) ((L.memT t).1 ht)).1
    rw [hA]
    have hsq : Real.sqrt (s ^ 2) = s := Real.sqrt_sq hs.le
    obtain ⟨i, j, hi, hj, rfl | rfl⟩ := latTri_cases ((L.memT t).1 ht) <;>
      simp only [lowT, uppT, pos, dist2] <;> push_cast <;> refine ⟨?_, ?_, ?_, by positivity⟩
    · rw [show ((i : ℝ) * s - (i + 1) * s) ^ 2 + ((j : ℝ) * s - j * s) ^ 2 = s ^ 2 by ring, hsq]
    · rw [show (((i : ℝ) + 1) * s - (i + 1) * s) ^ 2 + ((j : ℝ) * s - (j + 1) * s) ^ 2 = s ^ 2 by ring, hsq]
    · ring
    · rw [show (((i : ℝ) + 1) * s - i * s) ^ 2 + (((j : ℝ) + 1) * s - (j + 1) * s) ^ 2 = s ^ 2 by ring, hsq]
    · rw [show ((i : ℝ) * s - i * s) ^ 2 + (((j : ℝ) + 1) * s - j * s) ^ 2 = s ^ 2 by ring, hsq]
    · ring

/-- Refining a grid of the library never fails, the result is a grid of the library with `n` times as many cells per
direction, its first vertices and points are those of the coarse grid, and it has `n²` times as many triangles. -/
theorem C22_refine {g : Grid ℝ} {nx ny : ℕ} {s : ℝ} (G : LibraryGrid g nx ny s) (d : RectDomain ℝ) {n : ℕ}
    (hn : 1 ≤ n) (hs : 1 / 10 ^ 15 ≤ s / n) :
    ∃ r, d.refine g n = .ok r ∧ LibraryGrid r.toGrid (n * nx) (n * ny) (s / n) ∧ r.coarse = g ∧
      g.vertices <+: r.toGrid.vertices ∧ g.points <+: r.toGrid.points ∧
      r.toGrid.vertices.length = (n * nx + 1) * (n * ny + 1) ∧
      r.toGrid.triangles.length = n ^ 2 * g.triangles.length := by
  obtain ⟨P, dg, E, T, BV, BE, DV, DE, NV, NE, h⟩ := G.lgrid
  obtain ⟨r, hr, R⟩ := refine_ok hn d h.lat hs h.pd h.pn
  have L := h.lat
  have F := LibraryGrid.refine G hn hs hr
  have S1 := C22_structure G
  have S2 := C22_structure F
  have hp : g.points <+: r.toGrid.points := by
    rw [R.grid, L.points, ← points_scale hn]
    exact (base_prefix n P T).map _
  refine ⟨r, hr, F, R.coarse, ?_, hp, by rw [S2.2.2.2.1, List.length_range], ?_⟩
  · rw [G.wellFormed.vertices, F.wellFormed.vertices]
    have := hp.length_le
    refine ⟨(List.range (r.toGrid.points.length - g.points.length)).map (g.points.length + ·), ?_⟩
    rw [← List.range_add, Nat.add_sub_cancel' this]
  · rw [S1.2.2.2.2.2.2.1, S2.2.2.2.2.2.2.1]; ring

/-! ### C27 -/

theorem closedTriangle_sub {p q r a b c : ℝ × ℝ} (ha : a ∈ closedTriangle p q r) (hb : b ∈ closedTriangle p q r)
    (hc : c ∈ closedTriangle p q r) : closedTriangle a b c ⊆ closedTriangle p q r := by
  obtain ⟨a1, a2, a3, a4, a5, a6, a7, rfl⟩ := ha
  obtain ⟨b1, b2, b3, b4, b5, b6, b7, rfl⟩ := hb
  obtain ⟨c1, c2, c3, c4, c5, c6, c7, rfl⟩ := hc
  rintro z ⟨x, y, w, hx, hy, hw, hsum, rfl⟩
  refine ⟨x * a1 + y * b1 + w * c1, x * a2 + y * b2 + w * c2, x * a3 + y * b3 + w * c3, by positivity, by positivity,
    by positivity, ?_, ?_⟩
  · calc _ = x * (a1 + a2 + a3) + y * (b1 + b2 + b3) + w * (c1 + c2 + c3) := by ring
      _ = 1 := by rw [a7, b7, c7]; linarith
  · simp only [baryPoint]; module

section
variable {g : Grid ℝ} {nx ny : ℕ} {h : ℝ} {P : List LP} {dg : Bool} {E : List (LP × LP)}
  {T : List (LP × LP × LP)} {BV : List LP} {BE : List (LP × LP)} {DV : List LP} {DE : List (LP × LP)}
  {NV : List LP} {NE : List (LP × LP)} {r : RefinedGrid ℝ} {n : ℕ}

/-- the entry of the dictionaries for a fine triangle -/
theorem RefinedOf.tri_entry (R : RefinedOf n g h P dg T BV DV NV BE DE NE r) {f : Tri} (hf : f ∈ r.toGrid.triangles) :
    ∃ t ∈ T, ∃ K ∈ fineK n, f = labT (Pts n P T) (mpT n t K) ∧ r.coarseTriangle.get f = .ok (labT P t) ∧
      r.coarseBary.get f = .ok (bary3 n K) := by
  rw [R.grid] at hf
  obtain ⟨f', hf', rfl⟩ := List.mem_map.1 hf
  obtain ⟨t, ht, hf'⟩ := List.mem_flatMap.1 hf'
  obtain ⟨K, hK, rfl⟩ := List.mem_map.1 hf'
  rcases R.tris (labT (Pts n P T) (mpT n t K)) with ⟨-, -, h3⟩ | ⟨a, b, h1, h2, h3⟩
  · exact absurd (List.mem_flatMap.2 ⟨t, ht, List.mem_map_of_mem hK⟩) (h3 (labT P t) (bary3 n K))
  · obtain ⟨t', ht', h3⟩ := List.mem_flatMap.1 h3
    obtain ⟨K', hK', h3⟩ := List.mem_map.1 h3
    simp only [Prod.mk.injEq] at h3
    obtain ⟨e1, rfl, rfl⟩ := h3
    exact ⟨t', ht', K', hK', e1.symm, PyDict.get_of_get? h1, PyDict.get_of_get? h2⟩

theorem fine_points (H : LGrid g nx ny h P dg E T BV BE DV DE NV NE) (hn : 1 ≤ n)
    (R : RefinedOf n g h P dg T BV DV NV BE DE NE r) {t : LP × LP × LP} (ht : t ∈ T) {k l : ℕ} (hkl : k + l ≤ n) :
    r.toGrid.At (lab (Pts n P T) (mp n t (k, l))) (baryPoint (pos h t.1) (pos h t.2.1) (pos h t.2.2)
      (1 - k / n - l / n) (k / n) (l / n)) := by
  have := (H.refined hn R).lat.at_lab (mem_Pts_mp (P := P) ht hkl)
  rwa [pos_mp hn t hkl] at this

theorem weights_nonneg {n k l : ℕ} (hn : 1 ≤ n) (hkl : k + l ≤ n) :
    (0 : ℝ) ≤ 1 - k / n - l / n ∧ (0 : ℝ) ≤ k / n ∧ (0 : ℝ) ≤ l / n := by
  have h0 : (0 : ℝ) < n := by exact_mod_cast hn
  refine ⟨?_, by positivity, by positivity⟩
  have : (k : ℝ) / n + l / n ≤ 1 := by rw [← add_div, div_le_one h0]; exact_mod_cast hkl
  linarith

end

theorem region_eq {g : Grid ℝ} {t : Tri} {p q r : ℝ × ℝ} (h1 : g.At t.1 p) (h2 : g.At t.2.1 q) (h3 : g.At t.2.2 r) :
    g.region t = closedTriangle p q r := by
  ext z
  constructor
  · rintro ⟨p', q', r', e1, e2, e3, hz⟩
    rwa [at_unique e1 h1, at_unique e2 h2, at_unique e3 h3] at hz
  · intro hz; exact ⟨p, q, r, h1, h2, h3, hz⟩

/-- Every fine triangle is counterclockwise, lies inside its coarse triangle and has a fraction `1 / n²` of its area. -/
theorem C27_fine_triangle {g : Grid ℝ} {nx ny : ℕ} {s : ℝ} (G : LibraryGrid g nx ny s) {n : ℕ} (hn : 1 ≤ n)
    (hs : 1 / 10 ^ 15 ≤ s / n) {d : RectDomain ℝ} {r : RefinedGrid ℝ} (hr : d.refine g n = .ok r) :
    ∀ f ∈ r.toGrid.triangles, ∃ t ∈ g.triangles,
      (∀ c b, r.toCoarseBarycentricPoint ⟨f, c⟩ = .ok b → b.triangle = t) ∧
      r.toGrid.region f ⊆ g.region t ∧ triArea r.toGrid.xy f = triArea g.xy t / n ^ 2 ∧
      0 < cross (r.toGrid.xy f.1) (r.toGrid.xy f.2.1) (r.toGrid.xy f.2.2) := by
  obtain ⟨P, dg, E, T, BV, BE, DV, DE, NV, NE, H, R⟩ := G.refinedOf hn hs hr
  intro f hf
  have hpos := H.lat.h_pos
  obtain ⟨t, ht, K, hK, rfl, e1, e2⟩ := R.tri_entry hf
  have hmem : labT P t ∈ g.triangles := by rw [H.lat.triangles]; exact List.mem_map_of_mem ht
  obtain ⟨k1, k2, k3⟩ := fineK_bounds hK
  have f1 := fine_points H hn R ht k1
  have f2 := fine_points H hn R ht k2
  have f3 := fine_points H hn R ht k3
  have hP := H.lat.memT_P ht
  have c1 := H.lat.at_lab hP.1
  have c2 := H.lat.at_lab hP.2.1
  have c3 := H.lat.at_lab hP.2.2
  have hcoarse := (latTri_geom (h := s) ((H.lat.memT t).1 ht)).1
  have hfine := (latTri_geom (h := s / n) (fineTris_lat ((H.lat.memT t).1 ht)
    (List.mem_map_of_mem (f := mpT n t) hK))).1
  have hn0 : (n : ℝ) ≠ 0 := by positivity
  have hcr : cross (r.toGrid.xy (labT (Pts n P T) (mpT n t K)).1) (r.toGrid.xy (labT (Pts n P T) (mpT n t K)).2.1)
      (r.toGrid.xy (labT (Pts n P T) (mpT n t K)).2.2) = (s / n) ^ 2 := by
    simp only [labT, mpT]
    rw [xy_of_at f1, xy_of_at f2, xy_of_at f3, ← hfine, ← pos_mp hn t k1, ← pos_mp hn t k2, ← pos_mp hn t k3]
    rfl
  refine ⟨labT P t, hmem, ?_, ?_, ?_, ?_⟩
  · intro c b hb
    rw [RefinedGrid.toCoarseBarycentricPoint, RefinedGrid.storedTriangle, if_pos hf, bind_ok] at hb
    simp only [e1, e2, bind_ok, pure_eq_ok] at hb
    cases hb; rfl
  · rw [region_eq (g := g) (t := labT P t) c1 c2 c3, region_eq (t := labT (Pts n P T) (mpT n t K)) f1 f2 f3]
    refine closedTriangle_sub ?_ ?_ ?_
    · obtain ⟨a, b, c⟩ := weights_nonneg hn k1
      exact ⟨_, _, _, a, b, c, by ring, rfl⟩
    · obtain ⟨a, b, c⟩ := weights_nonneg hn k2
      exact ⟨_, _, _, a, b, c, by ring, rfl⟩
    · obtain ⟨a, b, c⟩ := weights_nonneg hn k3
      exact ⟨_, _, _, a, b, c, by ring, rfl⟩
  · rw [triArea, hcr, triArea]
    simp only [labT]
    rw [xy_of_at c1, xy_of_at c2, xy_of_at c3, hcoarse, abs_of_nonneg (by positivity), abs_of_nonneg (by positivity)]
    field_simp
  · rw [hcr]
    have : (0 : ℝ) < n := by exact_mod_cast hn
    positivity

/-- the area of a library triangle -/
theorem library_area {g : Grid ℝ} {nx ny : ℕ} {s : ℝ} (G : LibraryGrid g nx ny s) {t : Tri} (ht : t ∈ g.triangles) :
    triArea g.xy t = s ^ 2 / 2 := by
  obtain ⟨P, dg, E, T, BV, BE, L⟩ := G.lattice
  rw [L.triangles] at ht
  obtain ⟨t, ht', rfl⟩ := List.mem_map.1 ht
  replace ht := ht'
  have hP := L.memT_P ht
  have hA := (latTri_geom (h := s) ((L.memT t).1 ht)).1
  simp only [triArea, labT]
  rw [xy_of_at (L.at_lab hP.1), xy_of_at (L.at_lab hP.2.1), xy_of_at (L.at_lab hP.2.2), hA,
    abs_of_nonneg (by positivity)]

/-- the area of a library grid is the area of its rectangle -/
theorem library_total_area {g : Grid ℝ} {nx ny : ℕ} {s : ℝ} (G : LibraryGrid g nx ny s) :
    (g.triangles.map (triArea g.xy)).sum = (nx * s) * (ny * s) := by
  rw [List.map_congr_left (g := fun _ => s ^ 2 / 2) fun t ht => library_area G ht, List.map_const', List.sum_replicate,
    (C22_structure G).2.2.2.2.2.2.1]
  rw [nsmul_eq_mul]; push_cast; ring

/-- The fine areas sum to the coarse total area. -/
theorem C27_total_area {g : Grid ℝ} {nx ny : ℕ} {s : ℝ} (G : LibraryGrid g nx ny s) {n : ℕ} (hn : 1 ≤ n)
    (hs : 1 / 10 ^ 15 ≤ s / n) {d : RectDomain ℝ} {r : RefinedGrid ℝ} (hr : d.refine g n = .ok r) :
    (r.toGrid.triangles.map (triArea r.toGrid.xy)).sum = (g.triangles.map (triArea g.xy)).sum := by
  rw [library_total_area G, library_total_area (LibraryGrid.refine G hn hs hr)]
  have : (n : ℝ) ≠ 0 := by positivity
  push_cast; field_simp

/-- The edges of a grid of the library (refined or not) are exactly the sides of its triangles, each listed once. -/
theorem C27_edges_are_sides {g : Grid ℝ} {nx ny : ℕ} {s : ℝ} (G : LibraryGrid g nx ny s) :
    (g.edges.map Edge.undirected).Nodup ∧
    ∀ x, x ∈ g.edges.map Edge.undirected ↔ ∃ t ∈ g.triangles, x ∈ t.sides := by
  obtain ⟨P, dg, E, T, BV, BE, L⟩ := G.lattice
  exact ⟨L.nodup_undirected, L.edges_iff_sides⟩

/-! ### C24 -/

/-- A triangle none of whose rotations belongs to the refined grid is rejected. -/
theorem C24_foreign_triangle {K : Type} [Field K] (r : RefinedGrid K) (f : BPoint K)
    (h : ∀ t ∈ r.toGrid.triangles, Tri.cycle t ≠ Tri.cycle f.triangle) :
    r.toCoarseBarycentricPoint f = .error .valueError := by
  have h0 : f.triangle ∉ r.toGrid.triangles := fun hm => h _ hm rfl
  have h1 : (f.triangle.2.1, f.triangle.2.2, f.triangle.1) ∉ r.toGrid.triangles := fun hm =>
    h _ hm (cycle_eq_iff.2 (.inr (.inl rfl))).symm
  have h2 : (f.triangle.2.2, f.triangle.1, f.triangle.2.1) ∉ r.toGrid.triangles := fun hm =>
    h _ hm (cycle_eq_iff.2 (.inr (.inr rfl))).symm
  rw [RefinedGrid.toCoarseBarycentricPoint, RefinedGrid.storedTriangle, if_neg h0, if_neg h1, if_neg h2, bind_err]

theorem baryPoint_comp (p q r : ℝ × ℝ) {a1 a2 a3 b1 b2 b3 c1 c2 c3 x y z : ℝ} :
    baryPoint (baryPoint p q r a1 a2 a3) (baryPoint p q r b1 b2 b3) (baryPoint p q r c1 c2 c3) x y z =
      baryPoint p q r (x * a1 + y * b1 + z * c1) (x * a2 + y * b2 + z * c2) (x * a3 + y * b3 + z * c3) := by
  simp only [baryPoint]; module

/-- For a triangle in the rotation in which the refined grid lists it and any coordinates with sum one, the result is a
triangle of the coarse grid and coordinates with sum one that describe the same Euclidean point; nonnegative
coordinates are mapped to nonnegative ones. (Missing from C24: rotated triangles, see `C24_rotated_false`.) -/
theorem C24_stored_triangle_partial {g : Grid ℝ} {nx ny : ℕ} {s : ℝ} (G : LibraryGrid g nx ny s) {n : ℕ} (hn : 1 ≤ n)
    (hs : 1 / 10 ^ 15 ≤ s / n) {d : RectDomain ℝ} {r : RefinedGrid ℝ} (hr : d.refine g n = .ok r) {f : Tri}
    (hf : f ∈ r.toGrid.triangles) {c : Bary ℝ} (hc : c.l1 + c.l2 + c.l3 = 1) :
    ∃ b, r.toCoarseBarycentricPoint ⟨f, c⟩ = .ok b ∧ b.triangle ∈ g.triangles ∧
      b.coordinates.l1 + b.coordinates.l2 + b.coordinates.l3 = 1 ∧
      baryPoint (g.xy b.triangle.1) (g.xy b.triangle.2.1) (g.xy b.triangle.2.2)
          b.coordinates.l1 b.coordinates.l2 b.coordinates.l3 =
        baryPoint (r.toGrid.xy f.1) (r.toGrid.xy f.2.1) (r.toGrid.xy f.2.2) c.l1 c.l2 c.l3 ∧
      (0 ≤ c.l1 → 0 ≤ c.l2 → 0 ≤ c.l3 →
        0 ≤ b.coordinates.l1 ∧ 0 ≤ b.coordinates.l2 ∧ 0 ≤ b.coordinates.l3) := by
  obtain ⟨P, dg, E, T, BV, BE, DV, DE, NV, NE, H, R⟩ := G.refinedOf hn hs hr
  obtain ⟨t, ht, K, hK, hfe, e1, e2⟩ := R.tri_entry hf
  have hmem : labT P t ∈ g.triangles := by rw [H.lat.triangles]; exact List.mem_map_of_mem ht
  obtain ⟨k1, k2, k3⟩ := fineK_bounds hK
  have f1 := fine_points H hn R ht k1
  have f2 := fine_points H hn R ht k2
  have f3 := fine_points H hn R ht k3
  have hP := H.lat.memT_P ht
  have g1 := H.lat.at_lab hP.1
  have g2 := H.lat.at_lab hP.2.1
  have g3 := H.lat.at_lab hP.2.2
  obtain ⟨p1, p2, p3⟩ := weights_nonneg hn k1
  obtain ⟨q1, q2, q3⟩ := weights_nonneg hn k2
  obtain ⟨r1, r2, r3⟩ := weights_nonneg hn k3
  have l3 : c.l3 = 1 - c.l1 - c.l2 := by linarith
  have third : (1 : ℝ) - (c.l1 * (1 - K.1.1 / n - K.1.2 / n) + c.l2 * (1 - K.2.1.1 / n - K.2.1.2 / n) +
      c.l3 * (1 - K.2.2.1 / n - K.2.2.2 / n)) - (c.l1 * (K.1.1 / n) + c.l2 * (K.2.1.1 / n) + c.l3 * (K.2.2.1 / n)) =
      c.l1 * (K.1.2 / n) + c.l2 * (K.2.1.2 / n) + c.l3 * (K.2.2.2 / n) := by
    rw [l3]; ring
  refine ⟨⟨labT P t, ⟨c.l1 * (1 - K.1.1 / n - K.1.2 / n) + c.l2 * (1 - K.2.1.1 / n - K.2.1.2 / n) +
      c.l3 * (1 - K.2.2.1 / n - K.2.2.2 / n), c.l1 * (K.1.1 / n) + c.l2 * (K.2.1.1 / n) + c.l3 * (K.2.2.1 / n),
      c.l1 * (K.1.2 / n) + c.l2 * (K.2.1.2 / n) + c.l3 * (K.2.2.2 / n)⟩⟩, ?_, hmem, ?_, ?_, ?_⟩
  · rw [RefinedGrid.toCoarseBarycentricPoint, RefinedGrid.storedTriangle, if_pos hf, bind_ok]
    simp only [e1, e2, bind_ok, pure_eq_ok, bary3, refBary_eq, Bary.new, third]
  · simp only; rw [l3]; ring
  · rw [hfe]
    simp only [labT, mpT]
    rw [xy_of_at f1, xy_of_at f2, xy_of_at f3, xy_of_at g1, xy_of_at g2, xy_of_at g3, baryPoint_comp]
  · intro h1 h2 h3
    exact ⟨by positivity, by positivity, by positivity⟩

/-- **C24 fails for rotated triangles.** The code looks the triangle up in its listed rotation but does not rotate the
coordinates. In every refined grid, for every listed triangle `f`, the first corner of the rotated triangle
`(f₂, f₃, f₁)` - the vertex `f₂` - is mapped to the vertex `f₁`, which is at a distance of `s / n`. -/
theorem C24_rotated_false {g : Grid ℝ} {nx ny : ℕ} {s : ℝ} (G : LibraryGrid g nx ny s) {n : ℕ} (hn : 1 ≤ n)
    (hs : 1 / 10 ^ 15 ≤ s / n) {d : RectDomain ℝ} {r : RefinedGrid ℝ} (hr : d.refine g n = .ok r) {f : Tri}
    (hf : f ∈ r.toGrid.triangles) :
    ∃ b, r.toCoarseBarycentricPoint ⟨(f.2.1, f.2.2, f.1), ⟨1, 0, 0⟩⟩ = .ok b ∧
      dist2 (baryPoint (g.xy b.triangle.1) (g.xy b.triangle.2.1) (g.xy b.triangle.2.2)
          b.coordinates.l1 b.coordinates.l2 b.coordinates.l3)
        (baryPoint (r.toGrid.xy f.2.1) (r.toGrid.xy f.2.2) (r.toGrid.xy f.1) 1 0 0) = s / n ∧ 0 < s / n := by
  have F := LibraryGrid.refine G hn hs hr
  have S := C22_structure F
  have W := F.wellFormed
  obtain ⟨b, h1, h2, h3, h4, h5⟩ := C24_stored_triangle_partial G hn hs hr hf (c := ⟨1, 0, 0⟩) (by norm_num)
  have hnot : (f.2.1, f.2.2, f.1) ∉ r.toGrid.triangles ∧ (f.2.2, f.1, f.2.1) ∉ r.toGrid.triangles := by
    have hd := F.simple.triangles
    have hne : f.1 ≠ f.2.1 := by
      obtain ⟨p, q, w, a1, a2, a3, a4, -⟩ := S.2.2.2.2.2.2.2 f hf
      intro h
      rw [h] at a1
      rw [at_unique a1 a2] at a4
      have := S.1
      simp [dist2] at a4
      linarith
    constructor
    · intro hm
      have := List.inj_on_of_nodup_map hd hf hm (cycle_eq_iff.2 (.inr (.inl rfl)))
      exact hne (congrArg Prod.fst this)
    · intro hm
      have := List.inj_on_of_nodup_map hd hf hm (cycle_eq_iff.2 (.inr (.inr rfl)))
      exact hne (congrArg (fun x => x.2.1) this).symm
  have hlook : r.toCoarseBarycentricPoint ⟨(f.2.1, f.2.2, f.1), ⟨1, 0, 0⟩⟩ =
      r.toCoarseBarycentricPoint ⟨f, ⟨1, 0, 0⟩⟩ := by
    unfold RefinedGrid.toCoarseBarycentricPoint RefinedGrid.storedTriangle
    simp only [if_neg hnot.1, if_neg hnot.2, if_pos hf]
  refine ⟨b, by rw [hlook, h1], ?_, S.1⟩
  rw [h4]
  obtain ⟨p, q, w, a1, a2, a3, a4, -⟩ := S.2.2.2.2.2.2.2 f hf
  rw [xy_of_at a1, xy_of_at a2, xy_of_at a3]
  have e1 : baryPoint p q w 1 0 0 = p := by simp [baryPoint]
  have e2 : baryPoint q w p 1 0 0 = q := by simp [baryPoint]
  rw [e1, e2, a4]

/-! ### C25 -/

/-- a fine edge in lattice coordinates -/
theorem fine_edge_lat {g : Grid ℝ} {nx ny : ℕ} {h : ℝ} {P : List LP} {dg : Bool} {E : List (LP × LP)}
    {T : List (LP × LP × LP)} {BV : List LP} {BE : List (LP × LP)} {DV : List LP} {DE : List (LP × LP)}
    {NV : List LP} {NE : List (LP × LP)} {r : RefinedGrid ℝ} {n : ℕ}
    (H : LGrid g nx ny h P dg E T BV BE DV DE NV NE) (hn : 1 ≤ n) (R : RefinedOf n g h P dg T BV DV NV BE DE NE r)
    {e : Edge} (he : e ∈ r.toGrid.edges) : ∃ e' ∈ Eds n dg T, e = labE (Pts n P T) e' ∧
      r.toGrid.xy e.1 = pos (h / n) e'.1 ∧ r.toGrid.xy e.2 = pos (h / n) e'.2 := by
  have F := (H.refined hn R).lat
  rw [F.edges] at he
  obtain ⟨e', he', rfl⟩ := List.mem_map.1 he
  obtain ⟨h1, h2⟩ := F.memE_P he'
  exact ⟨e', he', rfl, xy_of_at (F.at_lab h1), xy_of_at (F.at_lab h2)⟩

/-- For every horizontal or vertical edge of a refined grid that lies on a coarse edge, the result is an edge of the coarse
grid and a parameter describing the same Euclidean point, in `[0, 1]` when `t` is. (Missing from C25: the diagonal
edges, see `C25_diagonal_false`.) -/
theorem C25_axis_parallel_partial {g : Grid ℝ} {nx ny : ℕ} {s : ℝ} (G : LibraryGrid g nx ny s) {n : ℕ} (hn : 1 ≤ n)
    (hs : 1 / 10 ^ 15 ≤ s / n) {d : RectDomain ℝ} {r : RefinedGrid ℝ} (hr : d.refine g n = .ok r) {e : Edge}
    (he : e ∈ r.toGrid.edges) (hax : AxisParallel r.toGrid e) (hon : OnCoarseEdge g r.toGrid e) (t : ℝ) :
    ∃ c t', r.toCoarseEdgePoint e t = .ok (c, t') ∧ c ∈ g.edges ∧
      edgePoint (g.xy c.1) (g.xy c.2) t' = edgePoint (r.toGrid.xy e.1) (r.toGrid.xy e.2) t ∧
      (0 ≤ t → t ≤ 1 → 0 ≤ t' ∧ t' ≤ 1) := by
  obtain ⟨P, dg, E, T, BV, BE, DV, DE, NV, NE, H, R⟩ := G.refinedOf hn hs hr
  rcases coarseEdge_lookup H R e with ⟨c, hc, k, hk, rfl, h'⟩ | ⟨h', -⟩
  · refine ⟨_, _, h' t, ?_, coarseEdge_point H hn R hc hk t, fun h0 h1 => weight_mem hn hk h0 h1⟩
    rw [H.lat.edges]; exact List.mem_map_of_mem hc
  · exfalso
    obtain ⟨e', he', rfl, x1, x2⟩ := fine_edge_lat H hn R he
    obtain ⟨c, hc, o1, o2⟩ := hon
    rw [H.lat.edges] at hc
    obtain ⟨c', hc', rfl⟩ := List.mem_map.1 hc
    obtain ⟨m1, m2⟩ := H.lat.memE_P hc'
    rw [x1, show g.xy (labE P c').1 = pos s c'.1 from xy_of_at (H.lat.at_lab m1),
      show g.xy (labE P c').2 = pos s c'.2 from xy_of_at (H.lat.at_lab m2)] at o1
    rw [x2, show g.xy (labE P c').1 = pos s c'.1 from xy_of_at (H.lat.at_lab m1),
      show g.xy (labE P c').2 = pos s c'.2 from xy_of_at (H.lat.at_lab m2)] at o2
    rw [AxisParallel, x1, x2] at hax
    obtain ⟨c, hc, hv, k, hk, rfl⟩ := axis_sub H hn he' hax hc' o1 o2
    exact h' c hc hv k hk rfl

/-- Whatever edge is passed (listed or not): an answer always describes the same Euclidean point on an edge of the coarse
grid, and the only other outcome is a `ValueError`. -/
theorem C25_sound {g : Grid ℝ} {nx ny : ℕ} {s : ℝ} (G : LibraryGrid g nx ny s) {n : ℕ} (hn : 1 ≤ n)
    (hs : 1 / 10 ^ 15 ≤ s / n) {d : RectDomain ℝ} {r : RefinedGrid ℝ} (hr : d.refine g n = .ok r) (e : Edge) (t : ℝ) :
    r.toCoarseEdgePoint e t = .error .valueError ∨
    ∃ c t', r.toCoarseEdgePoint e t = .ok (c, t') ∧ c ∈ g.edges ∧
      edgePoint (g.xy c.1) (g.xy c.2) t' = edgePoint (r.toGrid.xy e.1) (r.toGrid.xy e.2) t ∧
      (0 ≤ t → t ≤ 1 → 0 ≤ t' ∧ t' ≤ 1) := by
  obtain ⟨P, dg, E, T, BV, BE, DV, DE, NV, NE, H, R⟩ := G.refinedOf hn hs hr
  rcases coarseEdge_lookup H R e with ⟨c, hc, k, hk, rfl, h'⟩ | ⟨-, h'⟩
  · refine .inr ⟨_, _, h' t, ?_, coarseEdge_point H hn R hc hk t, fun h0 h1 => weight_mem hn hk h0 h1⟩
    rw [H.lat.edges]; exact List.mem_map_of_mem hc
  · exact .inl (h' t)

/-- An edge that does not lie on a coarse edge is rejected. -/
theorem C25_off_coarse_edges {g : Grid ℝ} {nx ny : ℕ} {s : ℝ} (G : LibraryGrid g nx ny s) {n : ℕ} (hn : 1 ≤ n)
    (hs : 1 / 10 ^ 15 ≤ s / n) {d : RectDomain ℝ} {r : RefinedGrid ℝ} (hr : d.refine g n = .ok r) {e : Edge}
    (hon : ¬ OnCoarseEdge g r.toGrid e) (t : ℝ) : r.toCoarseEdgePoint e t = .error .valueError := by
  rcases C25_sound G hn hs hr e t with h | -
  · exact h
  obtain ⟨P, dg, E, T, BV, BE, DV, DE, NV, NE, H, R⟩ := G.refinedOf hn hs hr
  rcases coarseEdge_lookup H R e with ⟨c, hc, k, hk, rfl, h'⟩ | ⟨-, h'⟩
  · exfalso
    refine hon ⟨labE P c, by rw [H.lat.edges]; exact List.mem_map_of_mem hc, ?_⟩
    obtain ⟨m1, m2⟩ := H.lat.memE_P hc
    obtain ⟨a1, a2⟩ := sub_weight hn hk.le
    obtain ⟨b1, b2⟩ := sub_weight hn (show k + 1 ≤ n from hk)
    simp only [labE, subE]
    rw [xy_of_at (H.lat.at_lab m1), xy_of_at (H.lat.at_lab m2), xy_of_at (at_subP H hn R hc hk.le),
      xy_of_at (at_subP H hn R hc hk)]
    exact ⟨⟨_, a1, a2, rfl⟩, ⟨_, b1, b2, rfl⟩⟩
  · exact h' t

/-- **C25 fails for diagonal edges.** Refinement lists the fine diagonals with the orientation opposite to the one under
which they are stored, so every diagonal edge of every refined grid is rejected ... -/
theorem C25_diagonal_false {g : Grid ℝ} {nx ny : ℕ} {s : ℝ} (G : LibraryGrid g nx ny s) {n : ℕ} (hn : 1 ≤ n)
    (hs : 1 / 10 ^ 15 ≤ s / n) {d : RectDomain ℝ} {r : RefinedGrid ℝ} (hr : d.refine g n = .ok r) :
    (∀ e ∈ r.toGrid.edges, ¬ AxisParallel r.toGrid e → ∀ t, r.toCoarseEdgePoint e t = .error .valueError) ∧
    ∃ e ∈ r.toGrid.edges, ¬ AxisParallel r.toGrid e ∧ OnCoarseEdge g r.toGrid e := by
  obtain ⟨P, dg, E, T, BV, BE, DV, DE, NV, NE, H, R⟩ := G.refinedOf hn hs hr
  have F := (H.refined hn R).lat
  have hpos := F.h_pos
  constructor
  · intro e he hax t
    obtain ⟨e', he', rfl, x1, x2⟩ := fine_edge_lat H hn R he
    rw [AxisParallel, x1, x2] at hax
    have d1 : e'.1.1 ≠ e'.2.1 := fun h => hax (.inl (by simp only [pos, h]))
    have d2 : e'.1.2 ≠ e'.2.2 := fun h => hax (.inr (by simp only [pos, h]))
    rcases coarseEdge_lookup H R (labE (Pts n P T) e') with ⟨c, hc, k, hk, h1, -⟩ | ⟨-, h'⟩
    · exact absurd (labE_inj (F.memE_P he') h1) (diag_not_sub H hn he' d1 d2 hc hk)
    · exact h' t
  · obtain ⟨e, he, d1, d2, c, hc, o1, o2⟩ := diag_exists H hn
    obtain ⟨h1, h2⟩ := F.memE_P he
    obtain ⟨m1, m2⟩ := H.lat.memE_P hc
    have x1 : r.toGrid.xy (labE (Pts n P T) e).1 = pos (s / n) e.1 := xy_of_at (F.at_lab h1)
    have x2 : r.toGrid.xy (labE (Pts n P T) e).2 = pos (s / n) e.2 := xy_of_at (F.at_lab h2)
    refine ⟨labE (Pts n P T) e, by rw [F.edges]; exact List.mem_map_of_mem he, ?_, labE P c,
      by rw [H.lat.edges]; exact List.mem_map_of_mem hc, ?_⟩
    · rw [AxisParallel, x1, x2]
      simp only [pos]
      rintro (h' | h')
      · exact d1 (by exact_mod_cast mul_right_cancel₀ hpos.ne' h')
      · exact d2 (by exact_mod_cast mul_right_cancel₀ hpos.ne' h')
    · rw [x1, x2, show g.xy (labE P c).1 = pos s c.1 from xy_of_at (H.lat.at_lab m1),
        show g.xy (labE P c).2 = pos s c.2 from xy_of_at (H.lat.at_lab m2)]
      exact ⟨o1, o2⟩

/-! ### C26 -/

section
variable {g : Grid ℝ} {nx ny : ℕ} {h : ℝ} {P : List LP} {dg : Bool} {E : List (LP × LP)}
  {T : List (LP × LP × LP)} {BV : List LP} {BE : List (LP × LP)} {DV : List LP} {DE : List (LP × LP)}
  {NV : List LP} {NE : List (LP × LP)} {r : RefinedGrid ℝ} {n : ℕ}

theorem at_lab_unique (H : LGrid g nx ny h P dg E T BV BE DV DE NV NE) (hn : 1 ≤ n)
    (R : RefinedOf n g h P dg T BV DV NV BE DE NE r) {c : LP × LP} (hc : c ∈ E) {s : ℕ} (hs : s ≤ n) {v : Vertex}
    (hv : r.toGrid.At v (edgePoint (pos h c.1) (pos h c.2) (1 - s / n))) : v = lab (Pts n P T) (subP n c s) := by
  have F := (H.refined hn R).lat
  rw [← pos_subP hn c hs] at hv
  obtain ⟨a, ha, rfl, e⟩ := F.at_iff.1 hv
  rw [Lattice.pos_inj F.h_pos e]

theorem part_subdivided (H : LGrid g nx ny h P dg E T BV BE DV DE NV NE) (hn : 1 ≤ n)
    (R : RefinedOf n g h P dg T BV DV NV BE DE NE r) {V : List LP} {X : List (LP × LP)} {b b' : Boundary}
    (p : Part P b V X) (hb' : b' = partOf n P V X T) (hX : X.Nodup) (hV : V.Nodup) (hXB : ∀ e ∈ X, e ∈ BE) :
    Subdivided n g b r.toGrid b' := by
  have F := (H.refined hn R).lat
  have L := H.lat
  have hXE : ∀ e ∈ X, e ∈ E := fun e he => L.memBE_E (hXB e he)
  have hxy : ∀ e ∈ X, g.xy (labE P e).1 = pos h e.1 ∧ g.xy (labE P e).2 = pos h e.2 := fun e he =>
    ⟨xy_of_at (L.at_lab (L.memE_P (hXE e he)).1), xy_of_at (L.at_lab (L.memE_P (hXE e he)).2)⟩
  have hmemE : ∀ f, f ∈ b'.edges ↔ ∃ e ∈ X, ∃ s < n, f = labE (Pts n P T) (subE n e s) := by
    intro f
    rw [hb']
    simp only [partOf, List.mem_map]
    constructor
    · rintro ⟨e', he', rfl⟩
      obtain ⟨e, he, s, hs, rfl⟩ := (mem_fineX L hX hXB e').1 he'
      exact ⟨e, he, s, hs, rfl⟩
    · rintro ⟨e, he, s, hs, rfl⟩
      exact ⟨_, (mem_fineX L hX hXB _).2 ⟨e, he, s, hs, rfl⟩, rfl⟩
  have hmemP : ∀ e ∈ X, ∀ s ≤ n, subP n e s ∈ Pts n P T := fun e he s hs => subE_mem_Pts H hn (hXE e he) hs
  refine ⟨?_, ?_, ?_, ?_, ?_, ?_⟩
  · intro f
    rw [hmemE, p.edges]
    constructor
    · rintro ⟨e, he, s, hs, rfl⟩
      refine ⟨labE P e, List.mem_map_of_mem he, s, hs, ?_⟩
      rw [(hxy e he).1, (hxy e he).2]
      have h2 := at_subP H hn R (hXE e he) (show s + 1 ≤ n from hs)
      push_cast at h2
      exact ⟨at_subP H hn R (hXE e he) hs.le, h2⟩
    · rintro ⟨c, hc, s, hs, a1, a2⟩
      obtain ⟨e, he, rfl⟩ := List.mem_map.1 hc
      rw [(hxy e he).1, (hxy e he).2] at a1 a2
      refine ⟨e, he, s, hs, Prod.ext (at_lab_unique H hn R (hXE e he) hs.le a1) ?_⟩
      refine at_lab_unique H hn R (hXE e he) (show s + 1 ≤ n from hs) ?_
      push_cast; exact a2
  · rw [hb']
    simp only [partOf]
    refine (nodup_fineX L hX hXB).map_on fun x hx y hy hxy => ?_
    obtain ⟨e, he, s, hs, rfl⟩ := (mem_fineX L hX hXB x).1 hx
    exact labE_inj ⟨hmemP e he s hs.le, hmemP e he (s + 1) hs⟩ hxy
  · rw [hb', p.edges]
    simp only [partOf, List.length_map]
    rw [fineBE_sidesIn, List.length_flatMap]
    have : ((sidesIn X T).map fun e => (subEdges n e).length) = (sidesIn X T).map fun _ => n := by
      apply List.map_congr_left; intro e _; simp [subEdges]
    rw [this, List.map_const', List.sum_replicate, (sidesIn_perm L hX hXB).length_eq, smul_eq_mul, Nat.mul_comm]
  · intro f hf
    obtain ⟨e, he, s, hs, rfl⟩ := (hmemE f).1 hf
    rw [F.edges]
    refine List.mem_map_of_mem ?_
    refine F.memBE_E ?_
    exact (mem_fineX L L.nodupBE (fun _ h => h) _).2 ⟨e, hXB e he, s, hs, rfl⟩
  · intro v
    rw [hb', p.vertices, p.edges]
    simp only [partOf, List.mem_map, List.mem_append]
    constructor
    · rintro ⟨a, ⟨b, hb, rfl⟩ | ha, rfl⟩
      · exact .inl ⟨b, hb, (lab_scale hn (base_prefix n P T) (p.memV b hb)).symm⟩
      · obtain ⟨e, he, s, h1, h2, rfl⟩ := (mem_fineV L hX hXB a).1 ha
        refine .inr ⟨labE P e, ⟨e, he, rfl⟩, s, h1, h2, ?_⟩
        rw [(hxy e he).1, (hxy e he).2]
        exact at_subP H hn R (hXE e he) h2.le
    · rintro (⟨b, hb, rfl⟩ | ⟨_, ⟨e, he, rfl⟩, s, h1, h2, hv⟩)
      · exact ⟨_, .inl ⟨b, hb, rfl⟩, lab_scale hn (base_prefix n P T) (p.memV b hb)⟩
      · rw [(hxy e he).1, (hxy e he).2] at hv
        exact ⟨_, .inr ((mem_fineV L hX hXB _).2 ⟨e, he, s, h1, h2, rfl⟩),
          (at_lab_unique H hn R (hXE e he) h2.le hv).symm⟩
  · rw [hb']
    simp only [partOf]
    refine (nodup_fineV L hn hV hX hXB).map_on fun x hx y hy hxy => ?_
    refine lab_inj ?_ hxy
    rcases List.mem_append.1 hx with hx | hx
    · obtain ⟨b, hb, rfl⟩ := List.mem_map.1 hx
      exact mem_Pts_base (p.memV b hb)
    · obtain ⟨e, he, s, h1, h2, rfl⟩ := (mem_fineV L hX hXB x).1 hx
      exact hmemP e he s h2.le

end

/-- In a refined grid the boundary, the Dirichlet and the Neumann boundary are the `n`-fold subdivisions of the coarse
ones. -/
theorem C26_subdivided {g : Grid ℝ} {nx ny : ℕ} {s : ℝ} (G : LibraryGrid g nx ny s) {n : ℕ} (hn : 1 ≤ n)
    (hs : 1 / 10 ^ 15 ≤ s / n) {d : RectDomain ℝ} {r : RefinedGrid ℝ} (hr : d.refine g n = .ok r) :
    Subdivided n g g.boundary r.toGrid r.toGrid.boundary ∧ Subdivided n g g.dirichlet r.toGrid r.toGrid.dirichlet ∧
    Subdivided n g g.neumann r.toGrid r.toGrid.neumann := by
  obtain ⟨P, dg, E, T, BV, BE, DV, DE, NV, NE, H, R⟩ := G.refinedOf hn hs hr
  have L := H.lat
  have pb : Part P g.boundary BV BE := ⟨L.bvertices, L.bedges, fun a ha => L.memBV_P ha, fun e he => L.memE_P (L.memBE_E he)⟩
  refine ⟨part_subdivided H hn R pb (by rw [R.grid]) L.nodupBE L.nodupBV fun _ h => h,
    part_subdivided H hn R H.pd (by rw [R.grid]) H.nodupDE H.nodupDV H.DEsub,
    part_subdivided H hn R H.pn (by rw [R.grid]) H.nodupNE H.nodupNV H.NEsub⟩

/-- In every grid of the library, refined or not, Dirichlet and Neumann edges partition the boundary edges. -/
theorem C26_partition {g : Grid ℝ} {nx ny : ℕ} {s : ℝ} (G : LibraryGrid g nx ny s) :
    (∀ e, e ∈ g.boundary.edges ↔ e ∈ g.dirichlet.edges ∨ e ∈ g.neumann.edges) ∧
    (∀ e ∈ g.dirichlet.edges, e ∉ g.neumann.edges) ∧
    (∀ v, v ∈ g.dirichlet.vertices ↔ IsEndpoint v g.dirichlet.edges) := by
  obtain ⟨P, dg, E, T, BV, BE, DV, DE, NV, NE, H⟩ := G.lgrid
  have L := H.lat
  refine ⟨?_, ?_, ?_⟩
  · intro e
    rw [L.bedges, H.pd.edges, H.pn.edges]
    simp only [List.mem_map]
    constructor
    · rintro ⟨e', he', rfl⟩
      rcases (H.cover e').1 he' with h' | h'
      · exact .inl ⟨e', h', rfl⟩
      · exact .inr ⟨e', h', rfl⟩
    · rintro (⟨e', he', rfl⟩ | ⟨e', he', rfl⟩)
      · exact ⟨e', H.DEsub e' he', rfl⟩
      · exact ⟨e', H.NEsub e' he', rfl⟩
  · intro e he he'
    rw [H.pd.edges] at he
    rw [H.pn.edges] at he'
    obtain ⟨e1, h1, rfl⟩ := List.mem_map.1 he
    obtain ⟨e2, h2, h3⟩ := List.mem_map.1 he'
    rw [labE_inj (L.memE_P (L.memBE_E (H.NEsub e2 h2))) h3] at h2
    exact H.disj e1 h1 h2
  · intro v
    rw [H.pd.vertices, IsEndpoint, H.pd.edges]
    simp only [List.mem_map]
    constructor
    · rintro ⟨a, ha, rfl⟩
      obtain ⟨e, he, h'⟩ := (H.memDV a).1 ha
      refine ⟨_, ⟨e, he, rfl⟩, ?_⟩
      rcases h' with rfl | rfl
      · exact .inl rfl
      · exact .inr rfl
    · rintro ⟨_, ⟨e, he, rfl⟩, rfl | rfl⟩
      · exact ⟨e.1, (H.memDV _).2 ⟨e, he, .inl rfl⟩, rfl⟩
      · exact ⟨e.2, (H.memDV _).2 ⟨e, he, .inr rfl⟩, rfl⟩

/-- Boundary edges of a refined grid, the ones integrated over, are always mapped to an edge of the same coarse boundary
part. -/
theorem C25_boundary_edges {g : Grid ℝ} {nx ny : ℕ} {s : ℝ} (G : LibraryGrid g nx ny s) {n : ℕ} (hn : 1 ≤ n)
    (hs : 1 / 10 ^ 15 ≤ s / n) {d : RectDomain ℝ} {r : RefinedGrid ℝ} (hr : d.refine g n = .ok r) {e : Edge}
    (he : e ∈ r.toGrid.boundary.edges) (t : ℝ) :
    ∃ c t', r.toCoarseEdgePoint e t = .ok (c, t') ∧ c ∈ g.edges ∧
      edgePoint (g.xy c.1) (g.xy c.2) t' = edgePoint (r.toGrid.xy e.1) (r.toGrid.xy e.2) t ∧
      (0 ≤ t → t ≤ 1 → 0 ≤ t' ∧ t' ≤ 1) := by
  rcases C25_sound G hn hs hr e t with h | h
  · exfalso
    obtain ⟨P, dg, E, T, BV, BE, DV, DE, NV, NE, H, R⟩ := G.refinedOf hn hs hr
    have L := H.lat
    rcases coarseEdge_lookup H R e with ⟨c, hc, k, hk, rfl, h'⟩ | ⟨h', -⟩
    · rw [h'] at h; cases h
    · rw [R.grid] at he
      simp only [partOf, List.mem_map] at he
      obtain ⟨e', he', rfl⟩ := he
      obtain ⟨c, hc, k, hk, rfl⟩ := (mem_fineX L L.nodupBE (fun _ h => h) e').1 he'
      exact h' c (L.memBE_E hc) (BE_HV L hc) k hk rfl
  · exact h

/-! ### a concrete case: refining the sample grid by 2 meets the hypotheses of C22 and C24–C27 -/

section sample
variable (it : SetIter)

private theorem sampleRefined_exists : ∃ r, sampleDomain.refine (sampleGrid it) (2 : ℕ) = .ok r ∧
    LibraryGrid r.toGrid 4 4 (1 / 4) ∧ r.coarse = sampleGrid it ∧ (sampleGrid it).points <+: r.toGrid.points ∧
    r.toGrid.vertices.length = 25 ∧ r.toGrid.triangles.length = 32 := by
  obtain ⟨r, h, h1, h2, -, h3, h4, h5⟩ :=
    C22_refine (sampleGrid_library it) sampleDomain (n := 2) (by norm_num) (by norm_num)
  rw [(sampleGrid_lists it).2.2] at h5
  have h6 : (1 / 2 : ℝ) / (2 : ℕ) = 1 / 4 := by norm_num
  rw [h6] at h1
  exact ⟨r, h, h1, h2, h3, h4, h5⟩

/-- the sample grid refined by 2 -/
noncomputable def sampleRefined : RefinedGrid ℝ := (sampleRefined_exists it).choose

theorem sampleRefined_eq : sampleDomain.refine (sampleGrid it) (2 : ℕ) = .ok (sampleRefined it) :=
  (sampleRefined_exists it).choose_spec.1

/-- C22: 25 vertices, the first nine are those of the coarse grid, and 32 triangles -/
theorem sampleRefined_spec : LibraryGrid (sampleRefined it).toGrid 4 4 (1 / 4) ∧ (sampleRefined it).coarse = sampleGrid it ∧
    (sampleGrid it).points <+: (sampleRefined it).toGrid.points ∧ (sampleRefined it).toGrid.vertices.length = 25 ∧
    (sampleRefined it).toGrid.triangles.length = 32 :=
  (sampleRefined_exists it).choose_spec.2

private theorem sample_fine : (1 / 10 ^ 15 : ℝ) ≤ 1 / 2 / (2 : ℕ) := by norm_num

/-- C24, C27: every fine triangle lies in a coarse one and has a quarter of its area; its centroid is mapped to a point of a
coarse triangle -/
example : ∃ f ∈ (sampleRefined it).toGrid.triangles,
    (∃ t ∈ (sampleGrid it).triangles, (sampleRefined it).toGrid.region f ⊆ (sampleGrid it).region t ∧
      triArea (sampleRefined it).toGrid.xy f = triArea (sampleGrid it).xy t / 2 ^ 2) ∧
    ∃ b, (sampleRefined it).toCoarseBarycentricPoint ⟨f, ⟨1 / 3, 1 / 3, 1 / 3⟩⟩ = .ok b ∧
      b.triangle ∈ (sampleGrid it).triangles := by
  have hl := (sampleRefined_spec it).2.2.2.2
  obtain ⟨f, hf⟩ := List.exists_mem_of_length_pos (l := (sampleRefined it).toGrid.triangles) (by omega)
  obtain ⟨t, h1, -, h2, h3, -⟩ := C27_fine_triangle (sampleGrid_library it) (by norm_num) sample_fine (sampleRefined_eq it) f hf
  obtain ⟨b, h4, h5, -⟩ := C24_stored_triangle_partial (sampleGrid_library it) (by norm_num) sample_fine
    (sampleRefined_eq it) hf (c := ⟨1 / 3, 1 / 3, 1 / 3⟩) (by norm_num)
  exact ⟨f, hf, ⟨t, h1, h2, by exact_mod_cast h3⟩, b, h4, h5⟩

/-- C25, C26: the fine grid has a boundary edge, and its midpoint is mapped to a point of a coarse edge -/
example : ∃ e ∈ (sampleRefined it).toGrid.boundary.edges, ∃ c t',
    (sampleRefined it).toCoarseEdgePoint e (1 / 2) = .ok (c, t') ∧ c ∈ (sampleGrid it).edges ∧ 0 ≤ t' ∧ t' ≤ 1 := by
  have S := (C26_subdivided (sampleGrid_library it) (by norm_num) sample_fine (sampleRefined_eq it)).1
  obtain ⟨e, he⟩ := List.exists_mem_of_length_pos (l := (sampleRefined it).toGrid.boundary.edges) (by
    rw [S.num_edges, sampleGrid_boundary]; norm_num)
  obtain ⟨c, t', h1, h2, -, h3⟩ := C25_boundary_edges (sampleGrid_library it) (by norm_num) sample_fine
    (sampleRefined_eq it) he (1 / 2)
  exact ⟨e, he, c, t', h1, h2, h3 (by norm_num) (by norm_num)⟩

end sample

end Tve
