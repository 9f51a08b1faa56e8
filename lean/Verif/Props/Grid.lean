import Verif.Lemmas.GridFix
import Verif.Props.Sample

/-!
# Properties C09-C18: grids of rectangles

`it : SetIter` is the iteration order of Python sets; every theorem holds for all of them.
-/

namespace Tve
open RectGrid

/-- iteration in insertion order, to show that `SetIter` is inhabited -/
def SetIter.insertion : SetIter where
  vert _ l := l
  edge _ l := l
  fix _ l := l
  vert_perm _ _ := .refl _
  edge_perm _ _ := .refl _
  fix_perm _ _ := .refl _

/-- iteration in reverse insertion order -/
def SetIter.reversed : SetIter where
  vert _ l := l.reverse
  edge _ l := l.reverse
  fix _ l := l.reverse
  vert_perm _ l := l.reverse_perm
  edge_perm _ l := l.reverse_perm
  fix_perm _ l := l.reverse_perm

/-- a 2 × 1 rectangle with mesh size 1 and a 3 × 2 rectangle with mesh size 1/2 meet the hypotheses used below -/
theorem cells_examples : cells 2 1 = 2 ∧ cells 1 1 = 1 ∧ cells 3 (1 / 2) = 6 ∧ cells 2 (1 / 2) = 4 := by
  refine ⟨?_, ?_, ?_, ?_⟩ <;> unfold cells <;> rw [Nat.floor_eq_iff (by norm_num)] <;> norm_num

/-! ### C09 -/

/-- `RectangleDomain(w, h).grid(s)` never raises; numbers of vertices, points, edges and triangles. -/
theorem C09_grid_counts (it : SetIter) (d : RectDomain ℝ) {s : ℝ} (hw : 0 ≤ d.width) (hh : 0 ≤ d.height)
    (hs : 0 < s) :
    ∃ g nh nv, nh = cells d.width s + 1 ∧ nv = cells d.height s + 1 ∧ d.grid it s = .ok g ∧
      g.vertices = List.range (nh * nv) ∧ g.points.length = nh * nv ∧
      g.edges.length = nh * (nv - 1) + nv * (nh - 1) + (nh - 1) * (nv - 1) ∧
      g.triangles.length = 2 * ((nh - 1) * (nv - 1)) := by
  obtain ⟨g, ts, hg, R⟩ := rect_grid_spec it d hw hh hs
  refine ⟨g, _, _, rfl, rfl, hg, R.vertices, ?_, ?_, ?_⟩
  · rw [R.points, List.length_map, length_rowMajor]
  · rw [R.edges, List.length_map, length_E0]; simp only [Nat.add_sub_cancel]; ring
  · rw [R.triangles, List.length_map, length_T0]; simp only [Nat.add_sub_cancel]

/-- No edge occurs twice, not even reversed, and no two triangles have the same vertices. -/
theorem C09_no_duplicates {it : SetIter} {d : RectDomain ℝ} {s : ℝ} {g : Grid ℝ} (hw : 0 ≤ d.width)
    (hh : 0 ≤ d.height) (hs : 0 < s) (hg : d.grid it s = .ok g) :
    (g.edges.map Edge.undirected).Nodup ∧ (g.triangles.map Tri.vertexSet).Nodup := by
  obtain ⟨ts, R⟩ := rectSpec_unique hw hh hs hg
  constructor
  · rw [R.edges, List.map_map]
    refine List.Nodup.map_on ?_ (nodup_E0 _ _)
    intro e he e' he' h
    have h1 := latEdge_mem (mem_E0.1 he)
    exact sym2_latEdge_inj (mem_E0.1 he) (mem_E0.1 he')
      (sym2_lab_inj ((mem_rowMajor _).2 h1.1) ((mem_rowMajor _).2 h1.2) h)
  · rcases Nat.eq_zero_or_pos (cells d.width s) with h0 | hx
    · rw [R.triangles]; simp [T0, lT0, uT0, h0]
    rcases Nat.eq_zero_or_pos (cells d.height s) with h0 | hy
    · rw [R.triangles, List.eq_nil_of_length_eq_zero (l := T0 _ _) (by rw [length_T0, h0]; simp)]; simp
    exact (rect_lattice R hx hy hs).nodup_vertexSet

/-- Every index used in edges, triangles and boundaries is a vertex, and boundary edges are edges. -/
theorem C09_indices_valid {it : SetIter} {d : RectDomain ℝ} {s : ℝ} {g : Grid ℝ} (hw : 0 ≤ d.width)
    (hh : 0 ≤ d.height) (hs : 0 < s) (hg : d.grid it s = .ok g) : g.WellFormed := by
  obtain ⟨ts, R⟩ := rectSpec_unique hw hh hs hg
  exact R.wellFormed

/-- The edges are exactly the sides of the triangles. -/
theorem C09_edges_are_sides {it : SetIter} {d : RectDomain ℝ} {s : ℝ} {g : Grid ℝ} (hs : 0 < s)
    (hw : s ≤ d.width) (hh : s ≤ d.height) (hg : d.grid it s = .ok g) (x : Sym2 Vertex) :
    x ∈ g.edges.map Edge.undirected ↔ ∃ t ∈ g.triangles, x ∈ t.sides := by
  obtain ⟨ts, R⟩ := rectSpec_unique (hs.le.trans hw) (hs.le.trans hh) hs hg
  exact (rect_lattice R ((Nat.le_floor (by rw [le_div_iff₀ hs]; simpa using hw)))
    ((Nat.le_floor (by rw [le_div_iff₀ hs]; simpa using hh))) hs).edges_iff_sides x

theorem one_le_cells {w s : ℝ} (hs : 0 < s) (h : s ≤ w) : 1 ≤ cells w s :=
  Nat.le_floor (by rw [le_div_iff₀ hs]; simpa using h)

/-- a grid of a rectangle with at least one cell in each direction is a lattice grid -/
theorem grid_lattice {it : SetIter} {d : RectDomain ℝ} {s : ℝ} {g : Grid ℝ} (hs : 0 < s)
    (hw : s ≤ d.width) (hh : s ≤ d.height) (hg : d.grid it s = .ok g) :
    ∃ P E T BV BE, Lattice g (cells d.width s) (cells d.height s) s P true E T BV BE := by
  obtain ⟨ts, R⟩ := rectSpec_unique (hs.le.trans hw) (hs.le.trans hh) hs hg
  exact ⟨_, _, _, _, _, rect_lattice R (one_le_cells hs hw) (one_le_cells hs hh) hs⟩

/-! ### C10 -/

/-- Vertex `j * nh + i` lies at `(i * s, j * s)`, and these are all the points. -/
theorem C10_points {it : SetIter} {d : RectDomain ℝ} {s : ℝ} {g : Grid ℝ} (hw : 0 ≤ d.width)
    (hh : 0 ≤ d.height) (hs : 0 < s) (hg : d.grid it s = .ok g) (v : Vertex) (q : ℝ × ℝ) :
    g.At v q ↔ ∃ i j : ℕ, i ≤ cells d.width s ∧ j ≤ cells d.height s ∧ v = j * (cells d.width s + 1) + i ∧
      q = (i * s, j * s) := by
  obtain ⟨ts, R⟩ := rectSpec_unique hw hh hs hg
  rw [R.at_iff]
  constructor
  · rintro ⟨⟨i, j⟩, ⟨h1, h2⟩, rfl, rfl⟩
    exact ⟨i, j, h1, h2, lab_rowMajor h1 h2, rfl⟩
  · rintro ⟨i, j, h1, h2, rfl, rfl⟩
    exact ⟨(i, j), ⟨h1, h2⟩, (lab_rowMajor h1 h2).symm, rfl⟩

theorem cells_mul_le {w s : ℝ} (hw : 0 ≤ w) (hs : 0 < s) : cells w s * s ≤ w :=
  (le_div_iff₀ hs).1 (Nat.floor_le (div_nonneg hw hs.le))

/-- All points lie in the rectangle and different vertices have different points. -/
theorem C10_points_in_rectangle {it : SetIter} {d : RectDomain ℝ} {s : ℝ} {g : Grid ℝ} (hw : 0 ≤ d.width)
    (hh : 0 ≤ d.height) (hs : 0 < s) (hg : d.grid it s = .ok g) :
    (∀ v q, g.At v q → 0 ≤ q.1 ∧ q.1 ≤ d.width ∧ 0 ≤ q.2 ∧ q.2 ≤ d.height) ∧
    (∀ v v' q, g.At v q → g.At v' q → v = v') := by
  obtain ⟨ts, R⟩ := rectSpec_unique hw hh hs hg
  constructor
  · intro v q hq
    obtain ⟨⟨i, j⟩, ⟨h1, h2⟩, rfl, rfl⟩ := R.at_iff.1 hq
    simp only at h1 h2
    have h1' : (i : ℝ) ≤ cells d.width s := by exact_mod_cast h1
    have h2' : (j : ℝ) ≤ cells d.height s := by exact_mod_cast h2
    have a := cells_mul_le hw hs
    have b := cells_mul_le hh hs
    refine ⟨mul_nonneg (Nat.cast_nonneg _) hs.le, ?_, mul_nonneg (Nat.cast_nonneg _) hs.le, ?_⟩
    · exact (mul_le_mul_of_nonneg_right h1' hs.le).trans a
    · exact (mul_le_mul_of_nonneg_right h2' hs.le).trans b
  · intro v v' q hq hq'
    obtain ⟨a, ha, rfl, rfl⟩ := R.at_iff.1 hq
    obtain ⟨b, hb, rfl, h⟩ := R.at_iff.1 hq'
    rw [Lattice.pos_inj hs h]

/-- The grid misses less than one mesh size, and nothing if the mesh size divides the side. -/
theorem C10_extent {w s : ℝ} (hw : 0 ≤ w) (hs : 0 < s) :
    cells w s * s ≤ w ∧ w < cells w s * s + s ∧ (∀ k : ℕ, w = k * s → cells w s * s = w) := by
  refine ⟨cells_mul_le hw hs, ?_, ?_⟩
  · have := Nat.lt_floor_add_one (w / s)
    rw [div_lt_iff₀ hs] at this
    unfold cells; linarith
  · rintro k rfl
    have : cells (k * s) s = k := by
      unfold cells
      rw [mul_div_assoc, div_self hs.ne', mul_one, Nat.floor_natCast]
    rw [this]

/-! ### C11 -/

/-- Triangles are counterclockwise with area `s² / 2`, first side horizontal, second side vertical. -/
theorem C11_orientation {it : SetIter} {d : RectDomain ℝ} {s : ℝ} {g : Grid ℝ} (hs : 0 < s)
    (hw : s ≤ d.width) (hh : s ≤ d.height) (hg : d.grid it s = .ok g) {t : Tri} (ht : t ∈ g.triangles) :
    ∃ p q r, g.At t.1 p ∧ g.At t.2.1 q ∧ g.At t.2.2 r ∧ cross p q r = s ^ 2 ∧ p.2 = q.2 ∧ q.1 = r.1 := by
  obtain ⟨P, E, T, BV, BE, L⟩ := grid_lattice hs hw hh hg
  exact L.tri_geom ht

/-- The triangles cover exactly the rectangle spanned by the grid, and their interiors are disjoint. -/
theorem C11_tiling {it : SetIter} {d : RectDomain ℝ} {s : ℝ} {g : Grid ℝ} (hs : 0 < s)
    (hw : s ≤ d.width) (hh : s ≤ d.height) (hg : d.grid it s = .ok g) :
    (∀ z : ℝ × ℝ, (∃ t ∈ g.triangles, z ∈ g.region t) ↔
      0 ≤ z.1 ∧ z.1 ≤ cells d.width s * s ∧ 0 ≤ z.2 ∧ z.2 ≤ cells d.height s * s) ∧
    (∀ t ∈ g.triangles, ∀ t' ∈ g.triangles, t ≠ t' → Disjoint (interior (g.region t)) (interior (g.region t'))) := by
  obtain ⟨P, E, T, BV, BE, L⟩ := grid_lattice hs hw hh hg
  exact ⟨L.covers, fun t ht t' ht' hne => L.interiors ht ht' hne⟩

/-- The areas computed by `Integrator` sum to the area of that rectangle. -/
theorem C11_area {it : SetIter} {d : RectDomain ℝ} {s : ℝ} {g : Grid ℝ} (hs : 0 < s)
    (hw : s ≤ d.width) (hh : s ≤ d.height) (hg : d.grid it s = .ok g) (r : TriRule ℝ) :
    ∃ I, Integrator.new r g.triangles g.points = .ok I ∧ (∀ a ∈ I.areas, a = s ^ 2 / 2) ∧
      I.areas.sum = (cells d.width s * s) * (cells d.height s * s) := by
  obtain ⟨P, E, T, BV, BE, L⟩ := grid_lattice hs hw hh hg
  refine ⟨_, L.areas r, ?_, ?_⟩
  · intro a ha; obtain ⟨_, _, rfl⟩ := List.mem_map.1 ha; rfl
  · rw [List.map_const', List.sum_replicate, L.triangles, List.length_map, L.lengthT]
    simp only [nsmul_eq_mul]; push_cast; ring

/-! ### C12 -/

/-- The boundary edges are exactly the edges with exactly one adjacent triangle, each listed once. -/
theorem C12_boundary_edges {it : SetIter} {d : RectDomain ℝ} {s : ℝ} {g : Grid ℝ} (hs : 0 < s)
    (hw : s ≤ d.width) (hh : s ≤ d.height) (hg : d.grid it s = .ok g) :
    g.boundary.edges.Nodup ∧ ∀ e, e ∈ g.boundary.edges ↔
      e ∈ g.edges ∧ ∃! t, t ∈ g.triangles ∧ e.undirected ∈ t.sides := by
  obtain ⟨P, E, T, BV, BE, L⟩ := grid_lattice hs hw hh hg
  exact ⟨L.nodup_bedges, L.boundary_iff⟩

/-- The boundary vertices are exactly the vertices on the rim, and exactly the endpoints of boundary edges. -/
theorem C12_boundary_vertices {it : SetIter} {d : RectDomain ℝ} {s : ℝ} {g : Grid ℝ} (hs : 0 < s)
    (hw : s ≤ d.width) (hh : s ≤ d.height) (hg : d.grid it s = .ok g) :
    g.boundary.vertices.Nodup ∧
    (∀ v, v ∈ g.boundary.vertices ↔ ∃ q, g.At v q ∧
      (q.1 = 0 ∨ q.1 = cells d.width s * s ∨ q.2 = 0 ∨ q.2 = cells d.height s * s)) ∧
    (∀ v, v ∈ g.boundary.vertices ↔ IsEndpoint v g.boundary.edges) := by
  obtain ⟨P, E, T, BV, BE, L⟩ := grid_lattice hs hw hh hg
  exact ⟨L.nodup_bvertices, L.rim_iff, L.bvertices_iff_endpoint⟩

/-! ### C13 -/

/-- Every boundary edge is in exactly one of the two parts; none is listed twice; only boundary edges occur. -/
theorem C13_partition {it : SetIter} {d : RectDomain ℝ} {s : ℝ} {g : Grid ℝ} (hw : 0 ≤ d.width)
    (hh : 0 ≤ d.height) (hs : 0 < s) (hg : d.grid it s = .ok g) :
    g.dirichlet.edges.Nodup ∧ g.neumann.edges.Nodup ∧
    (∀ e, e ∈ g.boundary.edges ↔ (e ∈ g.dirichlet.edges ∨ e ∈ g.neumann.edges)) ∧
    (∀ e, ¬ (e ∈ g.dirichlet.edges ∧ e ∈ g.neumann.edges)) := by
  obtain ⟨ts, R⟩ := rectSpec_unique hw hh hs hg
  refine ⟨R.nodupDE, R.nodupNE, ?_, ?_⟩
  · intro e
    rw [R.memNE]
    constructor
    · intro h
      by_cases h' : e ∈ g.dirichlet.edges
      · exact .inl h'
      · exact .inr ⟨h, h'⟩
    · rintro (h | h)
      · obtain ⟨f, _, a, ha, rfl⟩ := (R.memDE e).1 h
        exact (R.memBE _).2 ⟨f, a, ha, rfl⟩
      · exact h.1
  · rintro e ⟨h1, h2⟩
    exact ((R.memNE e).1 h2).2 h1

/-- A boundary edge is a Dirichlet edge exactly when it lies on a side listed in `fix`. -/
theorem C13_fixed_sides {it : SetIter} {d : RectDomain ℝ} {s : ℝ} {g : Grid ℝ} (hw : 0 ≤ d.width)
    (hh : 0 ≤ d.height) (hs : 0 < s) (hg : d.grid it s = .ok g) {e : Edge} (he : e ∈ g.boundary.edges) :
    e ∈ g.dirichlet.edges ↔ ∃ f ∈ d.fix.options, ∃ p q, g.At e.1 p ∧ g.At e.2 q ∧
      OnSide (cells d.width s * s) (cells d.height s * s) f p ∧
      OnSide (cells d.width s * s) (cells d.height s * s) f q := by
  obtain ⟨ts, R⟩ := rectSpec_unique hw hh hs hg
  rw [R.memDE]
  constructor
  · rintro ⟨f, hf, a, ha, rfl⟩
    have h1 := latEdge_mem (sideEdge_lat (dg := true) ha)
    have h2 := (sideEdge_iff (dg := true)).1 ha
    exact ⟨f, hf, _, _, R.at_lab h1.1, R.at_lab h1.2, (onSide_pos hs).2 h2.2.1, (onSide_pos hs).2 h2.2.2⟩
  · rintro ⟨f, hf, p, q, hp, hq, h1, h2⟩
    obtain ⟨f', a, ha, rfl⟩ := (R.memBE e).1 he
    have hb := latEdge_mem (sideEdge_lat (dg := true) ha)
    have e1 := Lattice.vec2_inj (Option.some.inj ((R.at_lab hb.1).symm.trans hp))
    have e2 := Lattice.vec2_inj (Option.some.inj ((R.at_lab hb.2).symm.trans hq))
    rw [← e1] at h1
    rw [← e2] at h2
    exact ⟨f, hf, a, (sideEdge_iff (dg := true)).2 ⟨sideEdge_lat ha, (onSide_pos hs).1 h1, (onSide_pos hs).1 h2⟩, rfl⟩

/-- Order and multiplicity of the `fix` entries, a singleton list or a single option, unknown strings, and the
iteration order of sets do not matter. -/
theorem C13_order_irrelevant {it it' : SetIter} {w h s : ℝ} {fix fix' : Fix} {g g' : Grid ℝ} (hw : 0 ≤ w)
    (hh : 0 ≤ h) (hs : 0 < s) (hg : (RectDomain.mk w h fix).grid it s = .ok g)
    (hg' : (RectDomain.mk w h fix').grid it' s = .ok g')
    (hfix : ∀ f, (∀ st, f ≠ .unknown st) → (f ∈ fix.options ↔ f ∈ fix'.options)) :
    g.vertices = g'.vertices ∧ g.points = g'.points ∧ g.edges = g'.edges ∧ g.triangles = g'.triangles ∧
    g.boundary.vertices.Perm g'.boundary.vertices ∧ g.boundary.edges = g'.boundary.edges ∧
    g.dirichlet.edges.Perm g'.dirichlet.edges ∧ g.neumann.edges.Perm g'.neumann.edges ∧
    g.dirichlet.vertices.Perm g'.dirichlet.vertices := by
  obtain ⟨ts, R⟩ := rectSpec_unique (d := ⟨w, h, fix⟩) hw hh hs hg
  obtain ⟨ts', R'⟩ := rectSpec_unique (d := ⟨w, h, fix'⟩) hw hh hs hg'
  simp only at R R'
  have hDE : ∀ e, e ∈ g.dirichlet.edges ↔ e ∈ g'.dirichlet.edges := by
    intro e
    rw [R.memDE, R'.memDE]
    constructor
    · rintro ⟨f, hf, a, ha, he⟩
      exact ⟨f, (hfix f (by rintro st rfl; exact ha)).1 hf, a, ha, he⟩
    · rintro ⟨f, hf, a, ha, he⟩
      exact ⟨f, (hfix f (by rintro st rfl; exact ha)).2 hf, a, ha, he⟩
  have hBE : g.boundary.edges = g'.boundary.edges := by rw [R.boundary, R'.boundary]
  refine ⟨by rw [R.vertices, R'.vertices], by rw [R.points, R'.points], by rw [R.edges, R'.edges],
    by rw [R.triangles, R'.triangles], ?_, hBE, ?_, ?_, ?_⟩
  · rw [List.perm_ext_iff_of_nodup]
    · intro v; rw [R.memBV, R'.memBV]
    · rw [R.boundary]; exact nodup_boundaryVertices _ _ _
    · rw [R'.boundary]; exact nodup_boundaryVertices _ _ _
  · exact (List.perm_ext_iff_of_nodup R.nodupDE R'.nodupDE).2 hDE
  · refine (List.perm_ext_iff_of_nodup R.nodupNE R'.nodupNE).2 ?_
    intro e; rw [R.memNE, R'.memNE, hDE, hBE]
  · rw [List.perm_ext_iff_of_nodup]
    · intro v
      rw [R.memDV, R'.memDV]
      constructor
      · rintro ⟨f, hf, a, ha, ho, he⟩
        exact ⟨f, (hfix f (by rintro st rfl; exact ho)).1 hf, a, ha, ho, he⟩
      · rintro ⟨f, hf, a, ha, ho, he⟩
        exact ⟨f, (hfix f (by rintro st rfl; exact ho)).2 hf, a, ha, ho, he⟩
    · rw [R.dirichlet]; exact nodup_dirichletVertices R.tags
    · rw [R'.dirichlet]; exact nodup_dirichletVertices R'.tags

/-- Two very different spellings of the same `fix` argument, under two iteration orders. -/
example : ∃ g g', (RectDomain.mk 3 2 (.many [.left, .lower, .left])).grid .insertion (1 / 2 : ℝ) = .ok g ∧
    (RectDomain.mk 3 2 (.many [.lower, .unknown "top", .left])).grid .reversed (1 / 2 : ℝ) = .ok g' ∧
    g.dirichlet.edges.Perm g'.dirichlet.edges := by
  obtain ⟨g, _, hg, _⟩ := rect_grid_spec .insertion (RectDomain.mk (3 : ℝ) 2 (.many [.left, .lower, .left]))
    (s := 1 / 2) (by norm_num) (by norm_num) (by norm_num)
  obtain ⟨g', _, hg', _⟩ := rect_grid_spec .reversed (RectDomain.mk (3 : ℝ) 2 (.many [.lower, .unknown "top", .left]))
    (s := 1 / 2) (by norm_num) (by norm_num) (by norm_num)
  refine ⟨g, g', hg, hg', (C13_order_irrelevant (by norm_num) (by norm_num) (by norm_num) hg hg' ?_).2.2.2.2.2.2.1⟩
  intro f hf
  cases f with
  | unknown st => exact absurd rfl (hf st)
  | _ => simp [Fix.options]

/-! ### C14 -/

/-- The Dirichlet vertices are, without repetition, the vertices on a fixed side, i.e. the endpoints of the Dirichlet
edges. -/
theorem C14_dirichlet_vertices {it : SetIter} {d : RectDomain ℝ} {s : ℝ} {g : Grid ℝ} (hs : 0 < s)
    (hw : s ≤ d.width) (hh : s ≤ d.height) (hg : d.grid it s = .ok g) :
    g.dirichlet.vertices.Nodup ∧
    (∀ v, v ∈ g.dirichlet.vertices ↔ ∃ q, g.At v q ∧ ∃ f ∈ d.fix.options,
      OnSide (cells d.width s * s) (cells d.height s * s) f q) ∧
    (∀ v, v ∈ g.dirichlet.vertices ↔ IsEndpoint v g.dirichlet.edges) := by
  obtain ⟨ts, R⟩ := rectSpec_unique (hs.le.trans hw) (hs.le.trans hh) hs hg
  refine ⟨by rw [R.dirichlet]; exact nodup_dirichletVertices R.tags, ?_, ?_⟩
  · intro v
    rw [R.memDV]
    constructor
    · rintro ⟨f, hf, a, ha, ho, rfl⟩
      exact ⟨_, R.at_lab ha, f, hf, (onSide_pos hs).2 ho⟩
    · rintro ⟨q, hq, f, hf, ho⟩
      obtain ⟨a, ha, rfl, rfl⟩ := R.at_iff.1 hq
      exact ⟨f, hf, a, ha, (onSide_pos hs).1 ho, rfl⟩
  · intro v
    rw [R.memDV]
    constructor
    · rintro ⟨f, hf, a, ha, ho, rfl⟩
      obtain ⟨e, he, h⟩ := side_endpoint (one_le_cells hs hw) (one_le_cells hs hh) ha ho
      refine ⟨_, (R.memDE _).2 ⟨f, hf, e, he, rfl⟩, ?_⟩
      rcases h with h | h
      · left; rw [h]; rfl
      · right; rw [h]; rfl
    · rintro ⟨e, he, h⟩
      obtain ⟨f, hf, a, ha, rfl⟩ := (R.memDE _).1 he
      have h1 := latEdge_mem (sideEdge_lat (dg := true) ha)
      have h2 := (sideEdge_iff (dg := true)).1 ha
      rcases h with rfl | rfl
      · exact ⟨f, hf, _, h1.1, h2.2.1, rfl⟩
      · exact ⟨f, hf, _, h1.2, h2.2.2, rfl⟩

/-! ### C15 -/

/-- C15 fails: in the grid of a 2 × 1 rectangle with a fixed lower side, vertex 1 in the middle of the fixed side is
listed among the Neumann vertices although it belongs to no Neumann edge. -/
theorem C15_neumann_vertices_false (it : SetIter) :
    ∃ g, (RectDomain.mk (2 : ℝ) 1 (.one .lower)).grid it 1 = .ok g ∧
      1 ∈ g.neumann.vertices ∧ ¬ IsEndpoint 1 g.neumann.edges := by
  obtain ⟨g, ts, hg, R⟩ := rect_grid_spec it (RectDomain.mk (2 : ℝ) 1 (.one .lower)) (s := 1) (by norm_num)
    (by norm_num) (by norm_num)
  simp only [cells_examples.1, cells_examples.2.1] at R
  have hlab : lab (rowMajor (2 + 1) (1 + 1)) (1, 0) = 1 := by decide
  refine ⟨g, hg, ?_, ?_⟩
  · have := R.memNV (a := (1, 0)) ⟨by norm_num, by norm_num⟩
    rw [hlab] at this
    rw [this]
    refine ⟨⟨.lower, rfl⟩, ?_⟩
    have : fixedSides 2 1 (.one .lower) (1, 0) ⊆ {.lower} := by
      intro f hf
      simp [fixedSides, Fix.options] at hf
      simp [hf.1]
    exact (Finset.card_le_card this).trans (by simp)
  · rintro ⟨e, he, h⟩
    obtain ⟨h1, h2⟩ := (R.memNE e).1 he
    obtain ⟨f, a, ha, rfl⟩ := (R.memBE e).1 h1
    have hb := latEdge_mem (sideEdge_lat (dg := true) ha)
    have hin : ((1, 0) : LP) ∈ rowMajor (2 + 1) (1 + 1) := (mem_rowMajor (nx := 2) (ny := 1) _).2 ⟨by norm_num, by norm_num⟩
    rw [← hlab] at h
    have h' : (1, 0) = a.1 ∨ (1, 0) = a.2 := by
      rcases h with h | h
      · exact .inl (lab_inj hin h)
      · exact .inr (lab_inj hin h)
    have hf : f = .lower := by
      cases f
      · rfl
      all_goals first
        | exact ha.elim
        | (obtain ⟨i, hi, rfl⟩ := ha; simp at h')
    subst hf
    exact h2 ((R.memDE _).2 ⟨.lower, by simp [Fix.options], a, ha, rfl⟩)

/-- What holds: the Neumann vertices are, without repetition, the boundary vertices lying on at most one fixed side.
They include all endpoints of Neumann edges, and without `fix` they are exactly these. Missing: vertices strictly inside
a fixed side should not be listed. -/
theorem C15_neumann_vertices_partial {it : SetIter} {d : RectDomain ℝ} {s : ℝ} {g : Grid ℝ} (hs : 0 < s)
    (hw : s ≤ d.width) (hh : s ≤ d.height) (hg : d.grid it s = .ok g) :
    g.neumann.vertices.Nodup ∧
    (∀ v, v ∈ g.neumann.vertices ↔ v ∈ g.boundary.vertices ∧ ∀ q, g.At v q → ∀ f ∈ d.fix.options, ∀ f' ∈ d.fix.options,
      OnSide (cells d.width s * s) (cells d.height s * s) f q →
      OnSide (cells d.width s * s) (cells d.height s * s) f' q → f = f') ∧
    (∀ v, IsEndpoint v g.neumann.edges → v ∈ g.neumann.vertices) ∧
    (d.fix = .none → ∀ v, v ∈ g.neumann.vertices ↔ IsEndpoint v g.neumann.edges) := by
  classical
  obtain ⟨ts, R⟩ := rectSpec_unique (hs.le.trans hw) (hs.le.trans hh) hs hg
  have hx := one_le_cells hs hw
  have hy := one_le_cells hs hh
  have key : ∀ v, v ∈ g.neumann.vertices ↔ v ∈ g.boundary.vertices ∧ ∀ q, g.At v q → ∀ f ∈ d.fix.options,
      ∀ f' ∈ d.fix.options, OnSide (cells d.width s * s) (cells d.height s * s) f q →
      OnSide (cells d.width s * s) (cells d.height s * s) f' q → f = f' := by
    intro v
    constructor
    · intro hv
      refine ⟨R.NV_sub hv, ?_⟩
      intro q hq f hf f' hf' h1 h2
      obtain ⟨a, ha, rfl, rfl⟩ := R.at_iff.1 hq
      have := ((R.memNV ha).1 hv).2
      rw [Finset.card_le_one] at this
      exact this f (by simp [fixedSides, hf, (onSide_pos hs).1 h1]) f' (by simp [fixedSides, hf', (onSide_pos hs).1 h2])
    · rintro ⟨hv, hq⟩
      obtain ⟨f, a, ha, ho, rfl⟩ := (R.memBV v).1 hv
      rw [R.memNV ha]
      refine ⟨⟨f, ho⟩, ?_⟩
      rw [Finset.card_le_one]
      intro f1 h1 f2 h2
      simp only [fixedSides, Finset.mem_filter, List.mem_toFinset] at h1 h2
      exact hq _ (R.at_lab ha) f1 h1.1 f2 h2.1 ((onSide_pos hs).2 h1.2) ((onSide_pos hs).2 h2.2)
  have hend : ∀ v, IsEndpoint v g.neumann.edges → v ∈ g.neumann.vertices := by
    rintro v ⟨e, he, hv⟩
    obtain ⟨h1, h2⟩ := (R.memNE e).1 he
    obtain ⟨f0, a, ha, rfl⟩ := (R.memBE e).1 h1
    have hb := latEdge_mem (sideEdge_lat (dg := true) ha)
    have hs0 := (sideEdge_iff (dg := true)).1 ha
    have hf0 : f0 ∉ d.fix.options := fun hf => h2 ((R.memDE _).2 ⟨f0, hf, a, ha, rfl⟩)
    obtain ⟨b, hbox, hside, rfl⟩ : ∃ b, InBox (cells d.width s) (cells d.height s) b ∧
        OnSideL (cells d.width s) (cells d.height s) f0 b ∧ v = lab (rowMajor (cells d.width s + 1) (cells d.height s + 1)) b := by
      rcases hv with rfl | rfl
      · exact ⟨a.1, hb.1, hs0.2.1, rfl⟩
      · exact ⟨a.2, hb.2, hs0.2.2, rfl⟩
    rw [R.memNV hbox]
    refine ⟨⟨f0, hside⟩, ?_⟩
    rw [Finset.card_le_one]
    intro f1 h1 f2 h2
    simp only [fixedSides, Finset.mem_filter, List.mem_toFinset] at h1 h2
    have n1 : f1 ≠ f0 := fun h => hf0 (h ▸ h1.1)
    have n2 : f2 ≠ f0 := fun h => hf0 (h ▸ h2.1)
    have o1 := h1.2
    have o2 := h2.2
    cases f0 <;> cases f1 <;> cases f2 <;>
      first | rfl | exact absurd rfl n1 | exact absurd rfl n2 | (simp only [OnSideL] at hside o1 o2 <;> omega)
  refine ⟨by rw [R.neumann]; exact nodup_neumannVertices R.tags, key, hend, ?_⟩
  intro hnone v
  refine ⟨?_, hend v⟩
  intro hv
  obtain ⟨f, a, ha, ho, rfl⟩ := (R.memBV v).1 (R.NV_sub hv)
  obtain ⟨e, he, h⟩ := side_endpoint hx hy ha ho
  refine ⟨labE _ e, (R.memNE _).2 ⟨(R.memBE _).2 ⟨f, e, he, rfl⟩, ?_⟩, ?_⟩
  · rw [R.memDE, hnone]; simp [Fix.options]
  · rcases h with h | h
    · left; rw [h]; rfl
    · right; rw [h]; rfl

/-! ### a concrete case: the sample grid meets the hypotheses of C09–C15 -/

section sample
variable (it : SetIter)

private theorem sp : (0 : ℝ) < 1 / 2 := by norm_num
private theorem sw : (1 / 2 : ℝ) ≤ sampleDomain.width := by norm_num [sampleDomain]
private theorem sh : (1 / 2 : ℝ) ≤ sampleDomain.height := by norm_num [sampleDomain]

/-- C09: the counts predicted for 2 × 2 cells; no edge or triangle occurs twice; all indices are valid; the diagonal
`{0, 4}` is a side of the triangle `(0, 1, 4)` -/
example : (sampleGrid it).vertices.length = 9 ∧ (sampleGrid it).edges.length = 16 ∧ (sampleGrid it).triangles.length = 8 ∧
    ((sampleGrid it).edges.map Edge.undirected).Nodup ∧ ((sampleGrid it).triangles.map Tri.vertexSet).Nodup ∧
    (sampleGrid it).WellFormed ∧ ∃ t ∈ (sampleGrid it).triangles, s(0, 4) ∈ t.sides := by
  obtain ⟨h1, h2, h3⟩ := sampleGrid_lists it
  have h4 := C09_no_duplicates (sp.le.trans sw) (sp.le.trans sh) sp (sampleGrid_eq it)
  refine ⟨by rw [h1]; rfl, by rw [h2]; rfl, by rw [h3]; rfl, h4.1, h4.2,
    C09_indices_valid (sp.le.trans sw) (sp.le.trans sh) sp (sampleGrid_eq it),
    (C09_edges_are_sides sp sw sh (sampleGrid_eq it) s(0, 4)).1 ?_⟩
  rw [h2]
  decide

/-- C10: vertex 5 lies at `(1, 1/2)`, and no other vertex does; the grid does not reach the right side `x = 5/4` -/
example : (sampleGrid it).At 5 (1, 1 / 2) ∧ (∀ v, (sampleGrid it).At v (1, 1 / 2) → v = 5) ∧
    ∀ v q, (sampleGrid it).At v q → q.1 ≤ 1 := by
  have h : (sampleGrid it).At 5 (1, 1 / 2) := by
    have := sampleGrid_at it (i := 2) (j := 1) (by norm_num) (by norm_num)
    norm_num at this ⊢
    exact this
  refine ⟨h, fun v hv =>
    (C10_points_in_rectangle (sp.le.trans sw) (sp.le.trans sh) sp (sampleGrid_eq it)).2 _ _ _ hv h, ?_⟩
  rintro v q hv
  obtain ⟨i, j, h1, -, -, rfl⟩ := (C10_points (sp.le.trans sw) (sp.le.trans sh) sp (sampleGrid_eq it) v q).1 hv
  rw [sample_cells.1] at h1
  have : (i : ℝ) ≤ 2 := by exact_mod_cast h1
  simp only
  linarith

/-- C11: the point `(7/8, 1/3)` lies in a triangle; the area of the grid is `1`, less than the area `5/4` of the
rectangle -/
example (r : TriRule ℝ) : (∃ t ∈ (sampleGrid it).triangles, (7 / 8, 1 / 3) ∈ (sampleGrid it).region t) ∧
    ∃ I, Integrator.new r (sampleGrid it).triangles (sampleGrid it).points = .ok I ∧ I.areas.sum = 1 := by
  constructor
  · refine ((C11_tiling sp sw sh (sampleGrid_eq it)).1 _).2 ?_
    rw [sample_cells.1, sample_cells.2]; norm_num
  · obtain ⟨I, h1, -, h2⟩ := C11_area sp sw sh (sampleGrid_eq it) r
    refine ⟨I, h1, ?_⟩
    rw [h2, sample_cells.1, sample_cells.2]; norm_num

/-- C12: `(2, 5)` is a boundary edge and the diagonal `(0, 4)` is not; vertex 4 is the only one not on the boundary -/
example : (2, 5) ∈ (sampleGrid it).boundary.edges ∧ (0, 4) ∉ (sampleGrid it).boundary.edges ∧
    4 ∉ (sampleGrid it).boundary.vertices ∧ 2 ∈ (sampleGrid it).boundary.vertices := by
  obtain ⟨h1, h2, h3⟩ := sampleGrid_lists it
  have hb := (C12_boundary_edges sp sw sh (sampleGrid_eq it)).2
  have hv := (C12_boundary_vertices sp sw sh (sampleGrid_eq it)).2
  have he : (2, 5) ∈ (sampleGrid it).boundary.edges := by
    rw [hb, h2, h3]
    refine ⟨by decide, (1, 2, 5), by decide, ?_⟩
    rintro t ⟨ht, hs⟩
    fin_cases ht <;> revert hs <;> decide
  refine ⟨he, ?_, ?_, (hv.2 2).2 ⟨(2, 5), he, .inl rfl⟩⟩
  · rw [hb, h2, h3]
    rintro ⟨-, t, -, hu⟩
    have h5 := hu (0, 1, 4) ⟨by decide, by decide⟩
    have h6 := hu (4, 3, 0) ⟨by decide, by decide⟩
    rw [← h6] at h5
    revert h5; decide
  · rw [hv.1]
    rintro ⟨q, hq, h5⟩
    have h6 : (sampleGrid it).At 4 (1 / 2, 1 / 2) := by
      have := sampleGrid_at it (i := 1) (j := 1) (by norm_num) (by norm_num)
      norm_num at this ⊢
      exact this
    obtain rfl : q = (1 / 2, 1 / 2) := Lattice.vec2_inj (Option.some.inj (hq.symm.trans h6))
    rw [sample_cells.1, sample_cells.2] at h5
    norm_num at h5

/-- C13: the edge `(0, 3)` on the left side is a Dirichlet edge, the edge `(2, 5)` on the right side is a Neumann edge -/
example : (0, 3) ∈ (sampleGrid it).dirichlet.edges ∧ (2, 5) ∈ (sampleGrid it).neumann.edges := by
  obtain ⟨h1, h2, h3⟩ := sampleGrid_lists it
  obtain ⟨p0, p1, p2, p3, p4, p5, -⟩ := sampleGrid_points it
  have hb := (C12_boundary_edges sp sw sh (sampleGrid_eq it)).2
  have hf {e : Edge} := C13_fixed_sides (sp.le.trans sw) (sp.le.trans sh) sp (sampleGrid_eq it) (e := e)
  have b1 : (0, 3) ∈ (sampleGrid it).boundary.edges := by
    rw [hb, h2, h3]
    refine ⟨by decide, (4, 3, 0), by decide, ?_⟩
    rintro t ⟨ht, hs⟩
    fin_cases ht <;> revert hs <;> decide
  have b2 : (2, 5) ∈ (sampleGrid it).boundary.edges := by
    rw [hb, h2, h3]
    refine ⟨by decide, (1, 2, 5), by decide, ?_⟩
    rintro t ⟨ht, hs⟩
    fin_cases ht <;> revert hs <;> decide
  refine ⟨(hf b1).2 ⟨.left, by simp [sampleDomain, Fix.options], _, _, p0, p3, rfl, rfl⟩, ?_⟩
  refine (((C13_partition (sp.le.trans sw) (sp.le.trans sh) sp (sampleGrid_eq it)).2.2.1 _).1 b2).resolve_left ?_
  rw [hf b2]
  rintro ⟨f, hf, p, q, hp, hq, o1, o2⟩
  obtain rfl := At.unique hp p2
  obtain rfl := At.unique hq p5
  simp only [sampleDomain, Fix.options, List.mem_cons, List.not_mem_nil, or_false] at hf
  rcases hf with rfl | rfl
  · norm_num [OnSide] at o2
  · norm_num [OnSide] at o1

/-- C14, C15: the corner `0` of the two fixed sides is a Dirichlet and not a Neumann vertex; vertex `5` is a Neumann and not
a Dirichlet vertex; vertex `3`, strictly inside the left side, is both -/
example : 0 ∈ (sampleGrid it).dirichlet.vertices ∧ 0 ∉ (sampleGrid it).neumann.vertices ∧
    5 ∉ (sampleGrid it).dirichlet.vertices ∧ 5 ∈ (sampleGrid it).neumann.vertices ∧
    3 ∈ (sampleGrid it).dirichlet.vertices ∧ 3 ∈ (sampleGrid it).neumann.vertices := by
  obtain ⟨p0, p1, p2, p3, p4, p5, -⟩ := sampleGrid_points it
  have hb := (C12_boundary_vertices sp sw sh (sampleGrid_eq it)).2.1
  have hD := (C14_dirichlet_vertices sp sw sh (sampleGrid_eq it)).2.1
  have hN := (C15_neumann_vertices_partial sp sw sh (sampleGrid_eq it)).2.1
  have ho : sampleDomain.fix.options = [.lower, .left] := rfl
  rw [ho] at hD hN
  refine ⟨(hD 0).2 ⟨_, p0, .lower, by simp, rfl⟩, ?_, ?_, (hN 5).2 ⟨(hb 5).2 ⟨_, p5, ?_⟩, ?_⟩,
    (hD 3).2 ⟨_, p3, .left, by simp, rfl⟩, (hN 3).2 ⟨(hb 3).2 ⟨_, p3, .inl rfl⟩, ?_⟩⟩
  · rw [hN]
    rintro ⟨-, h⟩
    exact absurd (h _ p0 .lower (by simp) .left (by simp) rfl rfl) (by decide)
  · rw [hD]
    rintro ⟨q, hq, f, hf, o⟩
    obtain rfl := At.unique hq p5
    simp only [List.mem_cons, List.not_mem_nil, or_false] at hf
    rcases hf with rfl | rfl <;> norm_num [OnSide] at o
  · rw [sample_cells.1]; norm_num
  · rintro q hq f hf - - o -
    obtain rfl := At.unique hq p5
    simp only [List.mem_cons, List.not_mem_nil, or_false] at hf
    rcases hf with rfl | rfl <;> norm_num [OnSide] at o
  · rintro q hq f hf f' hf' o o'
    obtain rfl := At.unique hq p3
    simp only [List.mem_cons, List.not_mem_nil, or_false] at hf hf'
    rcases hf with rfl | rfl <;> rcases hf' with rfl | rfl <;> first | rfl | (norm_num [OnSide] at o; done) | (norm_num [OnSide] at o'; done)

end sample

end Tve
