import Verif.Lemmas.Library
import Verif.Props.Grid

/-!
# Properties C16-C19 and C21: queries on grids
-/

namespace Tve

/-- a library grid exists: the 2 × 1 rectangle with mesh size 1, and its refinement by 3 -/
theorem libraryGrid_example (it : SetIter) :
    ∃ g r, LibraryGrid g 2 1 1 ∧ (RectDomain.mk (2 : ℝ) 1 (.one .lower)).refine g 3 = .ok r ∧
      LibraryGrid r.toGrid 6 3 (1 / 3) := by
  obtain ⟨g, ts, hg, -⟩ := rect_grid_spec it (RectDomain.mk (2 : ℝ) 1 (.one .lower)) (s := 1) (by norm_num)
    (by norm_num) (by norm_num)
  have G : LibraryGrid g 2 1 1 := by
    have := LibraryGrid.grid (s := 1) (by norm_num) (by norm_num) (by norm_num) hg
    rwa [show cells (2 : ℝ) 1 = 2 from cells_examples.1, show cells (1 : ℝ) 1 = 1 from cells_examples.2.1] at this
  obtain ⟨P, dg, E, T, BV, BE, DV, DE, NV, NE, h⟩ := G.lgrid
  obtain ⟨r, hr, R⟩ := refine_ok (n := 3) (by norm_num) (RectDomain.mk (2 : ℝ) 1 (.one .lower)) h.lat (by norm_num)
    h.pd h.pn
  refine ⟨g, r, G, by exact_mod_cast hr, ?_⟩
  have := LibraryGrid.refine (n := 3) G (by norm_num) (by norm_num) hr
  exact_mod_cast this

/-! ### C16 -/

/-- Point location never raises. A located point lies in the reported triangle of the grid up to the tolerance, and the
coordinates sum to one and reconstruct the point exactly. -/
theorem C16_located {g : Grid ℝ} {nx ny : ℕ} {s : ℝ} (G : LibraryGrid g nx ny s) {z : ℝ × ℝ} {b : BPoint ℝ}
    (hz : g.toBarycentricPoint (vec2 z) = .ok (some b)) :
    b.triangle ∈ g.triangles ∧
    (∃ p q r, g.At b.triangle.1 p ∧ g.At b.triangle.2.1 q ∧ g.At b.triangle.2.2 r ∧
      baryPoint p q r b.coordinates.l1 b.coordinates.l2 b.coordinates.l3 = z) ∧
    b.coordinates.l1 + b.coordinates.l2 + b.coordinates.l3 = 1 ∧
    (∀ c ∈ [b.coordinates.l1, b.coordinates.l2, b.coordinates.l3], -(2 * (1 / 10 ^ 10) / s ^ 2) ≤ c ∧
      (1 / 10 ^ 5 ≤ s → -((1 / 10 ^ 10) / s ^ 2) ≤ c)) := by
  obtain ⟨P, dg, E, T, BV, BE, L⟩ := G.lattice
  have hs := L.h_pos
  rw [Grid.toBarycentricPoint, L.points, L.triangles] at hz
  rcases locate_lattice (nx := nx) (ny := ny) hs z T (fun t ht => ⟨(L.memT t).1 ht, L.memT_P ht⟩) with
    ⟨t, ht, c, ⟨hcon, rfl⟩, e⟩ | ⟨-, e⟩
  · rw [e] at hz
    simp only [Except.ok.injEq, Option.some.injEq] at hz
    subst hz
    have hm := L.memT_P ht
    have hA := (latTri_geom (h := s) ((L.memT t).1 ht)).1
    have hA0 : 0 < cross (pos s t.1) (pos s t.2.1) (pos s t.2.2) := by rw [hA]; positivity
    have hs2 : 0 < s ^ 2 := by positivity
    have hb := contains_bound hA hcon
    have hsum := cross_add (pos s t.1) (pos s t.2.1) (pos s t.2.2) z
    rw [hA] at hsum
    refine ⟨?_, ⟨_, _, _, L.at_lab hm.1, L.at_lab hm.2.1, L.at_lab hm.2.2, ?_⟩, ?_, ?_⟩
    · rw [L.triangles]; exact List.mem_map_of_mem ht
    · have := baryPoint_cross hA0 z
      rwa [hA] at this
    · simp only
      rw [← add_div, ← add_div, div_eq_one_iff_eq hs2.ne']
      linarith
    · have key : ∀ x, min (-containsEps) (s ^ 2 - 2 * containsEps) ≤ x →
          -(2 * (1 / 10 ^ 10) / s ^ 2) ≤ x / s ^ 2 ∧ (1 / 10 ^ 5 ≤ s → -((1 / 10 ^ 10) / s ^ 2) ≤ x / s ^ 2) := by
        intro x hx
        rw [← neg_div, ← neg_div, div_le_div_iff_of_pos_right hs2, div_le_div_iff_of_pos_right hs2]
        unfold containsEps at hx
        constructor
        · refine le_trans (le_min ?_ ?_) hx
          · norm_num
          · nlinarith
        · intro h5
          refine le_trans (le_min ?_ ?_) hx
          · norm_num
          · have : (1 / 10 ^ 5 : ℝ) ^ 2 ≤ s ^ 2 := by gcongr
            norm_num at this ⊢; linarith
      intro c hc
      simp only [List.mem_cons, List.not_mem_nil, or_false] at hc
      rcases hc with rfl | rfl | rfl
      exacts [key _ hb.2.1, key _ hb.2.2, key _ hb.1]
  · rw [e] at hz; cases hz

/-- Every point of the closed grid rectangle is located, and `None` is returned only outside all triangles. -/
theorem C16_total {g : Grid ℝ} {nx ny : ℕ} {s : ℝ} (G : LibraryGrid g nx ny s) (z : ℝ × ℝ) :
    (∃ o, g.toBarycentricPoint (vec2 z) = .ok o) ∧
    ((0 ≤ z.1 ∧ z.1 ≤ nx * s ∧ 0 ≤ z.2 ∧ z.2 ≤ ny * s) → ∃ b, g.toBarycentricPoint (vec2 z) = .ok (some b)) ∧
    (g.toBarycentricPoint (vec2 z) = .ok none → ∀ t ∈ g.triangles, z ∉ g.region t) := by
  obtain ⟨P, dg, E, T, BV, BE, L⟩ := G.lattice
  have hs := L.h_pos
  have hloc := locate_lattice (nx := nx) (ny := ny) hs z T (fun t ht => ⟨(L.memT t).1 ht, L.memT_P ht⟩)
  rw [Grid.toBarycentricPoint, L.points, L.triangles]
  have hnone : (∀ t ∈ T, z ∉ regionL s t) → ∀ t ∈ T.map (labT P), z ∉ g.region t := by
    intro h' t ht
    obtain ⟨t', ht', rfl⟩ := List.mem_map.1 ht
    rw [L.region_labT ht']
    exact h' t' ht'
  rcases hloc with ⟨t, ht, c, -, e⟩ | ⟨h', e⟩
  · rw [e]
    exact ⟨⟨_, rfl⟩, fun _ => ⟨_, rfl⟩, fun h => by cases h⟩
  · rw [e]
    refine ⟨⟨_, rfl⟩, fun hz => ?_, fun _ => hnone h'⟩
    obtain ⟨t, ht, hz'⟩ := (L.covers z).2 hz
    rw [L.triangles] at ht
    exact absurd hz' (hnone h' t ht)

/-- Every vertex of the grid is located. -/
theorem C16_vertices_located {g : Grid ℝ} {nx ny : ℕ} {s : ℝ} (G : LibraryGrid g nx ny s) {v : Vertex} {q : ℝ × ℝ}
    (hv : g.At v q) : ∃ b, g.toBarycentricPoint (vec2 q) = .ok (some b) := by
  obtain ⟨P, dg, E, T, BV, BE, L⟩ := G.lattice
  refine (C16_total G q).2.1 ?_
  obtain ⟨a, ha, -, rfl⟩ := L.at_iff.1 hv
  obtain ⟨h1, h2⟩ := (L.memP a).1 ha
  have hs := L.h_pos
  have h1' : (a.1 : ℝ) ≤ nx := by exact_mod_cast h1
  have h2' : (a.2 : ℝ) ≤ ny := by exact_mod_cast h2
  exact ⟨by simp only [pos]; positivity, mul_le_mul_of_nonneg_right h1' hs.le, by simp only [pos]; positivity,
    mul_le_mul_of_nonneg_right h2' hs.le⟩

/-! ### C17 -/

/-- `point_to_vertex` never raises; it returns the first vertex closer than the tolerance, and `None` exactly when there
is none. -/
theorem C17_point_to_vertex {g : Grid ℝ} {nx ny : ℕ} {s : ℝ} (G : LibraryGrid g nx ny s) (z : ℝ × ℝ) :
    ∃ o, g.pointToVertex (vec2 z) = .ok o ∧
      (∀ v, o = some v → ∃ q, g.At v q ∧ dist2 z q < g.meanLength / 10 ^ 7) ∧
      (o = none ↔ ∀ v q, g.At v q → ¬ dist2 z q < g.meanLength / 10 ^ 7) := by
  obtain ⟨P, dg, E, T, BV, BE, L⟩ := G.lattice
  have W := G.wellFormed
  have e := pointToVertex_eq W L.meanExact z
  rw [L.pointTol_eq] at e
  refine ⟨_, e, ?_, ?_⟩
  · intro v hv
    obtain ⟨h1, h2, -⟩ := findIdx?_range hv
    exact ⟨_, at_xy W h1, by simpa using h2⟩
  · constructor
    · intro hn v q hq
      have := findIdx?_range_none hn v (at_lt hq)
      rw [xy_of_at hq] at this
      simpa using this
    · intro hn
      rw [List.findIdx?_eq_none_iff]
      intro v hv
      have := hn v _ (at_xy W (List.mem_range.1 hv))
      simpa using this

/-- `point_to_vertex` inverts `points`. -/
theorem C17_inverse {g : Grid ℝ} {nx ny : ℕ} {s : ℝ} (G : LibraryGrid g nx ny s) {v : Vertex} {q : ℝ × ℝ}
    (hv : g.At v q) : g.pointToVertex (vec2 q) = .ok (some v) := by
  obtain ⟨P, dg, E, T, BV, BE, L⟩ := G.lattice
  obtain ⟨a, ha, rfl, rfl⟩ := L.at_iff.1 hv
  rw [pointToVertex_pos L.h_pos L.points L.tolerance_bounds.1 L.tolerance_bounds.2, if_pos ha]

/-- `_contains_point` never raises; it holds for the points of the grid, up to the tolerance, and for no others. -/
theorem C17_contains {g : Grid ℝ} {nx ny : ℕ} {s : ℝ} (G : LibraryGrid g nx ny s) (z : ℝ × ℝ) :
    ∃ b, g.containsPoint (vec2 z) = .ok b ∧ (b = true ↔ ∃ v q, g.At v q ∧ dist2 z q < g.meanLength / 10 ^ 7) := by
  obtain ⟨o, h1, -, h3⟩ := C17_point_to_vertex G z
  refine ⟨o.isSome, by rw [Grid.containsPoint, h1]; rfl, ?_⟩
  cases o with
  | none =>
    have := h3.1 rfl
    simp only [Option.isSome_none, Bool.false_eq_true, false_iff]
    rintro ⟨v, q, h, h'⟩
    exact this v q h h'
  | some v =>
    simp only [Option.isSome_some, true_iff]
    by_contra h
    push Not at h
    exact absurd (h3.2 fun v q hv => not_lt.2 (h v q hv)) (by simp)

/-- The tolerance is far below the mesh size: a point is close to at most one vertex. -/
theorem C17_unique {g : Grid ℝ} {nx ny : ℕ} {s : ℝ} (G : LibraryGrid g nx ny s) :
    0 < g.meanLength / 10 ^ 7 ∧ g.meanLength / 10 ^ 7 ≤ s / 10 ^ 6 ∧
    ∀ v v' q q', g.At v q → g.At v' q' → v ≠ v' → s ≤ dist2 q q' := by
  obtain ⟨P, dg, E, T, BV, BE, L⟩ := G.lattice
  have hs := L.h_pos
  obtain ⟨h1, h2⟩ := L.meanLength_bounds
  refine ⟨div_pos (by linarith) (by norm_num), ?_, fun v v' q q' h1 h2 hne => L.dist_ge h1 h2 hne⟩
  rw [div_le_div_iff₀ (by norm_num) (by norm_num)]
  nlinarith

/-! ### C18 -/

/-- `triangle_vertices` returns the points of a listed triangle in order and rejects everything else. -/
theorem C18_triangle_vertices {K : Type} (g : Grid K) (t : Tri) :
    (t ∉ g.triangles → g.triangleVertices t = .error .valueError) ∧
    (∀ p q r, t ∈ g.triangles → g.points[t.1]? = some p → g.points[t.2.1]? = some q → g.points[t.2.2]? = some r →
      g.triangleVertices t = .ok (p, q, r)) := by
  constructor
  · intro h; rw [Grid.triangleVertices, if_pos h]
  · intro p q r h h1 h2 h3
    rw [Grid.triangleVertices, if_neg (by simpa using h), pyGet_eq_ok.2 h1, pyGet_eq_ok.2 h2, pyGet_eq_ok.2 h3]
    rfl

/-- `edge_vertices` returns the points of a listed edge in order and rejects everything else, in particular the
reversed edge when only one orientation is listed. -/
theorem C18_edge_vertices {K : Type} (g : Grid K) (e : Edge) :
    (e ∉ g.edges → g.edgeVertices e = .error .valueError) ∧
    (∀ p q, e ∈ g.edges → g.points[e.1]? = some p → g.points[e.2]? = some q → g.edgeVertices e = .ok (p, q)) := by
  constructor
  · intro h; rw [Grid.edgeVertices, if_pos h]
  · intro p q h h1 h2
    rw [Grid.edgeVertices, if_neg (by simpa using h), pyGet_eq_ok.2 h1, pyGet_eq_ok.2 h2]
    rfl

/-- On library grids both lookups succeed for every listed triangle and edge. -/
theorem C18_library {g : Grid ℝ} {nx ny : ℕ} {s : ℝ} (G : LibraryGrid g nx ny s) :
    (∀ t ∈ g.triangles, ∃ p q r, g.At t.1 p ∧ g.At t.2.1 q ∧ g.At t.2.2 r ∧
      g.triangleVertices t = .ok (vec2 p, vec2 q, vec2 r)) ∧
    (∀ e ∈ g.edges, ∃ p q, g.At e.1 p ∧ g.At e.2 q ∧ g.edgeVertices e = .ok (vec2 p, vec2 q)) := by
  have W := G.wellFormed
  have hlt : ∀ v ∈ g.vertices, v < g.points.length := fun v hv => by
    rw [W.vertices] at hv; exact List.mem_range.1 hv
  constructor
  · intro t ht
    obtain ⟨h1, h2, h3⟩ := W.triangles t ht
    obtain ⟨p, hp⟩ := W.planar _ (hlt _ h1)
    obtain ⟨q, hq⟩ := W.planar _ (hlt _ h2)
    obtain ⟨r, hr⟩ := W.planar _ (hlt _ h3)
    exact ⟨p, q, r, hp, hq, hr, (C18_triangle_vertices g t).2 _ _ _ ht hp hq hr⟩
  · intro e he
    obtain ⟨h1, h2⟩ := W.edges e he
    obtain ⟨p, hp⟩ := W.planar _ (hlt _ h1)
    obtain ⟨q, hq⟩ := W.planar _ (hlt _ h2)
    exact ⟨p, q, hp, hq, (C18_edge_vertices g e).2 _ _ he hp hq⟩

/-! ### C19 -/

theorem gridEdgeLength_planar {g : Grid ℝ} {e : Edge} {p q : ℝ × ℝ} (h1 : g.At e.1 p) (h2 : g.At e.2 q) :
    gridEdgeLength g.points e = .ok (edgeLen g.xy e) := by
  unfold gridEdgeLength edgeLen
  rw [pyGet_eq_ok.2 h1, pyGet_eq_ok.2 h2, xy_of_at h1, xy_of_at h2]
  simp only [bind_ok, vec2_sub, pure_eq_ok, norm_vec2]

/-- the constructor stores the exact mean -/
theorem C19_constructor_mean {vs : List Vertex} {es : List Edge} {ts : List Tri} {b d n : Boundary}
    {P : ℕ → ℝ × ℝ} {N : ℕ} (hes : ∀ e ∈ es, e.1 < N ∧ e.2 < N) :
    ∃ g, Grid.new vs es ts b d n (planar N P) = .ok g ∧ g.edges = es ∧ g.MeanExact := by
  have hat : ∀ (g : Grid ℝ), g.points = planar N P → ∀ v < N, g.At v (P v) := by
    intro g hg v hv
    rw [Grid.At, hg, planar, List.getElem?_map, List.getElem?_range hv]; rfl
  cases es with
  | nil => exact ⟨_, rfl, rfl, by simp [Grid.MeanExact]⟩
  | cons e t =>
    set g : Grid ℝ := ⟨vs, e :: t, ts, b, d, n, planar N P, none⟩ with hgdef
    have hl : pyMap (e :: t) (gridEdgeLength (planar N P)) = .ok ((e :: t).map (edgeLen g.xy)) := by
      refine pyMap_eq_ok _ fun e' he' => ?_
      obtain ⟨h1, h2⟩ := hes e' he'
      exact gridEdgeLength_planar (g := g) (hat g rfl _ h1) (hat g rfl _ h2)
    refine ⟨⟨vs, e :: t, ts, b, d, n, planar N P,
      some (((e :: t).map (edgeLen g.xy)).sum / ((e :: t).length : ℝ))⟩, ?_, rfl, ?_⟩
    · rw [Grid.new, hl]
      rfl
    · simp only [Grid.MeanExact, List.cons_ne_nil, if_false]
      rfl

/-- one call of `append_edge` -/
theorem appendEdge_step {g : Grid ℝ} (hp : ∀ v < g.points.length, ∃ q, g.At v q) (hm : g.MeanExact) {e : Edge}
    (he : e.1 < g.points.length ∧ e.2 < g.points.length) :
    ∃ g', g.appendEdge e = .ok g' ∧ g'.MeanExact ∧ g' = { g with edges := g'.edges, meanEdgeLength := g'.meanEdgeLength } ∧
      g'.edges = if e.undirected ∈ g.edges.map Edge.undirected then g.edges else g.edges ++ [e] := by
  have hmem : e.undirected ∈ g.edges.map Edge.undirected ↔ (e ∈ g.edges ∨ (e.2, e.1) ∈ g.edges) := by
    rw [List.mem_map]
    constructor
    · rintro ⟨e', he', h'⟩
      rcases Sym2.eq_iff.1 h' with ⟨h1, h2⟩ | ⟨h1, h2⟩
      · left; rwa [show e = e' from Prod.ext h1.symm h2.symm]
      · right; rwa [show (e.2, e.1) = e' from Prod.ext h1.symm h2.symm]
    · rintro (h' | h')
      · exact ⟨_, h', rfl⟩
      · exact ⟨_, h', Sym2.eq_swap⟩
  unfold Grid.appendEdge
  by_cases h : e ∈ g.edges ∨ (e.2, e.1) ∈ g.edges
  · rw [if_neg (by tauto), if_pos (hmem.2 h)]
    exact ⟨g, rfl, hm, rfl, rfl⟩
  · rw [if_pos (by tauto), if_neg (fun h' => h (hmem.1 h'))]
    obtain ⟨p, h1⟩ := hp _ he.1
    obtain ⟨q, h2⟩ := hp _ he.2
    rw [gridEdgeLength_planar h1 h2]
    simp only [bind_ok, pure_eq_ok]
    refine ⟨_, rfl, ?_, rfl, rfl⟩
    unfold Grid.MeanExact at hm ⊢
    have hne : (g.edges ++ [e]) ≠ [] := by simp
    simp only [hne, if_false, Option.some.injEq]
    unfold Grid.meanLength
    simp only [List.map_append, List.map_cons, List.map_nil, List.sum_append, List.sum_cons, List.sum_nil, add_zero,
      List.length_append, List.length_cons, List.length_nil]
    have hxy : ({ g with edges := g.edges ++ [e]
                         meanEdgeLength := some (match g.meanEdgeLength with
                            | none => edgeLen g.xy e
                            | some m => m * (g.edges.length : ℝ) / ((g.edges.length : ℝ) + 1) +
                                edgeLen g.xy e / ((g.edges.length : ℝ) + 1)) } : Grid ℝ).xy = g.xy := rfl
    by_cases h0 : g.edges = []
    · rw [if_pos h0] at hm
      simp only [hm, h0, List.map_nil, List.sum_nil, List.length_nil, zero_add]
      change edgeLen g.xy e = edgeLen g.xy e / ((1 : ℕ) : ℝ)
      simp
    · rw [if_neg h0] at hm
      have hl : (0 : ℝ) < g.edges.length := by exact_mod_cast List.length_pos_iff.2 h0
      rw [hm]
      simp only [Grid.meanLength]
      push_cast
      change _ = ((g.edges.map (edgeLen g.xy)).sum + edgeLen g.xy e) / ((g.edges.length : ℝ) + 1)
      field_simp

/-- After any history of `append_edge` calls: no undirected edge is present twice, earlier edges keep position and
orientation, every appended edge is present in one orientation, nothing else was added or changed, and the stored mean
is exact. -/
theorem C19_append_edge_history {g : Grid ℝ} (hp : ∀ v < g.points.length, ∃ q, g.At v q)
    (hn : (g.edges.map Edge.undirected).Nodup) (hm : g.MeanExact) (es : List Edge)
    (hes : ∀ e ∈ es, e.1 < g.points.length ∧ e.2 < g.points.length) :
    ∃ g', pyFor es g Grid.appendEdge = .ok g' ∧ g.edges <+: g'.edges ∧ (g'.edges.map Edge.undirected).Nodup ∧
      (∀ e ∈ es, e ∈ g'.edges ∨ (e.2, e.1) ∈ g'.edges) ∧ (∀ e ∈ g'.edges, e ∈ g.edges ∨ e ∈ es) ∧
      g'.MeanExact ∧ g'.vertices = g.vertices ∧ g'.points = g.points ∧ g'.triangles = g.triangles ∧
      g'.boundary = g.boundary ∧ g'.dirichlet = g.dirichlet ∧ g'.neumann = g.neumann := by
  induction es generalizing g with
  | nil => exact ⟨g, rfl, List.prefix_refl _, hn, by simp, by simp, hm, rfl, rfl, rfl, rfl, rfl, rfl⟩
  | cons e es ih =>
    obtain ⟨g1, e1, m1, q1, ed1⟩ := appendEdge_step hp hm (hes e (by simp))
    have hpts : g1.points = g.points := by rw [q1]
    have hin : e ∈ g1.edges ∨ (e.2, e.1) ∈ g1.edges := by
      rw [ed1]
      split
      · rename_i h'
        obtain ⟨e', he', h'⟩ := List.mem_map.1 h'
        rcases Sym2.eq_iff.1 h' with ⟨h1, h2⟩ | ⟨h1, h2⟩
        · left; rwa [show e = e' from Prod.ext h1.symm h2.symm]
        · right; rwa [show (e.2, e.1) = e' from Prod.ext h1.symm h2.symm]
      · left; simp
    have hn1 : (g1.edges.map Edge.undirected).Nodup := by
      rw [ed1]
      split
      · exact hn
      · rename_i h'
        rw [List.map_append, List.nodup_append']
        refine ⟨hn, by simp, ?_⟩
        intro x hx hx'
        simp only [List.map_cons, List.map_nil, List.mem_singleton] at hx'
        exact h' (hx' ▸ hx)
    obtain ⟨g2, e2, p2, n2, c2, s2, m2, v2, pt2, t2, b2, d2, nn2⟩ := ih (g := g1)
      (by
        intro v hv
        obtain ⟨q, hq⟩ := hp v (by rwa [hpts] at hv)
        exact ⟨q, by rw [Grid.At, hpts]; exact hq⟩) hn1 m1
      (fun e' he' => by rw [hpts]; exact hes e' (by simp [he']))
    refine ⟨g2, by rw [pyFor_cons, e1, bind_ok, e2], ?_, n2, ?_, ?_, m2, ?_, ?_, ?_, ?_, ?_, ?_⟩
    · refine List.IsPrefix.trans ?_ p2
      rw [ed1]; split
      · exact List.prefix_refl _
      · exact List.prefix_append _ _
    · intro e' he'
      rcases List.mem_cons.1 he' with rfl | he'
      · rcases hin with h' | h'
        · exact .inl (p2.subset h')
        · exact .inr (p2.subset h')
      · exact c2 e' he'
    · intro e' he'
      rcases s2 e' he' with h' | h'
      · rw [ed1] at h'
        split at h'
        · exact .inl h'
        · rcases List.mem_append.1 h' with h' | h'
          · exact .inl h'
          · right; rw [List.mem_singleton.1 h']; simp
      · right; simp [h']
    · rw [v2, q1]
    · rw [pt2, q1]
    · rw [t2, q1]
    · rw [b2, q1]
    · rw [d2, q1]
    · rw [nn2, q1]

/-- library grids meet the hypotheses -/
theorem C19_library {g : Grid ℝ} {nx ny : ℕ} {s : ℝ} (G : LibraryGrid g nx ny s) :
    (∀ v < g.points.length, ∃ q, g.At v q) ∧ (g.edges.map Edge.undirected).Nodup ∧ g.MeanExact := by
  obtain ⟨P, dg, E, T, BV, BE, L⟩ := G.lattice
  exact ⟨G.wellFormed.planar, L.nodup_undirected, L.meanExact⟩

/-! ### C21 -/

/-- `curves(n, a, b)` for `n ≥ 2`: `a + 2` horizontal curves followed by `b + 2` vertical ones, `n` points each, curve `j`
at height `j / (a + 1) * height` running from the left to the right side with equal steps (and likewise for the vertical
ones); `b` defaults to `a`. -/
theorem C21_curves (d : RectDomain ℝ) {n : ℕ} (hn : 2 ≤ n) (a : ℕ) (b : Option ℕ) :
    ∃ cs, d.curves n a b = .ok cs ∧ cs.length = (a + 2) + (b.getD a + 2) ∧
    (∀ j < a + 2, ∃ c, cs[j]? = some c ∧ c.length = n ∧ ∀ i < n,
      c[i]? = some (vec2 ((i / (n - 1) : ℝ) * d.width, (j / (a + 1) : ℝ) * d.height))) ∧
    (∀ j < b.getD a + 2, ∃ c, cs[a + 2 + j]? = some c ∧ c.length = n ∧ ∀ i < n,
      c[i]? = some (vec2 ((j / ((b.getD a : ℕ) + 1) : ℝ) * d.width, (i / (n - 1) : ℝ) * d.height))) := by
  have hn1 : ((n : ℝ) - 1) ≠ 0 := by
    have : (2 : ℝ) ≤ n := by exact_mod_cast hn
    linarith
  have ha1 : ∀ a : ℕ, (((a + 2 : ℕ) : ℝ) - 1) ≠ 0 := by
    intro a
    have : (0 : ℝ) ≤ a := by positivity
    push_cast; linarith
  set hc : ℕ → ℕ → Vec ℝ := fun j i => vec2 ((i : ℝ) * d.width / ((n : ℝ) - 1),
    (j : ℝ) * d.height / (((a + 2 : ℕ) : ℝ) - 1)) with hhc
  set vc : ℕ → ℕ → Vec ℝ := fun j i => vec2 ((j : ℝ) * d.width / (((b.getD a + 2 : ℕ) : ℝ) - 1),
    (i : ℝ) * d.height / ((n : ℝ) - 1)) with hvc
  refine ⟨((List.range (a + 2)).map fun j => (List.range n).map (hc j)) ++
    ((List.range (b.getD a + 2)).map fun j => (List.range n).map (vc j)), ?_, by simp, ?_, ?_⟩
  · unfold RectDomain.curves
    simp only [pyDiv, hn1, ha1, if_false, bind_ok, pure_eq_ok]
    have e1 : pyMap (List.range (a + 2)) (fun j => pyMap (List.range n) fun i =>
        (Except.ok (hc j i) : PyM (Vec ℝ))) = .ok ((List.range (a + 2)).map fun j => (List.range n).map (hc j)) :=
      pyMap_eq_ok _ (fun j _ => pyMap_eq_ok (hc j) fun i _ => rfl)
    have e2 : pyMap (List.range (b.getD a + 2)) (fun j => pyMap (List.range n) fun i =>
        (Except.ok (vc j i) : PyM (Vec ℝ))) =
          .ok ((List.range (b.getD a + 2)).map fun j => (List.range n).map (vc j)) :=
      pyMap_eq_ok _ (fun j _ => pyMap_eq_ok (vc j) fun i _ => rfl)
    simp only [hhc, hvc, vec2] at e1 e2 ⊢
    rw [e1, bind_ok, e2, bind_ok]
  · intro j hj
    refine ⟨(List.range n).map (hc j), ?_, by simp, ?_⟩
    · rw [List.getElem?_append_left (by simpa using hj)]
      simp [hj]
    · intro i hi
      simp only [List.getElem?_map, List.getElem?_range hi, Option.map_some, Option.some.injEq, hhc]
      congr 2
      · ring
      · push_cast; rw [show (a : ℝ) + 2 - 1 = a + 1 by ring]; ring
  · intro j hj
    refine ⟨(List.range n).map (vc j), ?_, by simp, ?_⟩
    · rw [List.getElem?_append_right (by simp)]
      simp [hj]
    · intro i hi
      simp only [List.getElem?_map, List.getElem?_range hi, Option.map_some, Option.some.injEq, hvc]
      congr 2
      · push_cast; rw [show ((b.getD a : ℕ) : ℝ) + 2 - 1 = (b.getD a : ℕ) + 1 by ring]; ring
      · ring

/-- All curve points lie in the rectangle; the first and last horizontal curve are the lower and the upper side, the
first and last vertical curve are the left and the right side. -/
theorem C21_in_rectangle {d : RectDomain ℝ} {n a : ℕ} {b : Option ℕ} {cs : List (List (Vec ℝ))} (hn : 2 ≤ n)
    (hw : 0 ≤ d.width) (hh : 0 ≤ d.height) (hc : d.curves n a b = .ok cs) :
    ∀ c ∈ cs, ∀ p ∈ c, ∃ x y, p = vec2 (x, y) ∧ 0 ≤ x ∧ x ≤ d.width ∧ 0 ≤ y ∧ y ≤ d.height := by
  obtain ⟨cs', h1, h2, h3, h4⟩ := C21_curves d hn a b
  rw [hc] at h1
  cases h1
  have frac : ∀ i m : ℕ, i ≤ m → ∀ w : ℝ, 0 ≤ w → 0 ≤ (i / m : ℝ) * w ∧ (i / m : ℝ) * w ≤ w := by
    intro i m him w hw
    have hi : (0 : ℝ) ≤ (i : ℝ) / m := by positivity
    have hi1 : (i : ℝ) / m ≤ 1 := div_le_one_of_le₀ (by exact_mod_cast him) (by positivity)
    exact ⟨mul_nonneg hi hw, by nlinarith⟩
  have hcast : ((n - 1 : ℕ) : ℝ) = (n : ℝ) - 1 := by push_cast [Nat.cast_sub (by omega : 1 ≤ n)]; ring
  intro c hcm p hp
  obtain ⟨k, hk, rfl⟩ := List.mem_iff_getElem.1 hcm
  obtain ⟨i, hi, rfl⟩ := List.mem_iff_getElem.1 hp
  rw [h2] at hk
  by_cases hka : k < a + 2
  · obtain ⟨c', e1, e2, e3⟩ := h3 k hka
    rw [List.getElem?_eq_getElem (by omega)] at e1
    cases e1
    have := e3 i (by omega)
    rw [List.getElem?_eq_getElem hi] at this
    refine ⟨_, _, Option.some.inj this, ?_⟩
    have f1 := frac i (n - 1) (by omega) d.width hw
    have f2 := frac k (a + 1) (by omega) d.height hh
    rw [hcast] at f1
    push_cast at f2
    exact ⟨f1.1, f1.2, f2.1, f2.2⟩
  · obtain ⟨j, rfl⟩ := Nat.exists_eq_add_of_le (not_lt.1 hka)
    obtain ⟨c', e1, e2, e3⟩ := h4 j (by omega)
    rw [List.getElem?_eq_getElem (by omega)] at e1
    cases e1
    have := e3 i (by omega)
    rw [List.getElem?_eq_getElem hi] at this
    refine ⟨_, _, Option.some.inj this, ?_⟩
    have f1 := frac i (n - 1) (by omega) d.height hh
    have f2 := frac j (b.getD a + 1) (by omega) d.width hw
    rw [hcast] at f1
    push_cast at f2
    exact ⟨f2.1, f2.2, f1.1, f1.2⟩

/-- One point per curve is impossible. -/
theorem C21_one_point (d : RectDomain ℝ) (a : ℕ) (b : Option ℕ) : d.curves 1 a b = .error .zeroDivision := by
  unfold RectDomain.curves
  have : List.range (a + 2) = 0 :: (List.range (a + 1)).map Nat.succ := List.range_succ_eq_map
  simp only
  rw [this, pyMap_cons]
  simp [pyMap_cons, List.range_succ, pyDiv]

/-! ### a concrete case: the sample grid meets the hypotheses of C16–C19; C21 for the sample rectangle -/

section sample
variable (it : SetIter)

/-- C16: the point `(3/4, 1/3)` is located, with a representation by one of the triangles; a point beyond the grid that
belongs to the rectangle need not be -/
example : ∃ b : BPoint ℝ, (sampleGrid it).toBarycentricPoint (vec2 (3 / 4, 1 / 3)) = .ok (some b) ∧
    b.triangle ∈ (sampleGrid it).triangles ∧ b.coordinates.l1 + b.coordinates.l2 + b.coordinates.l3 = 1 := by
  obtain ⟨b, hb⟩ := (C16_total (sampleGrid_library it) (3 / 4, 1 / 3)).2.1 (by norm_num)
  obtain ⟨h1, -, h2, -⟩ := C16_located (sampleGrid_library it) hb
  exact ⟨b, hb, h1, h2⟩

/-- C17: the point `(1, 1/2)` belongs to vertex 5 -/
example : (sampleGrid it).pointToVertex (vec2 (1, 1 / 2)) = .ok (some 5) :=
  C17_inverse (sampleGrid_library it) (sampleGrid_points it).2.2.2.2.2.1

/-- C17: no vertex is near `(1/4, 1/4)` -/
example : (sampleGrid it).pointToVertex (vec2 (1 / 4, 1 / 4)) = .ok none := by
  obtain ⟨o, h1, -, h2⟩ := C17_point_to_vertex (sampleGrid_library it) (1 / 4, 1 / 4)
  rw [h1, h2.2]
  intro v q hq hd
  have h3 := (C17_unique (sampleGrid_library it)).2.1
  have h4 : dist2 (1 / 4, 1 / 4) q < 1 / 10 ^ 6 := by linarith
  obtain ⟨i, j, h5, -, -, rfl⟩ := (C10_points (by norm_num [sampleDomain]) (by norm_num [sampleDomain]) (by norm_num)
    (sampleGrid_eq it) v q).1 hq
  rw [sample_cells.1] at h5
  have h6 : (1 / 4 : ℝ) ≤ dist2 (1 / 4, 1 / 4) ((i : ℝ) * (1 / 2), (j : ℝ) * (1 / 2)) := by
    refine Real.le_sqrt_of_sq_le ?_
    have : (1 / 4 : ℝ) ^ 2 ≤ (1 / 4 - i * (1 / 2)) ^ 2 := by interval_cases i <;> norm_num
    have := sq_nonneg ((1 / 4 : ℝ) - j * (1 / 2))
    simp only
    linarith
  norm_num at h4 h6
  linarith

/-- C18: a triangle of the grid, and one that is not -/
example : (sampleGrid it).triangleVertices (4, 5, 8) = .ok (vec2 (1 / 2, 1 / 2), vec2 (1, 1 / 2), vec2 (1, 1)) ∧
    (sampleGrid it).triangleVertices (5, 8, 4) = .error .valueError := by
  obtain ⟨-, -, h3⟩ := sampleGrid_lists it
  obtain ⟨-, -, -, -, p4, p5, -, -, p8⟩ := sampleGrid_points it
  exact ⟨(C18_triangle_vertices _ _).2 _ _ _ (by rw [h3]; decide) p4 p5 p8,
    (C18_triangle_vertices _ _).1 (by rw [h3]; decide)⟩

/-- C19: appending the edges `(1, 0)`, which exists with the other orientation, and `(0, 8)`, which does not exist -/
example : ∃ g', pyFor [(1, 0), (0, 8)] (sampleGrid it) Grid.appendEdge = .ok g' ∧
    (g'.edges.map Edge.undirected).Nodup ∧ g'.MeanExact := by
  obtain ⟨h1, h2, h3⟩ := C19_library (sampleGrid_library it)
  have h4 := sampleGrid_length it
  obtain ⟨g', h5, -, h6, -, -, h7, -⟩ := C19_append_edge_history h1 h2 h3 [(1, 0), (0, 8)] (by rw [h4]; decide)
  exact ⟨g', h5, h6, h7⟩

/-- C21: three horizontal and four vertical curves with five points each -/
example : ∃ cs, sampleDomain.curves 5 1 (some 2) = .ok cs ∧ cs.length = 7 ∧
    ∀ c ∈ cs, ∀ p ∈ c, ∃ x y, p = vec2 (x, y) ∧ 0 ≤ x ∧ x ≤ 5 / 4 ∧ 0 ≤ y ∧ y ≤ 1 := by
  obtain ⟨cs, h1, h2, -⟩ := C21_curves sampleDomain (n := 5) (by norm_num) 1 (some 2)
  exact ⟨cs, h1, h2, C21_in_rectangle (by norm_num) (by norm_num [sampleDomain]) (by norm_num [sampleDomain]) h1⟩

end sample

end Tve
