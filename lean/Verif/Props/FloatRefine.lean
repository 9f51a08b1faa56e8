import Verif.Lemmas.FloatRefineMain
import Verif.Props.Refine

/-!
# C87: grid creation and refinement in double precision arithmetic
-/

namespace Tve
open F64 RectGrid

/-! ### grids -/

private theorem cells_mul {s : ℝ} (hs : 0 < s) (n : ℕ) : cells (n * s) s = n := by
  rw [cells, mul_div_cancel_right₀ _ hs.ne', Nat.floor_natCast]

private theorem E0_adj (nx ny : ℕ) : ∀ x ∈ (E0 nx ny).map (labE (rowMajor (nx + 1) (ny + 1))),
    ∃ a b, (rowMajor (nx + 1) (ny + 1))[x.1]? = some a ∧ (rowMajor (nx + 1) (ny + 1))[x.2]? = some b ∧ Adjacent a b := by
  intro x hx
  obtain ⟨e, he, rfl⟩ := List.mem_map.1 hx
  have hl := mem_E0.1 he
  have hb := latEdge_mem hl
  exact ⟨e.1, e.2, getElem?_lab ((mem_rowMajor _).2 hb.1), getElem?_lab ((mem_rowMajor _).2 hb.2), adjacent_of_latEdge hl⟩

private theorem near_rowMajor {s : ℚ} (hs : 0 < s) {nx ny m : ℕ} (hx : nx ≤ m) (hy : ny ≤ m) :
    List.Forall₂ (NearPt (s * m / 2 ^ 53) s) (rowMajor (nx + 1) (ny + 1)) ((rowMajor (nx + 1) (ny + 1)).map (fpt s)) := by
  rw [List.forall₂_map_right_iff, List.forall₂_same]
  intro a ha
  have hb := (mem_rowMajor a).1 ha
  exact ⟨_, _, rfl, coarse_coord hs (hb.1.trans hx), coarse_coord hs (hb.2.trans hy)⟩

private theorem gridVecs_eq (nx ny : ℕ) (s : ℚ) :
    gridVecs (nx + 1) (ny + 1) s = (rowMajor (nx + 1) (ny + 1)).map (fpt s) := by
  simp only [gridVecs, rowMajor, vertices, List.map_map]
  rfl

private theorem GRel.near {e h : ℚ} {N : ℕ} {Q : List LP} {g : Grid ℝ} {f : Grid ℚ} (R : GRel e h N Q g f) :
    NearPoints (e : ℝ) g f := by
  unfold NearPoints
  rw [R.points, List.forall₂_map_left_iff]
  refine R.fpoints.imp ?_
  rintro a p ⟨x, y, rfl, hx, hy⟩
  refine ⟨_, _, x, y, rfl, rfl, ?_, ?_⟩
  · have : ((|x - a.1 * h| : ℚ) : ℝ) ≤ (e : ℝ) := by exact_mod_cast hx
    push_cast at this; exact this
  · have : ((|y - a.2 * h| : ℚ) : ℝ) ≤ (e : ℝ) := by exact_mod_cast hy
    push_cast at this; exact this

/-- every point of the grid is found at its own vertex -/
private theorem GRel.own {e h : ℚ} {N : ℕ} {Q : List LP} {g : Grid ℝ} {f : Grid ℚ} (R : GRel e h N Q g f) (hh : 0 < h)
    (he : e ≤ h * (2 / 10 ^ 9)) (hN : N ≤ 10 ^ 13) (hm : f.edges ≠ []) (hQ : Q.Nodup) {v : ℕ} {p : Vec ℚ}
    (hv : f.points[v]? = some p) : F64.pointToVertex f p = .ok (some v) := by
  have hlt : v < Q.length := by
    rw [R.fpoints.length_eq]; exact (List.getElem?_eq_some_iff.1 hv).1
  obtain ⟨q, hq1, hq2⟩ := near_get R.fpoints (List.getElem?_eq_getElem hlt)
  obtain rfl : p = q := Option.some.inj (hv.symm.trans hq1)
  have h0 : f.meanEdgeLength ≠ none := fun h => hm (R.none_edges h)
  rw [(R.pointToVertex hh (fun h => absurd h h0) he hN hq2 (fun h => absurd h h0)).2, if_pos (List.getElem_mem hlt)]
  unfold lab
  rw [List.Nodup.idxOf_getElem hQ]

private theorem count_E0 {nx ny : ℕ} (hx : nx ≤ 10 ^ 6) (hy : ny ≤ 10 ^ 6) :
    ((E0 nx ny).map (labE (rowMajor (nx + 1) (ny + 1)))).length ≤ 10 ^ 13 := by
  rw [List.length_map, length_E0]
  have := Nat.mul_le_mul hx hy
  have e : (ny + 1) * nx + (nx + 1) * ny + nx * ny = 3 * (nx * ny) + nx + ny := by ring
  rw [e]
  omega

private theorem grid_agree (it : SetIter) {d : RectDomain ℚ} {s : ℚ} (hs : 0 < s) {nx ny m : ℕ}
    (hw : F64.numCells d.width s = nx) (hh : F64.numCells d.height s = ny) (hx : nx ≤ m) (hy : ny ≤ m) (hm : m ≤ 10 ^ 6) :
    ∃ G F, (⟨nx * s, ny * s, d.fix⟩ : RectDomain ℝ).grid it s = .ok G ∧ F64.grid it d s = .ok F ∧
      GRel (s * m / 2 ^ 53) s (10 ^ 13) (rowMajor (nx + 1) (ny + 1)) G F ∧ F.points = (rowMajor (nx + 1) (ny + 1)).map (fpt s) ∧
      F.edges = (E0 nx ny).map (labE (rowMajor (nx + 1) (ny + 1))) := by
  have hs' : (0 : ℝ) < s := by exact_mod_cast hs
  have he : s * m / 2 ^ 53 ≤ s * (2 / 10 ^ 9) := by
    have : (m : ℚ) ≤ ((10 ^ 6 : ℕ) : ℚ) := Nat.cast_le.2 hm
    push_cast at this
    have this' : (m : ℚ) ≤ 2 / 10 ^ 9 * 2 ^ 53 := this.trans (by norm_num)
    rw [div_le_iff₀ (by norm_num), mul_assoc]
    apply mul_le_mul_of_nonneg_left _ hs.le
    exact this'
  obtain ⟨ts, h1, -⟩ := tagState_spec it (nx + 1) (ny + 1) d.fix
  obtain ⟨G, F, e1, e2, R, hv, hed, -, -, -, -, hp⟩ := GRel.new hs he (near_rowMajor hs hx hy)
    (vertices (nx + 1) (ny + 1)) (RectGrid.edges (nx + 1) (ny + 1)) (triangles (nx + 1) (ny + 1))
    ⟨boundaryVertices it (nx + 1) (ny + 1), boundaryEdges (nx + 1) (ny + 1)⟩
    ⟨dirichletVertices ts, it.edge 1 ts.dirichletEdges⟩ ⟨neumannVertices ts, it.edge 2 ts.neumannEdges⟩ (N := 10 ^ 13) le_rfl
    (by rw [edges_rect]; exact count_E0 (hx.trans hm) (hy.trans hm)) (by rw [edges_rect]; exact E0_adj nx ny)
  refine ⟨G, F, ?_, ?_, R, hp, by rw [hed, edges_rect]⟩
  · rw [RectDomain.grid]
    simp only
    rw [numVertices_ok (by positivity) hs', numVertices_ok (by positivity) hs', cells_mul hs', cells_mul hs']
    simp only [bind_ok, h1, points_rect]
    exact e1
  · rw [F64.grid, if_neg hs.ne', hw, hh]
    simp only [show ((nx : ℤ) + 1).toNat = nx + 1 by omega, show ((ny : ℤ) + 1).toNat = ny + 1 by omega]
    rw [h1]
    simp only [bind_ok, gridVecs_eq]
    exact e2

/-- Creating a grid in double precision gives exactly the vertices, edges, triangles and boundaries (in the same order) of the
exact grid with the same numbers of cells; the coordinates are correct up to half a unit in the last place of the largest one;
and looking up the coordinates of any vertex finds this vertex. -/
theorem C87_grid (it : SetIter) {d : RectDomain ℚ} {s : ℚ} (hs : 0 < s) {nx ny m : ℕ}
    (hw : F64.numCells d.width s = nx) (hh : F64.numCells d.height s = ny) (hx1 : 1 ≤ nx) (hy1 : 1 ≤ ny) (hx : nx ≤ m)
    (hy : ny ≤ m) (hm : m ≤ 10 ^ 6) :
    ∃ G F, (⟨nx * s, ny * s, d.fix⟩ : RectDomain ℝ).grid it s = .ok G ∧ F64.grid it d s = .ok F ∧ SameCells G F ∧
      NearPoints (s * m / 2 ^ 53) G F ∧ ∀ v p, F.points[v]? = some p → F64.pointToVertex F p = .ok (some v) := by
  obtain ⟨G, F, h1, h2, R, hp, hed⟩ := grid_agree it hs hw hh hx hy hm
  refine ⟨G, F, h1, h2, R.cells, ?_, ?_⟩
  · have := R.near
    push_cast at this
    exact this
  · intro v p hv
    refine R.own hs ?_ le_rfl ?_ (nodup_rowMajor _ _) hv
    · have : (m : ℚ) ≤ ((10 ^ 6 : ℕ) : ℚ) := Nat.cast_le.2 hm
      push_cast at this
      have this' : (m : ℚ) ≤ 2 / 10 ^ 9 * 2 ^ 53 := this.trans (by norm_num)
      rw [div_le_iff₀ (by norm_num), mul_assoc]
      apply mul_le_mul_of_nonneg_left _ hs.le
      exact this'
    · rw [hed, Ne, List.map_eq_nil_iff]
      intro h0
      have : ((0, 0), (1, 0)) ∈ E0 nx ny := mem_E0.2 ⟨0, 0, .inl ⟨hx1, by omega, rfl⟩⟩
      rw [h0] at this; simp at this

/-! ### refinement -/

private theorem lower_le (n : ℕ) : (lowerIndices n).length ≤ n * n := by
  have h := length_lowerIndices n
  rcases Nat.eq_zero_or_pos n with rfl | hn
  · simp at h ⊢; exact h
  · nlinarith

section
variable {s : ℚ} {n m nx ny : ℕ} {P : List LP} {dg : Bool} {E : List (LP × LP)} {T : List (LP × LP × LP)}
  {BV : List LP} {BE : List (LP × LP)} {G : Grid ℝ} {F : Grid ℚ}

private theorem refine_agree (d : RectDomain ℝ) (hs : 0 < s) (hn : 1 ≤ n) (hx : nx ≤ m) (hy : ny ≤ m) (hnm : n * m ≤ 10 ^ 6)
    (hsmall : 2 / 10 ^ 15 ≤ s / n) (L : Lattice G nx ny (s : ℝ) P dg E T BV BE) (hGF : SameCells G F)
    (hF : F.points = P.map (fpt s)) :
    Agree (fun R RF => SameRefinement (ptErr s m : ℝ) R RF ∧ R.coarseGrid = G ∧ RF.coarseGrid = F ∧
        ∃ Q, GRel (ptErr s m) (s / n) (10 ^ 13) Q R.toGrid RF.toGrid)
      (d.refine G n) (F64.refine F n) := by
  have hh : 0 < s / n := div_pos hs (by exact_mod_cast hn)
  have he := ptErr_small hs hn hnm
  have hlen : T.length * (3 * (lowerIndices n).length) ≤ 10 ^ 13 := by
    have h1 := lower_le n
    have h2 : T.length = 2 * (nx * ny) := L.lengthT
    calc T.length * (3 * (lowerIndices n).length) ≤ (2 * (m * m)) * (3 * (n * n)) := by
          rw [h2]
          exact Nat.mul_le_mul (Nat.mul_le_mul le_rfl (Nat.mul_le_mul hx hy)) (Nat.mul_le_mul le_rfl h1)
      _ = 6 * ((n * m) * (n * m)) := by ring
      _ ≤ 6 * (10 ^ 6 * 10 ^ 6) := Nat.mul_le_mul le_rfl (Nat.mul_le_mul hnm hnm)
      _ ≤ 10 ^ 13 := by norm_num
  have near : List.Forall₂ (NearPt (ptErr s m) (s / n)) (P.map (scaleP n)) F.points := by
    rw [hF, List.forall₂_map_left_iff, List.forall₂_map_right_iff, List.forall₂_same]
    intro a ha
    have hb := (L.memP a).1 ha
    exact near_coarse hs hn (hb.1.trans hx) (hb.2.trans hy)
  obtain ⟨g0, f0, e1, e2, R0, v0, -, -, -, -, -, p0⟩ := GRel.new hh he near G.vertices [] []
    ⟨G.boundary.vertices, []⟩ ⟨G.dirichlet.vertices, []⟩ ⟨G.neumann.vertices, []⟩ (N := 0) (by norm_num) (by simp) (by simp)
  have hpts : ((P.map (scaleP n)).map fun a => vec2 (pos (((s / n : ℚ) : ℝ)) a)) = G.points := by
    rw [L.points]; push_cast; exact points_scale hn _ _
  rw [hpts] at e1
  unfold RectDomain.refine F64.refine
  rw [if_neg (by omega), if_neg (by omega), hGF.vertices, hGF.boundary, hGF.dirichlet, hGF.neumann, e1, e2]
  simp only [bind_ok, Int.toNat_natCast]
  rw [hGF.triangles]
  refine (Agree.pyFor (fun pre S SF => ∃ Q, TRel (ptErr s m) (s / n) n (pre.length * (3 * (lowerIndices n).length)) P Q S SF)
    G.triangles ?_ _ _ ?_).bind ?_
  · rintro pre a post hl S SF ⟨Q, R⟩
    have ha : a ∈ T.map (labT P) := by rw [← L.triangles, hl]; simp
    obtain ⟨t, ht, rfl⟩ := List.mem_map.1 ha
    have hle : pre.length + 1 ≤ T.length := by
      have := congrArg List.length hl
      rw [L.triangles, List.length_map, List.length_append, List.length_cons] at this
      omega
    have hb : pre.length * (3 * (lowerIndices n).length) + 3 * (lowerIndices n).length ≤ 10 ^ 13 := by
      rw [← Nat.succ_mul]
      exact (Nat.mul_le_mul hle le_rfl).trans hlen
    have := refineTriangle_agree hs hn hx hy hnm hsmall hb L hGF hF ht R
    rw [← Nat.succ_mul] at this
    rw [List.length_append]
    exact this
  · refine ⟨_, ⟨?_, ?_, rfl, rfl, .empty, .empty⟩, List.prefix_rfl, fun _ => rfl⟩
    · rw [List.length_nil, Nat.zero_mul]; exact R0
    · show f0.vertices = _
      rw [v0, L.vertices, List.length_map]
  · rintro S SF ⟨Q, R⟩
    have hb : G.triangles.length * (3 * (lowerIndices n).length) ≤ 10 ^ 13 := by
      rw [L.triangles, List.length_map]; exact hlen
    have g := R.state.grid
    obtain ⟨g1, f1, e1, e2, R1, v1, h1, h2, h3, h4, h5, h6⟩ := GRel.new hh he g.fpoints S.grid.vertices S.grid.edges
      S.grid.triangles S.grid.boundary S.grid.dirichlet S.grid.neumann (N := 10 ^ 13) le_rfl
      (by rw [← g.cells.edges]; exact g.count.trans hb) (by rw [← g.cells.edges]; exact g.adj)
    rw [← g.points] at e1
    rw [g.cells.vertices, g.cells.edges, g.cells.triangles, g.cells.boundary, g.cells.dirichlet, g.cells.neumann, e1, e2]
    exact Agree.ok ⟨⟨R1.cells, R1.near, hGF, R.state.tri, R.state.edge, R.state.bary, R.state.coords⟩, rfl, rfl, Q, R1⟩

end

/-- Refining a grid in double precision gives exactly the fine vertices, edges, triangles and boundaries, and exactly the maps from
fine to coarse cells, of the exact refinement: the floating point comparisons of points never confuse two vertices, and never
miss a vertex that exists already. Coordinates and weights are correct up to rounding, and looking up the coordinates of any
fine vertex finds this vertex. -/
theorem C87_refine (it : SetIter) {d : RectDomain ℚ} {s : ℚ} (hs : 0 < s) {nx ny m n : ℕ}
    (hw : F64.numCells d.width s = nx) (hh : F64.numCells d.height s = ny) (hx1 : 1 ≤ nx) (hy1 : 1 ≤ ny) (hx : nx ≤ m)
    (hy : ny ≤ m) (hn : 1 ≤ n) (hnm : n * m ≤ 10 ^ 6) (hsmall : 2 / 10 ^ 15 ≤ s / n) :
    ∃ G F R RF, (⟨nx * s, ny * s, d.fix⟩ : RectDomain ℝ).grid it s = .ok G ∧ F64.grid it d s = .ok F ∧
      (⟨nx * s, ny * s, d.fix⟩ : RectDomain ℝ).refine G n = .ok R ∧ F64.refine F n = .ok RF ∧
      SameRefinement (15 / 2 ^ 53 * (s * m)) R RF ∧ R.coarseGrid = G ∧ RF.coarseGrid = F ∧
      ∀ v p, RF.toGrid.points[v]? = some p → F64.pointToVertex RF.toGrid p = .ok (some v) := by
  have hm : m ≤ 10 ^ 6 := (Nat.le_mul_of_pos_left m hn).trans hnm
  have hs' : (0 : ℝ) < s := by exact_mod_cast hs
  have hh' : 0 < s / n := div_pos hs (by exact_mod_cast hn)
  obtain ⟨G, F, h1, h2, R0, hp, hed⟩ := grid_agree it hs hw hh hx hy hm
  have hw1 : (s : ℝ) ≤ nx * s := le_mul_of_one_le_left hs'.le (by exact_mod_cast hx1)
  have hh1 : (s : ℝ) ≤ ny * s := le_mul_of_one_le_left hs'.le (by exact_mod_cast hy1)
  obtain ⟨ts, RS⟩ := rectSpec_unique (d := ⟨nx * s, ny * s, d.fix⟩) (by positivity) (by positivity) hs' h1
  simp only [cells_mul hs'] at RS
  have L := rect_lattice RS hx1 hy1 hs'
  have LG : LibraryGrid G nx ny s := by
    have := LibraryGrid.grid (d := ⟨nx * s, ny * s, d.fix⟩) hs' hw1 hh1 h1
    simpa only [cells_mul hs'] using this
  have hsm' : (1 : ℝ) / 10 ^ 15 ≤ (s : ℝ) / n := by
    have : ((2 / 10 ^ 15 : ℚ) : ℝ) ≤ ((s / n : ℚ) : ℝ) := by exact_mod_cast hsmall
    push_cast at this
    linarith
  obtain ⟨R, hR, LR, -⟩ := C22_refine LG ⟨nx * s, ny * s, d.fix⟩ hn hsm'
  rcases refine_agree ⟨nx * s, ny * s, d.fix⟩ hs hn hx hy hnm hsmall L R0.cells hp with ⟨R', RF, e1, e2, A, c1, c2, Q, GR⟩ | ⟨e, e1, -⟩
  swap
  · rw [hR] at e1; cases e1
  rw [hR] at e1
  cases e1
  refine ⟨G, F, R, RF, h1, h2, hR, e2, ?_, c1, c2, ?_⟩
  · have : ((ptErr s m : ℚ) : ℝ) = 15 / 2 ^ 53 * (s * m) := by unfold ptErr; push_cast; ring
    rw [← this]; exact A
  · obtain ⟨P', dg', E', T', BV', BE', DV', DE', NV', NE', H⟩ := LR.lgrid
    have hne : RF.toGrid.edges ≠ [] := by rw [GR.cells.edges]; exact H.lat.edges_ne
    intro v p hv
    refine GR.own hh' (ptErr_small hs hn hnm) le_rfl hne ?_ hv
    have e := GR.points.symm.trans H.lat.points
    refine List.Nodup.of_map (fun a => vec2 (pos (((s / n : ℚ) : ℝ)) a)) ?_
    rw [e]
    refine H.lat.nodupP.map ?_
    intro a b hab
    exact Lattice.pos_inj H.lat.h_pos (Lattice.vec2_inj hab)

/-- the hypotheses hold for the rectangle `RectangleDomain(1, 0.5, fix)`, `grid(0.1)` and refinement factor 3; here `0.1` is not a
binary fraction, so that nearly all coordinates are rounded -/
example (it : SetIter) (fix : Fix) :
    ∃ G F R RF, (⟨(10 : ℕ) * (fl (1 / 10) : ℚ), (5 : ℕ) * (fl (1 / 10) : ℚ), fix⟩ : RectDomain ℝ).grid it (fl (1 / 10) : ℚ) = .ok G ∧
      F64.grid it ⟨1, 1 / 2, fix⟩ (fl (1 / 10)) = .ok F ∧
      (⟨(10 : ℕ) * (fl (1 / 10) : ℚ), (5 : ℕ) * (fl (1 / 10) : ℚ), fix⟩ : RectDomain ℝ).refine G (3 : ℕ) = .ok R ∧
      F64.refine F (3 : ℕ) = .ok RF ∧ SameRefinement (15 / 2 ^ 53 * ((fl (1 / 10) : ℚ) * (10 : ℕ))) R RF ∧
      R.coarseGrid = G ∧ RF.coarseGrid = F ∧
      ∀ v p, RF.toGrid.points[v]? = some p → F64.pointToVertex RF.toGrid p = .ok (some v) := by
  have h0 : 0 < fl (1 / 10) := by decide +kernel
  have h1 : F64.numCells 1 (fl (1 / 10)) = (10 : ℕ) := by decide +kernel
  have h2 : F64.numCells (1 / 2) (fl (1 / 10)) = (5 : ℕ) := by decide +kernel
  have h3 : 2 / 10 ^ 15 ≤ fl (1 / 10) / (3 : ℕ) := by decide +kernel
  exact C87_refine it (d := ⟨1, 1 / 2, fix⟩) h0 h1 h2 (by norm_num) (by norm_num) le_rfl (by norm_num) (by norm_num)
    (by norm_num) h3

end Tve
