import Verif.Lemmas.GridTags

/-! The grid built by `RectangleDomain.grid` is a lattice grid. -/

namespace Tve
open RectGrid

/-! ### labels -/

theorem lab_lt {P : List LP} {a : LP} (h : a ∈ P) : lab P a < P.length := List.idxOf_lt_length_of_mem h

theorem lab_inj {P : List LP} {a b : LP} (ha : a ∈ P) (h : lab P a = lab P b) : a = b := by
  exact (List.idxOf_inj ha).1 h

theorem getElem?_lab {P : List LP} {a : LP} (h : a ∈ P) : P[lab P a]? = some a := by
  rw [List.getElem?_eq_getElem (lab_lt h)]; simp [lab]

/-- the lattice point of a vertex id -/
def co (P : List LP) (v : Vertex) : LP := P.getD v (0, 0)

theorem co_lab {P : List LP} {a : LP} (h : a ∈ P) : co P (lab P a) = a := by
  rw [co, List.getD_eq_getElem?_getD, getElem?_lab h]; rfl

theorem lab_co {P : List LP} (hP : P.Nodup) {v : Vertex} (h : v < P.length) : lab P (co P v) = v := by
  rw [co, List.getD_eq_getElem?_getD, List.getElem?_eq_getElem h]
  exact hP.idxOf_getElem _ h

theorem co_mem {P : List LP} {v : Vertex} (h : v < P.length) : co P v ∈ P := by
  rw [co, List.getD_eq_getElem?_getD, List.getElem?_eq_getElem h]
  exact List.getElem_mem h

theorem map_lab_co {P : List LP} (hP : P.Nodup) {l : List Vertex} (h : ∀ v ∈ l, v < P.length) :
    (l.map (co P)).map (lab P) = l := by
  rw [List.map_map]
  conv_rhs => rw [← List.map_id l]
  apply List.map_congr_left
  intro v hv
  exact lab_co hP (h v hv)

theorem pyGet_lab {P : List LP} {h : ℝ} {a : LP} (ha : a ∈ P) :
    pyGet (P.map fun a => vec2 (pos h a)) (lab P a) = .ok (vec2 (pos h a)) := by
  rw [pyGet_eq_ok, List.getElem?_map, getElem?_lab ha]; rfl

theorem norm_vec2 (q : ℝ × ℝ) : (vec2 q).norm = Real.sqrt (q.1 ^ 2 + q.2 ^ 2) := by
  simp [Vec.norm, Vec.normsqr, vec2, PySqrt.sqrt, sq]

theorem gridEdgeLength_lab {P : List LP} {h : ℝ} {e : LP × LP} (h1 : e.1 ∈ P) (h2 : e.2 ∈ P) :
    gridEdgeLength (P.map fun a => vec2 (pos h a)) (labE P e) = .ok (lenL h e) := by
  unfold gridEdgeLength labE
  rw [pyGet_lab h1, pyGet_lab h2]
  simp only [bind_ok, vec2_sub, pure_eq_ok, norm_vec2]
  rfl

/-- the mean edge length stored by the constructor -/
theorem grid_new_ok {P : List LP} {h : ℝ} {E : List (LP × LP)} (hE : ∀ e ∈ E, e.1 ∈ P ∧ e.2 ∈ P)
    (vs : List Vertex) (ts : List Tri) (b d n : Boundary) :
    Grid.new vs (E.map (labE P)) ts b d n (P.map fun a => vec2 (pos h a)) =
      .ok ⟨vs, E.map (labE P), ts, b, d, n, P.map fun a => vec2 (pos h a),
        if E = [] then none else some ((E.map (lenL h)).sum / (E.length : ℝ))⟩ := by
  cases E with
  | nil => simp [Grid.new]
  | cons e t =>
    have : pyMap ((e :: t).map (labE P)) (gridEdgeLength (P.map fun a => vec2 (pos h a))) =
        .ok ((e :: t).map (lenL h)) := by
      rw [pyMap_map]
      exact pyMap_eq_ok (lenL h) (fun e he => gridEdgeLength_lab (hE e he).1 (hE e he).2)
    rw [List.map_cons] at this ⊢
    rw [Grid.new]
    rw [this]
    simp

theorem latEdge_mem {nx ny : ℕ} {dg : Bool} {e : LP × LP} (h : LatEdge nx ny dg e) :
    InBox nx ny e.1 ∧ InBox nx ny e.2 := by
  obtain ⟨i, j, h | h | h⟩ := h
  · obtain ⟨h1, h2, rfl⟩ := h; simp only [InBox]; omega
  · obtain ⟨h1, h2, rfl⟩ := h; simp only [InBox]; omega
  · obtain ⟨h1, h2, rfl⟩ := h; cases dg <;> simp only [InBox] <;> simp <;> omega

theorem latTri_mem {nx ny : ℕ} {t : LP × LP × LP} (h : LatTri nx ny t) :
    InBox nx ny t.1 ∧ InBox nx ny t.2.1 ∧ InBox nx ny t.2.2 := by
  obtain ⟨i, j, h1, h2, rfl | rfl⟩ := h <;> simp only [InBox] <;> omega

theorem sideEdge_lat {nx ny : ℕ} {dg : Bool} {f : FixOption} {e : LP × LP} (h : SideEdge nx ny f e) :
    LatEdge nx ny dg e := by
  cases f
  · obtain ⟨i, hi, rfl⟩ := h; exact ⟨i, 0, .inl ⟨hi, by omega, rfl⟩⟩
  · obtain ⟨j, hj, rfl⟩ := h; exact ⟨nx, j, .inr (.inl ⟨by omega, hj, rfl⟩)⟩
  · obtain ⟨i, hi, rfl⟩ := h; exact ⟨i, ny, .inl ⟨hi, by omega, rfl⟩⟩
  · obtain ⟨j, hj, rfl⟩ := h; exact ⟨0, j, .inr (.inl ⟨by omega, hj, rfl⟩)⟩
  · exact h.elim

/-! ### the grid -/

theorem numVertices_ok {w s : ℝ} (hw : 0 ≤ w) (hs : 0 < s) : numVertices w s = .ok (cells w s + 1) := by
  have hq : 0 ≤ w / s := div_nonneg hw hs.le
  simp only [numVertices, pyDiv, if_neg hs.ne', bind_ok, pure_eq_ok, pyInt, if_pos hq, cells]
  congr 1
  have := Int.floor_nonneg.2 hq
  rw [← Int.floor_toNat]
  omega

/-- everything about the grid in lattice coordinates, for any size (also degenerate) -/
structure RectSpec (g : Grid ℝ) (it : SetIter) (nx ny : ℕ) (h : ℝ) (fix : Fix) (s : TagState) : Prop where
  vertices : g.vertices = List.range ((nx + 1) * (ny + 1))
  points : g.points = (rowMajor (nx + 1) (ny + 1)).map fun a => vec2 (pos h a)
  edges : g.edges = (E0 nx ny).map (labE (rowMajor (nx + 1) (ny + 1)))
  triangles : g.triangles = (T0 nx ny).map (labT (rowMajor (nx + 1) (ny + 1)))
  boundary : g.boundary = ⟨boundaryVertices it (nx + 1) (ny + 1), boundaryEdges (nx + 1) (ny + 1)⟩
  tags : TagSpec it (nx + 1) (ny + 1) (fixes it fix) s
  dirichlet : g.dirichlet = ⟨dirichletVertices s, it.edge 1 s.dirichletEdges⟩
  neumann : g.neumann = ⟨neumannVertices s, it.edge 2 s.neumannEdges⟩
  mean : g.meanEdgeLength =
    if E0 nx ny = [] then none else some (((E0 nx ny).map (lenL h)).sum / ((E0 nx ny).length : ℝ))

theorem points_rect (nx ny : ℕ) (h : ℝ) :
    RectGrid.points (nx + 1) (ny + 1) h = (rowMajor (nx + 1) (ny + 1)).map fun a => vec2 (pos h a) := by
  simp only [RectGrid.points, rowMajor, vertices, List.map_map]
  rfl

theorem rect_grid_spec (it : SetIter) (d : RectDomain ℝ) {s : ℝ} (hw : 0 ≤ d.width) (hh : 0 ≤ d.height)
    (hs : 0 < s) :
    ∃ g ts, d.grid it s = .ok g ∧ RectSpec g it (cells d.width s) (cells d.height s) s d.fix ts := by
  obtain ⟨ts, h1, h2⟩ := tagState_spec it (cells d.width s + 1) (cells d.height s + 1) d.fix
  have hnew := grid_new_ok (P := rowMajor (cells d.width s + 1) (cells d.height s + 1)) (h := s)
    (E := E0 (cells d.width s) (cells d.height s)) (fun e he => by
      have := latEdge_mem (mem_E0.1 he)
      exact ⟨(mem_rowMajor _).2 this.1, (mem_rowMajor _).2 this.2⟩)
    (vertices (cells d.width s + 1) (cells d.height s + 1))
    (triangles (cells d.width s + 1) (cells d.height s + 1))
    ⟨boundaryVertices it (cells d.width s + 1) (cells d.height s + 1),
      boundaryEdges (cells d.width s + 1) (cells d.height s + 1)⟩
    ⟨dirichletVertices ts, it.edge 1 ts.dirichletEdges⟩ ⟨neumannVertices ts, it.edge 2 ts.neumannEdges⟩
  refine ⟨?g, ts, ?eq, ?spec⟩
  case eq =>
    rw [RectDomain.grid, numVertices_ok hw hs, numVertices_ok hh hs]
    simp only [bind_ok]
    rw [h1, bind_ok, edges_rect, points_rect]
    exact hnew
  case spec =>
    refine ⟨rfl, rfl, rfl, ?_, rfl, h2, rfl, rfl, rfl⟩
    simp only [triangles_rect]

theorem rectSpec_unique {it : SetIter} {d : RectDomain ℝ} {s : ℝ} {g : Grid ℝ} (hw : 0 ≤ d.width)
    (hh : 0 ≤ d.height) (hs : 0 < s) (hg : d.grid it s = .ok g) :
    ∃ ts, RectSpec g it (cells d.width s) (cells d.height s) s d.fix ts := by
  obtain ⟨g', ts, h1, h2⟩ := rect_grid_spec it d hw hh hs
  rw [hg] at h1
  cases h1
  exact ⟨ts, h2⟩

theorem mem_sideVertices_rect {nx ny : ℕ} {f : FixOption} {v : Vertex} :
    v ∈ sideVertices (nx + 1) (ny + 1) f ↔
      ∃ a, InBox nx ny a ∧ OnSideL nx ny f a ∧ v = lab (rowMajor (nx + 1) (ny + 1)) a := by
  rw [sideVertices_rect, List.mem_map]
  constructor
  · rintro ⟨a, ha, rfl⟩; exact ⟨a, (mem_sV.1 ha).1, (mem_sV.1 ha).2, rfl⟩
  · rintro ⟨a, h1, h2, rfl⟩; exact ⟨a, mem_sV.2 ⟨h1, h2⟩, rfl⟩

theorem nodup_map_labE {P : List LP} {E : List (LP × LP)} (hE : ∀ e ∈ E, e.1 ∈ P ∧ e.2 ∈ P) (hn : E.Nodup) :
    (E.map (labE P)).Nodup := by
  refine List.Nodup.map_on ?_ hn
  intro x hx y hy hxy
  simp only [labE, Prod.mk.injEq] at hxy
  exact Prod.ext (lab_inj (hE x hx).1 hxy.1) (lab_inj (hE x hx).2 hxy.2)

theorem onSideL_any {nx ny : ℕ} {a : LP} :
    (∃ f, OnSideL nx ny f a) ↔ (a.1 = 0 ∨ a.1 = nx ∨ a.2 = 0 ∨ a.2 = ny) := by
  constructor
  · rintro ⟨f, h⟩
    cases f <;> simp only [OnSideL] at h <;> omega
  · rintro (h | h | h | h)
    exacts [⟨.left, h⟩, ⟨.right, h⟩, ⟨.lower, h⟩, ⟨.upper, h⟩]

/-- the boundary edges in lattice coordinates -/
def BE0 (nx ny : ℕ) : List (LP × LP) := sE nx ny .lower ++ sE nx ny .right ++ sE nx ny .upper ++ sE nx ny .left

theorem mem_BE0 {nx ny : ℕ} {e : LP × LP} : e ∈ BE0 nx ny ↔ ∃ f, SideEdge nx ny f e := by
  simp only [BE0, List.mem_append, mem_sE]
  constructor
  · rintro (((h | h) | h) | h)
    exacts [⟨_, h⟩, ⟨_, h⟩, ⟨_, h⟩, ⟨_, h⟩]
  · rintro ⟨f, h⟩
    cases f
    exacts [.inl (.inl (.inl h)), .inl (.inl (.inr h)), .inl (.inr h), .inr h, h.elim]

theorem nodup_BE0 {nx ny : ℕ} (hx : 1 ≤ nx) (hy : 1 ≤ ny) : (BE0 nx ny).Nodup := by
  simp only [BE0]
  rw [List.nodup_append', List.nodup_append', List.nodup_append']
  refine ⟨⟨⟨nodup_sE _ _ _, nodup_sE _ _ _, ?_⟩, nodup_sE _ _ _, ?_⟩, nodup_sE _ _ _, ?_⟩
  · intro e h1 h2
    obtain ⟨i, _, rfl⟩ := mem_sE.1 h1
    obtain ⟨j, _, h⟩ := mem_sE.1 h2
    simp only [Prod.mk.injEq] at h; omega
  · intro e h1 h2
    obtain ⟨i, _, rfl⟩ := mem_sE.1 h2
    rcases List.mem_append.1 h1 with h1 | h1 <;> obtain ⟨j, _, h⟩ := mem_sE.1 h1 <;>
      simp only [Prod.mk.injEq] at h <;> omega
  · intro e h1 h2
    obtain ⟨i, _, rfl⟩ := mem_sE.1 h2
    rcases List.mem_append.1 h1 with h1 | h1
    · rcases List.mem_append.1 h1 with h1 | h1 <;> obtain ⟨j, _, h⟩ := mem_sE.1 h1 <;>
        simp only [Prod.mk.injEq] at h <;> omega
    · obtain ⟨j, _, h⟩ := mem_sE.1 h1
      simp only [Prod.mk.injEq] at h; omega

theorem boundaryEdges_rect (nx ny : ℕ) :
    boundaryEdges (nx + 1) (ny + 1) = (BE0 nx ny).map (labE (rowMajor (nx + 1) (ny + 1))) := by
  simp only [boundaryEdges, BE0, sideEdges_rect, List.map_append]

theorem rect_lattice {g : Grid ℝ} {it : SetIter} {nx ny : ℕ} {h : ℝ} {fix : Fix} {s : TagState}
    (hg : RectSpec g it nx ny h fix s) (hx : 1 ≤ nx) (hy : 1 ≤ ny) (hh : 0 < h) :
    Lattice g nx ny h (rowMajor (nx + 1) (ny + 1)) true (E0 nx ny) (T0 nx ny)
      ((boundaryVertices it (nx + 1) (ny + 1)).map (co (rowMajor (nx + 1) (ny + 1)))) (BE0 nx ny) := by
  have hP := nodup_rowMajor (nx + 1) (ny + 1)
  have hb : ∀ v ∈ boundaryVertices it (nx + 1) (ny + 1), ∃ a, InBox nx ny a ∧ (∃ f, OnSideL nx ny f a) ∧
      v = lab (rowMajor (nx + 1) (ny + 1)) a := by
    intro v hv
    obtain ⟨f, hf⟩ := mem_boundaryVertices.1 hv
    obtain ⟨a, h1, h2, h3⟩ := mem_sideVertices_rect.1 hf
    exact ⟨a, h1, ⟨f, h2⟩, h3⟩
  refine ⟨hh, hx, hy, hP, fun a => mem_rowMajor a, ?_, hg.points, hg.edges, nodup_E0 _ _, fun _ => mem_E0,
    hg.triangles, nodup_T0 _ _, fun _ => mem_T0, ?_, ?_, ?_, ?_, nodup_BE0 hx hy, fun _ => mem_BE0, ?_⟩
  · rw [length_rowMajor]; exact hg.vertices
  · rw [hg.boundary, map_lab_co hP]
    intro v hv
    obtain ⟨a, h1, _, rfl⟩ := hb v hv
    exact lab_lt ((mem_rowMajor a).2 h1)
  · refine List.Nodup.map_on ?_ (nodup_boundaryVertices it _ _)
    intro v hv w hw hvw
    obtain ⟨a, h1, _, rfl⟩ := hb v hv
    obtain ⟨b, h2, _, rfl⟩ := hb w hw
    rw [co_lab ((mem_rowMajor a).2 h1), co_lab ((mem_rowMajor b).2 h2)] at hvw
    rw [hvw]
  · intro a
    rw [← onSideL_any, List.mem_map]
    constructor
    · rintro ⟨v, hv, rfl⟩
      obtain ⟨a, h1, h2, rfl⟩ := hb v hv
      rw [co_lab ((mem_rowMajor a).2 h1)]
      exact ⟨h1, h2⟩
    · rintro ⟨h1, f, h2⟩
      refine ⟨_, mem_boundaryVertices.2 ⟨f, mem_sideVertices_rect.2 ⟨a, h1, h2, rfl⟩⟩, ?_⟩
      exact co_lab ((mem_rowMajor a).2 h1)
  · rw [hg.boundary, boundaryEdges_rect]
  · rw [hg.mean, if_neg]
    intro h0
    have := length_E0 nx ny
    rw [h0] at this
    simp only [List.length_nil] at this
    nlinarith

end Tve
