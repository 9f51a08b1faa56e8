import Verif.Lemmas.GridLocate

/-! Dirichlet and Neumann parts of the grid of a rectangle. -/

namespace Tve
open RectGrid

theorem sideEdge_iff {nx ny : ℕ} {dg : Bool} {f : FixOption} {e : LP × LP} :
    SideEdge nx ny f e ↔ LatEdge nx ny dg e ∧ OnSideL nx ny f e.1 ∧ OnSideL nx ny f e.2 := by
  constructor
  · intro h
    refine ⟨sideEdge_lat h, ?_⟩
    cases f <;> first | exact h.elim | (obtain ⟨i, hi, rfl⟩ := h; simp [OnSideL])
  · rintro ⟨⟨i, j, h⟩, h1, h2⟩
    rcases h with ⟨hi, hj, rfl⟩ | ⟨hi, hj, rfl⟩ | ⟨hi, hj, rfl⟩
    · cases f <;> simp only [OnSideL] at h1 h2 <;>
        first | exact h1.elim | omega | (subst h1; exact ⟨i, hi, rfl⟩)
    · cases f <;> simp only [OnSideL] at h1 h2 <;>
        first | exact h1.elim | omega | (subst h1; exact ⟨j, hj, rfl⟩)
    · exfalso
      cases dg <;> cases f <;> simp [OnSideL] at h1 h2 <;> omega

theorem onSide_pos {nx ny : ℕ} {h : ℝ} (hh : 0 < h) {f : FixOption} {a : LP} :
    OnSide (nx * h) (ny * h) f (pos h a) ↔ OnSideL nx ny f a := by
  cases f <;> simp only [OnSide, OnSideL, pos, mul_eq_zero, hh.ne', or_false, mul_left_inj' hh.ne', Nat.cast_inj,
    Nat.cast_eq_zero]

theorem mem_sideEdges_rect {nx ny : ℕ} {f : FixOption} {e : Edge} :
    e ∈ sideEdges (nx + 1) (ny + 1) f ↔ ∃ a, SideEdge nx ny f a ∧ e = labE (rowMajor (nx + 1) (ny + 1)) a := by
  rw [sideEdges_rect, List.mem_map]
  constructor
  · rintro ⟨a, ha, rfl⟩; exact ⟨a, mem_sE.1 ha, rfl⟩
  · rintro ⟨a, h1, rfl⟩; exact ⟨a, mem_sE.2 h1, rfl⟩

section
variable {g : Grid ℝ} {it : SetIter} {nx ny : ℕ} {h : ℝ} {fix : Fix} {s : TagState}

theorem RectSpec.at_lab (R : RectSpec g it nx ny h fix s) {a : LP} (ha : InBox nx ny a) :
    g.At (lab (rowMajor (nx + 1) (ny + 1)) a) (pos h a) := by
  rw [Grid.At, R.points, List.getElem?_map, getElem?_lab ((mem_rowMajor a).2 ha)]; rfl

theorem RectSpec.at_iff (R : RectSpec g it nx ny h fix s) {v : Vertex} {q : ℝ × ℝ} :
    g.At v q ↔ ∃ a, InBox nx ny a ∧ v = lab (rowMajor (nx + 1) (ny + 1)) a ∧ q = pos h a := by
  constructor
  · intro hh
    rw [Grid.At, R.points, List.getElem?_map] at hh
    obtain ⟨a, h1, h2⟩ := Option.map_eq_some_iff.1 hh
    have hv : v < (rowMajor (nx + 1) (ny + 1)).length := (List.getElem?_eq_some_iff.1 h1).1
    have : a = co (rowMajor (nx + 1) (ny + 1)) v := by rw [co, List.getD_eq_getElem?_getD, h1]; rfl
    refine ⟨a, (mem_rowMajor a).1 (this ▸ co_mem hv), ?_, (Lattice.vec2_inj h2).symm⟩
    rw [this, lab_co (nodup_rowMajor _ _) hv]
  · rintro ⟨a, ha, rfl, rfl⟩
    exact R.at_lab ha

/-- membership in the Dirichlet edges, in lattice coordinates -/
theorem RectSpec.memDE (R : RectSpec g it nx ny h fix s) (e : Edge) :
    e ∈ g.dirichlet.edges ↔ ∃ f ∈ fix.options, ∃ a, SideEdge nx ny f a ∧ e = labE (rowMajor (nx + 1) (ny + 1)) a := by
  rw [R.dirichlet]
  simp only
  rw [(it.edge_perm _ _).mem_iff, R.tags.memD]
  simp only [mem_fixes, mem_sideEdges_rect]

theorem RectSpec.memNE (R : RectSpec g it nx ny h fix s) (e : Edge) :
    e ∈ g.neumann.edges ↔ e ∈ g.boundary.edges ∧ e ∉ g.dirichlet.edges := by
  rw [R.dirichlet, R.neumann, R.boundary]
  simp only
  rw [(it.edge_perm _ _).mem_iff, (it.edge_perm _ _).mem_iff, R.tags.memD, R.tags.memN]
  simp

theorem RectSpec.nodupDE (R : RectSpec g it nx ny h fix s) : g.dirichlet.edges.Nodup := by
  rw [R.dirichlet]; exact (it.edge_perm _ _).nodup_iff.2 R.tags.nodupD

theorem RectSpec.nodupNE (R : RectSpec g it nx ny h fix s) : g.neumann.edges.Nodup := by
  rw [R.neumann]; exact (it.edge_perm _ _).nodup_iff.2 R.tags.nodupN

theorem RectSpec.memBE (R : RectSpec g it nx ny h fix s) (e : Edge) :
    e ∈ g.boundary.edges ↔ ∃ f a, SideEdge nx ny f a ∧ e = labE (rowMajor (nx + 1) (ny + 1)) a := by
  rw [R.boundary]
  simp only [mem_boundaryEdges, mem_sideEdges_rect]

theorem RectSpec.memDV (R : RectSpec g it nx ny h fix s) (v : Vertex) :
    v ∈ g.dirichlet.vertices ↔
      ∃ f ∈ fix.options, ∃ a, InBox nx ny a ∧ OnSideL nx ny f a ∧ v = lab (rowMajor (nx + 1) (ny + 1)) a := by
  rw [R.dirichlet]
  simp only [mem_dirichletVertices R.tags, mem_fixes, mem_sideVertices_rect]

theorem RectSpec.memBV (R : RectSpec g it nx ny h fix s) (v : Vertex) :
    v ∈ g.boundary.vertices ↔
      ∃ f a, InBox nx ny a ∧ OnSideL nx ny f a ∧ v = lab (rowMajor (nx + 1) (ny + 1)) a := by
  rw [R.boundary]
  simp only [mem_boundaryVertices, mem_sideVertices_rect]

/-- number of fixed sides through a lattice point -/
noncomputable def fixedSides (nx ny : ℕ) (fix : Fix) (a : LP) : Finset FixOption := by
  classical exact fix.options.toFinset.filter (fun f => OnSideL nx ny f a)

theorem RectSpec.memNV (R : RectSpec g it nx ny h fix s) {a : LP} (ha : InBox nx ny a) :
    lab (rowMajor (nx + 1) (ny + 1)) a ∈ g.neumann.vertices ↔
      (∃ f, OnSideL nx ny f a) ∧ (fixedSides nx ny fix a).card ≤ 1 := by
  classical
  rw [R.neumann]
  simp only [mem_neumannVertices R.tags]
  have hside : ∀ f, lab (rowMajor (nx + 1) (ny + 1)) a ∈ sideVertices (nx + 1) (ny + 1) f ↔ OnSideL nx ny f a := by
    intro f
    rw [mem_sideVertices_rect]
    constructor
    · rintro ⟨b, h1, h2, h3⟩
      rw [lab_inj ((mem_rowMajor a).2 ha) h3]; exact h2
    · intro h1; exact ⟨a, ha, h1, rfl⟩
  have hcount : fixCount (nx + 1) (ny + 1) (fixes it fix) (lab (rowMajor (nx + 1) (ny + 1)) a) =
      (fixedSides nx ny fix a).card := by
    rw [fixCount, ← List.toFinset_card_of_nodup ((nodup_fixes it fix).filter _)]
    congr 1
    ext f
    simp only [List.mem_toFinset, List.mem_filter, mem_fixes, hside, decide_eq_true_eq, fixedSides, Finset.mem_filter]
  rw [hcount]
  apply and_congr_left
  intro _
  rw [mem_boundaryVertices]
  simp only [hside]

theorem RectSpec.lt_of_mem (R : RectSpec g it nx ny h fix s) {v : Vertex} (hv : v ∈ g.vertices) :
    ∃ a, InBox nx ny a ∧ v = lab (rowMajor (nx + 1) (ny + 1)) a := by
  rw [R.vertices, List.mem_range] at hv
  have hl : v < (rowMajor (nx + 1) (ny + 1)).length := by rw [length_rowMajor]; exact hv
  exact ⟨co _ v, (mem_rowMajor _).1 (co_mem hl), (lab_co (nodup_rowMajor _ _) hl).symm⟩

theorem RectSpec.lab_mem (R : RectSpec g it nx ny h fix s) {a : LP} (ha : InBox nx ny a) :
    lab (rowMajor (nx + 1) (ny + 1)) a ∈ g.vertices := by
  rw [R.vertices, List.mem_range, ← length_rowMajor]
  exact lab_lt ((mem_rowMajor a).2 ha)

theorem RectSpec.NV_sub (R : RectSpec g it nx ny h fix s) {v : Vertex} (hv : v ∈ g.neumann.vertices) :
    v ∈ g.boundary.vertices := by
  rw [R.neumann] at hv
  rw [R.boundary]
  exact ((mem_neumannVertices R.tags).1 hv).1

theorem RectSpec.wellFormed (R : RectSpec g it nx ny h fix s) : g.WellFormed := by
  have hE : ∀ e, e ∈ g.boundary.edges → e ∈ g.edges := by
    intro e he
    obtain ⟨f, a, h1, rfl⟩ := (R.memBE e).1 he
    rw [R.edges]
    exact List.mem_map_of_mem (mem_E0.2 (sideEdge_lat h1))
  have hBV : ∀ v, v ∈ g.boundary.vertices → v ∈ g.vertices := by
    intro v hv
    obtain ⟨f, a, h1, h2, rfl⟩ := (R.memBV v).1 hv
    exact R.lab_mem h1
  refine ⟨?_, ?_, ?_, ?_, ⟨hBV, hE⟩, ⟨?_, ?_⟩, ⟨?_, ?_⟩⟩
  · rw [R.vertices, R.points, List.length_map, length_rowMajor]
  · intro v hv
    rw [R.points, List.length_map] at hv
    refine ⟨pos h (co (rowMajor (nx + 1) (ny + 1)) v), ?_⟩
    have := R.at_lab ((mem_rowMajor _).1 (co_mem hv))
    rwa [lab_co (nodup_rowMajor _ _) hv] at this
  · intro e he
    rw [R.edges] at he
    obtain ⟨a, ha, rfl⟩ := List.mem_map.1 he
    have := latEdge_mem (mem_E0.1 ha)
    exact ⟨R.lab_mem this.1, R.lab_mem this.2⟩
  · intro t ht
    rw [R.triangles] at ht
    obtain ⟨a, ha, rfl⟩ := List.mem_map.1 ht
    have := latTri_mem (mem_T0.1 ha)
    exact ⟨R.lab_mem this.1, R.lab_mem this.2.1, R.lab_mem this.2.2⟩
  · intro v hv
    obtain ⟨f, _, a, h1, h2, rfl⟩ := (R.memDV v).1 hv
    exact R.lab_mem h1
  · intro e he
    obtain ⟨f, _, a, h1, rfl⟩ := (R.memDE e).1 he
    exact hE _ ((R.memBE _).2 ⟨f, a, h1, rfl⟩)
  · intro v hv; exact hBV v (R.NV_sub hv)
  · intro e he; exact hE e ((R.memNE e).1 he).1

/-- every point of a side is an endpoint of an edge of the side -/
theorem side_endpoint {nx ny : ℕ} (hx : 1 ≤ nx) (hy : 1 ≤ ny) {f : FixOption} {a : LP} (ha : InBox nx ny a)
    (hf : OnSideL nx ny f a) : ∃ e, SideEdge nx ny f e ∧ (a = e.1 ∨ a = e.2) := by
  obtain ⟨i, j⟩ := a
  obtain ⟨hi, hj⟩ := ha
  simp only at hi hj
  cases f <;> simp only [OnSideL] at hf
  · subst hf
    by_cases h : i < nx
    · exact ⟨_, ⟨i, h, rfl⟩, .inl rfl⟩
    · exact ⟨_, ⟨i - 1, by omega, rfl⟩, .inr (Prod.ext (by dsimp only; omega) (by dsimp only))⟩
  · subst hf
    by_cases h : j < ny
    · exact ⟨_, ⟨j, h, rfl⟩, .inl rfl⟩
    · exact ⟨_, ⟨j - 1, by omega, rfl⟩, .inr (Prod.ext (by dsimp only) (by dsimp only; omega))⟩
  · subst hf
    by_cases h : i < nx
    · exact ⟨_, ⟨i, h, rfl⟩, .inl rfl⟩
    · exact ⟨_, ⟨i - 1, by omega, rfl⟩, .inr (Prod.ext (by dsimp only; omega) (by dsimp only))⟩
  · subst hf
    by_cases h : j < ny
    · exact ⟨_, ⟨j, h, rfl⟩, .inl rfl⟩
    · exact ⟨_, ⟨j - 1, by omega, rfl⟩, .inr (Prod.ext (by dsimp only) (by dsimp only; omega))⟩

end
end Tve
