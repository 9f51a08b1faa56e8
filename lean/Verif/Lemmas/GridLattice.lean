import Verif.Lemmas.GridMain

/-! Consequences of the lattice description. -/

namespace Tve

section
variable {g : Grid ℝ} {nx ny : ℕ} {h : ℝ} {P : List LP} {dg : Bool} {E : List (LP × LP)}
  {T : List (LP × LP × LP)} {BV : List LP} {BE : List (LP × LP)}

/-- sides of a lattice triangle -/
def sidesL (t : LP × LP × LP) : List (Sym2 LP) := [s(t.1, t.2.1), s(t.2.1, t.2.2), s(t.2.2, t.1)]

theorem sides_labT (P : List LP) (t : LP × LP × LP) :
    Tri.sides (labT P t) = (sidesL t).map (Sym2.map (lab P)) := rfl

theorem sym2_lab_inj {P : List LP} {a b c d : LP} (ha : a ∈ P) (hb : b ∈ P)
    (hh : s(lab P a, lab P b) = s(lab P c, lab P d)) : s(a, b) = s(c, d) := by
  rw [Sym2.eq_iff] at hh ⊢
  rcases hh with ⟨h1, h2⟩ | ⟨h1, h2⟩
  · exact .inl ⟨lab_inj ha h1, lab_inj hb h2⟩
  · exact .inr ⟨lab_inj ha h1, lab_inj hb h2⟩

theorem undirected_mem_sides {P : List LP} {e : LP × LP} {t : LP × LP × LP} (h1 : e.1 ∈ P) (h2 : e.2 ∈ P) :
    Edge.undirected (labE P e) ∈ Tri.sides (labT P t) ↔ s(e.1, e.2) ∈ sidesL t := by
  constructor
  · intro hh
    simp only [Edge.undirected, labE, Tri.sides, labT, List.mem_cons, List.not_mem_nil, or_false] at hh
    rcases hh with hh | hh | hh
    · simp [sidesL, sym2_lab_inj h1 h2 hh]
    · simp [sidesL, sym2_lab_inj h1 h2 hh]
    · simp [sidesL, sym2_lab_inj h1 h2 hh]
  · intro hh
    rw [sides_labT]
    exact List.mem_map.2 ⟨_, hh, rfl⟩

namespace Lattice

theorem memE_P (L : Lattice g nx ny h P dg E T BV BE) {e : LP × LP} (he : e ∈ E) : e.1 ∈ P ∧ e.2 ∈ P := by
  have := latEdge_mem ((L.memE e).1 he)
  exact ⟨(L.memP _).2 this.1, (L.memP _).2 this.2⟩

theorem memT_P (L : Lattice g nx ny h P dg E T BV BE) {t : LP × LP × LP} (ht : t ∈ T) :
    t.1 ∈ P ∧ t.2.1 ∈ P ∧ t.2.2 ∈ P := by
  have := latTri_mem ((L.memT t).1 ht)
  exact ⟨(L.memP _).2 this.1, (L.memP _).2 this.2.1, (L.memP _).2 this.2.2⟩

theorem lengthP (L : Lattice g nx ny h P dg E T BV BE) : P.length = (nx + 1) * (ny + 1) := by
  have : P.Perm (rowMajor (nx + 1) (ny + 1)) :=
    (List.perm_ext_iff_of_nodup L.nodupP (nodup_rowMajor _ _)).2 fun a => by rw [L.memP, mem_rowMajor]
  rw [this.length_eq, length_rowMajor]

theorem permT (L : Lattice g nx ny h P dg E T BV BE) : T.Perm (T0 nx ny) :=
  (List.perm_ext_iff_of_nodup L.nodupT (nodup_T0 _ _)).2 fun a => by rw [L.memT, mem_T0]

theorem lengthT (L : Lattice g nx ny h P dg E T BV BE) : T.length = 2 * (nx * ny) := by
  rw [L.permT.length_eq, length_T0]

end Lattice

theorem latEdge_not_swap {nx ny : ℕ} {dg : Bool} {a b : LP} (h1 : LatEdge nx ny dg (a, b)) :
    ¬ LatEdge nx ny dg (b, a) := by
  rintro ⟨i', j', h'⟩
  obtain ⟨i, j, h⟩ := h1
  obtain ⟨a1, a2⟩ := a
  obtain ⟨b1, b2⟩ := b
  cases dg <;> simp only [Prod.mk.injEq, if_true, if_false, Bool.false_eq_true] at h h' <;> omega

theorem sym2_latEdge_inj {nx ny : ℕ} {dg : Bool} {e e' : LP × LP} (h1 : LatEdge nx ny dg e)
    (h2 : LatEdge nx ny dg e') (hh : s(e.1, e.2) = s(e'.1, e'.2)) : e = e' := by
  rcases Sym2.eq_iff.1 hh with ⟨h3, h4⟩ | ⟨h3, h4⟩
  · exact Prod.ext h3 h4
  · exfalso
    obtain ⟨a, b⟩ := e
    obtain ⟨c, d⟩ := e'
    simp only at h3 h4
    subst h3; subst h4
    exact latEdge_not_swap h1 h2

/-- the edges of the lattice up to orientation do not depend on the orientation of the diagonals -/
theorem latEdge_undirected {nx ny : ℕ} {dg dg' : Bool} {e : LP × LP} (h : LatEdge nx ny dg e) :
    ∃ e', LatEdge nx ny dg' e' ∧ s(e'.1, e'.2) = s(e.1, e.2) := by
  obtain ⟨i, j, h | h | ⟨h1, h2, h3⟩⟩ := h
  · exact ⟨e, ⟨i, j, .inl h⟩, rfl⟩
  · exact ⟨e, ⟨i, j, .inr (.inl h)⟩, rfl⟩
  · refine ⟨_, ⟨i, j, .inr (.inr ⟨h1, h2, rfl⟩)⟩, ?_⟩
    subst h3
    cases dg <;> cases dg' <;> simp [Sym2.eq_swap]

theorem latEdge_iff_side {nx ny : ℕ} {dg : Bool} (hx : 1 ≤ nx) (hy : 1 ≤ ny) (x : Sym2 LP) :
    (∃ e, LatEdge nx ny dg e ∧ s(e.1, e.2) = x) ↔ ∃ t, LatTri nx ny t ∧ x ∈ sidesL t := by
  constructor
  · rintro ⟨e, he, rfl⟩
    obtain ⟨e', ⟨i, j, h'⟩, he'⟩ := latEdge_undirected (dg' := true) he
    rw [← he']
    simp only [if_true] at h'
    rcases h' with ⟨h1, h2, rfl⟩ | ⟨h1, h2, rfl⟩ | ⟨h1, h2, rfl⟩
    · by_cases hj : j < ny
      · exact ⟨_, ⟨i, j, h1, hj, .inl rfl⟩, by simp [sidesL]⟩
      · have : j = (ny - 1) + 1 := by omega
        refine ⟨_, ⟨i, ny - 1, h1, by omega, .inr rfl⟩, ?_⟩
        rw [this]; simp [sidesL, Sym2.eq_swap]
    · by_cases hi : i < nx
      · exact ⟨_, ⟨i, j, hi, h2, .inr rfl⟩, by simp [sidesL, Sym2.eq_swap]⟩
      · have : i = (nx - 1) + 1 := by omega
        refine ⟨_, ⟨nx - 1, j, by omega, h2, .inl rfl⟩, ?_⟩
        rw [this]; simp [sidesL]
    · exact ⟨_, ⟨i, j, h1, h2, .inl rfl⟩, by simp [sidesL, Sym2.eq_swap]⟩
  · rintro ⟨t, ⟨i, j, hi, hj, rfl | rfl⟩, hx⟩
    · simp only [sidesL, List.mem_cons, List.not_mem_nil, or_false] at hx
      rcases hx with rfl | rfl | rfl
      · exact ⟨_, ⟨i, j, .inl ⟨hi, by omega, rfl⟩⟩, rfl⟩
      · exact ⟨_, ⟨i + 1, j, .inr (.inl ⟨by omega, hj, rfl⟩)⟩, rfl⟩
      · refine ⟨_, ⟨i, j, .inr (.inr ⟨hi, hj, rfl⟩)⟩, ?_⟩
        cases dg <;> simp [Sym2.eq_swap]
    · simp only [sidesL, List.mem_cons, List.not_mem_nil, or_false] at hx
      rcases hx with rfl | rfl | rfl
      · exact ⟨_, ⟨i, j + 1, .inl ⟨hi, by omega, rfl⟩⟩, Sym2.eq_swap⟩
      · exact ⟨_, ⟨i, j, .inr (.inl ⟨by omega, hj, rfl⟩)⟩, Sym2.eq_swap⟩
      · refine ⟨_, ⟨i, j, .inr (.inr ⟨hi, hj, rfl⟩)⟩, ?_⟩
        cases dg <;> simp [Sym2.eq_swap]

/-- boundary edges are the edges with exactly one adjacent triangle -/
theorem sideEdge_iff_unique {nx ny : ℕ} {dg : Bool} (hx : 1 ≤ nx) (hy : 1 ≤ ny) {e : LP × LP}
    (he : LatEdge nx ny dg e) :
    (∃ f, SideEdge nx ny f e) ↔ ∃! t, LatTri nx ny t ∧ s(e.1, e.2) ∈ sidesL t := by
  constructor
  · rintro ⟨f, hf⟩
    cases f
    · obtain ⟨i, hi, rfl⟩ := hf
      refine ⟨_, ⟨⟨i, 0, hi, hy, .inl rfl⟩, by simp [sidesL]⟩, ?_⟩
      rintro t ⟨⟨i', j', hi', hj', rfl | rfl⟩, hs⟩ <;>
        simp only [sidesL, List.mem_cons, List.not_mem_nil, or_false, Sym2.eq_iff, Prod.mk.injEq] at hs ⊢ <;> omega
    · obtain ⟨j, hj, rfl⟩ := hf
      refine ⟨_, ⟨⟨nx - 1, j, by omega, hj, .inl rfl⟩, ?_⟩, ?_⟩
      · simp [sidesL, Nat.sub_add_cancel hx]
      rintro t ⟨⟨i', j', hi', hj', rfl | rfl⟩, hs⟩ <;>
        simp only [sidesL, List.mem_cons, List.not_mem_nil, or_false, Sym2.eq_iff, Prod.mk.injEq] at hs ⊢ <;> omega
    · obtain ⟨i, hi, rfl⟩ := hf
      refine ⟨_, ⟨⟨i, ny - 1, hi, by omega, .inr rfl⟩, ?_⟩, ?_⟩
      · simp [sidesL, Nat.sub_add_cancel hy, Sym2.eq_swap]
      rintro t ⟨⟨i', j', hi', hj', rfl | rfl⟩, hs⟩ <;>
        simp only [sidesL, List.mem_cons, List.not_mem_nil, or_false, Sym2.eq_iff, Prod.mk.injEq] at hs ⊢ <;> omega
    · obtain ⟨j, hj, rfl⟩ := hf
      refine ⟨_, ⟨⟨0, j, hx, hj, .inr rfl⟩, by simp [sidesL, Sym2.eq_swap]⟩, ?_⟩
      rintro t ⟨⟨i', j', hi', hj', rfl | rfl⟩, hs⟩ <;>
        simp only [sidesL, List.mem_cons, List.not_mem_nil, or_false, Sym2.eq_iff, Prod.mk.injEq] at hs ⊢ <;> omega
    · exact hf.elim
  · rintro ⟨t, -, hu⟩
    have key : ∀ t1 t2, (LatTri nx ny t1 ∧ s(e.1, e.2) ∈ sidesL t1) → (LatTri nx ny t2 ∧ s(e.1, e.2) ∈ sidesL t2) →
        t1 = t2 := fun t1 t2 h1 h2 => (hu t1 h1).trans (hu t2 h2).symm
    obtain ⟨i, j, h⟩ := he
    rcases h with ⟨h1, h2, rfl⟩ | ⟨h1, h2, rfl⟩ | ⟨h1, h2, h3⟩
    · by_cases hj0 : j = 0
      · subst hj0; exact ⟨.lower, i, h1, rfl⟩
      by_cases hjn : j = ny
      · subst hjn; exact ⟨.upper, i, h1, rfl⟩
      exfalso
      have := key _ _ ⟨⟨i, j, h1, by omega, .inl rfl⟩, by simp [sidesL]⟩
        ⟨⟨i, j - 1, h1, by omega, .inr rfl⟩, by
          simp [sidesL, Nat.sub_add_cancel (Nat.pos_of_ne_zero hj0), Sym2.eq_swap]⟩
      simp only [Prod.mk.injEq] at this; omega
    · by_cases hi0 : i = 0
      · subst hi0; exact ⟨.left, j, h2, rfl⟩
      by_cases hin : i = nx
      · subst hin; exact ⟨.right, j, h2, rfl⟩
      exfalso
      have := key _ _ ⟨⟨i, j, by omega, h2, .inr rfl⟩, by simp [sidesL, Sym2.eq_swap]⟩
        ⟨⟨i - 1, j, by omega, h2, .inl rfl⟩, by
          simp [sidesL, Nat.sub_add_cancel (Nat.pos_of_ne_zero hi0)]⟩
      simp only [Prod.mk.injEq] at this; omega
    · exfalso
      have := key _ _ ⟨⟨i, j, h1, h2, .inl rfl⟩, by subst h3; cases dg <;> simp [sidesL, Sym2.eq_swap]⟩
        ⟨⟨i, j, h1, h2, .inr rfl⟩, by subst h3; cases dg <;> simp [sidesL, Sym2.eq_swap]⟩
      simp only [Prod.mk.injEq] at this; omega

theorem labT_inj {P : List LP} {t t' : LP × LP × LP} (h1 : t.1 ∈ P ∧ t.2.1 ∈ P ∧ t.2.2 ∈ P)
    (hh : labT P t = labT P t') : t = t' := by
  simp only [labT, Prod.mk.injEq] at hh
  exact Prod.ext (lab_inj h1.1 hh.1) (Prod.ext (lab_inj h1.2.1 hh.2.1) (lab_inj h1.2.2 hh.2.2))

theorem labE_inj {P : List LP} {t t' : LP × LP} (h1 : t.1 ∈ P ∧ t.2 ∈ P)
    (hh : labE P t = labE P t') : t = t' := by
  simp only [labE, Prod.mk.injEq] at hh
  exact Prod.ext (lab_inj h1.1 hh.1) (lab_inj h1.2 hh.2)

/-- vertex set of a lattice triangle -/
def vsL (t : LP × LP × LP) : Finset LP := {t.1, t.2.1, t.2.2}

theorem vertexSet_labT (P : List LP) (t : LP × LP × LP) : Tri.vertexSet (labT P t) = (vsL t).image (lab P) := by
  simp [Tri.vertexSet, labT, vsL, Finset.image_insert]

theorem vsL_inj {nx ny : ℕ} {t t' : LP × LP × LP} (h1 : LatTri nx ny t) (h2 : LatTri nx ny t')
    (hh : vsL t = vsL t') : t = t' := by
  obtain ⟨i, j, hi, hj, h⟩ := h1
  obtain ⟨i', j', hi', hj', h'⟩ := h2
  have e1 : t.1 ∈ vsL t' := hh ▸ (by simp [vsL])
  have e2 : t.2.1 ∈ vsL t' := hh ▸ (by simp [vsL])
  have e3 : t.2.2 ∈ vsL t' := hh ▸ (by simp [vsL])
  rcases h with rfl | rfl <;> rcases h' with rfl | rfl <;>
    simp only [vsL, Finset.mem_insert, Finset.mem_singleton, Prod.mk.injEq] at e1 e2 e3 ⊢ <;> omega

namespace Lattice

theorem nodup_undirected (L : Lattice g nx ny h P dg E T BV BE) : (g.edges.map Edge.undirected).Nodup := by
  rw [L.edges, List.map_map]
  refine List.Nodup.map_on ?_ L.nodupE
  intro e he e' he' hh
  have h1 := L.memE_P he
  exact sym2_latEdge_inj ((L.memE _).1 he) ((L.memE _).1 he') (sym2_lab_inj h1.1 h1.2 hh)

theorem nodup_vertexSet (L : Lattice g nx ny h P dg E T BV BE) : (g.triangles.map Tri.vertexSet).Nodup := by
  rw [L.triangles, List.map_map]
  refine List.Nodup.map_on ?_ L.nodupT
  intro t ht t' ht' hh
  simp only [Function.comp, vertexSet_labT] at hh
  refine vsL_inj ((L.memT _).1 ht) ((L.memT _).1 ht') ?_
  have hsub : ∀ s : LP × LP × LP, s ∈ T → ∀ a ∈ vsL s, a ∈ P := by
    intro s hs a ha
    have := L.memT_P hs
    simp only [vsL, Finset.mem_insert, Finset.mem_singleton] at ha
    rcases ha with rfl | rfl | rfl
    exacts [this.1, this.2.1, this.2.2]
  apply Finset.Subset.antisymm
  · intro a ha
    have : lab P a ∈ (vsL t').image (lab P) := hh ▸ Finset.mem_image_of_mem _ ha
    obtain ⟨b, hb, hab⟩ := Finset.mem_image.1 this
    rw [← lab_inj (hsub t' ht' b hb) hab]; exact hb
  · intro a ha
    have : lab P a ∈ (vsL t).image (lab P) := hh ▸ Finset.mem_image_of_mem _ ha
    obtain ⟨b, hb, hab⟩ := Finset.mem_image.1 this
    rw [← lab_inj (hsub t ht b hb) hab]; exact hb

theorem edges_iff_sides (L : Lattice g nx ny h P dg E T BV BE) (x : Sym2 Vertex) :
    x ∈ g.edges.map Edge.undirected ↔ ∃ t ∈ g.triangles, x ∈ t.sides := by
  rw [L.edges, L.triangles, List.map_map]
  constructor
  · rintro hx
    obtain ⟨e, he, rfl⟩ := List.mem_map.1 hx
    obtain ⟨t, ht, hs⟩ := (latEdge_iff_side L.hx L.hy s(e.1, e.2)).1 ⟨e, (L.memE e).1 he, rfl⟩
    refine ⟨labT P t, List.mem_map_of_mem ((L.memT t).2 ht), ?_⟩
    have := L.memE_P he
    exact (undirected_mem_sides this.1 this.2).2 hs
  · rintro ⟨t, ht, hx⟩
    obtain ⟨t, ht', rfl⟩ := List.mem_map.1 ht
    rw [sides_labT] at hx
    obtain ⟨y, hy, rfl⟩ := List.mem_map.1 hx
    obtain ⟨e, he, rfl⟩ := (latEdge_iff_side L.hx L.hy y).2 ⟨t, (L.memT t).1 ht', hy⟩
    exact List.mem_map.2 ⟨e, (L.memE e).2 he, rfl⟩

theorem memBE_E (L : Lattice g nx ny h P dg E T BV BE) {e : LP × LP} (he : e ∈ BE) : e ∈ E := by
  obtain ⟨f, hf⟩ := (L.memBE e).1 he
  exact (L.memE e).2 (sideEdge_lat hf)

theorem boundary_iff (L : Lattice g nx ny h P dg E T BV BE) (e : Edge) :
    e ∈ g.boundary.edges ↔ e ∈ g.edges ∧ ∃! t, t ∈ g.triangles ∧ e.undirected ∈ t.sides := by
  rw [L.bedges, L.edges, L.triangles]
  have key : ∀ e ∈ E, (e ∈ BE ↔ ∃! t, t ∈ T.map (labT P) ∧ Edge.undirected (labE P e) ∈ t.sides) := by
    intro e he
    have hm := L.memE_P he
    rw [L.memBE, sideEdge_iff_unique (dg := dg) L.hx L.hy ((L.memE e).1 he)]
    constructor
    · rintro ⟨t, ⟨h1, h2⟩, hu⟩
      refine ⟨labT P t, ⟨List.mem_map_of_mem ((L.memT t).2 h1), (undirected_mem_sides hm.1 hm.2).2 h2⟩, ?_⟩
      rintro t' ⟨ht', hs⟩
      obtain ⟨t', h3, rfl⟩ := List.mem_map.1 ht'
      rw [hu t' ⟨(L.memT t').1 h3, (undirected_mem_sides hm.1 hm.2).1 hs⟩]
    · rintro ⟨t, ⟨h1, h2⟩, hu⟩
      obtain ⟨t, h3, rfl⟩ := List.mem_map.1 h1
      refine ⟨t, ⟨(L.memT t).1 h3, (undirected_mem_sides hm.1 hm.2).1 h2⟩, ?_⟩
      rintro t' ⟨h4, h5⟩
      have := hu (labT P t') ⟨List.mem_map_of_mem ((L.memT t').2 h4), (undirected_mem_sides hm.1 hm.2).2 h5⟩
      exact labT_inj (L.memT_P ((L.memT t').2 h4)) this
  constructor
  · intro hx
    obtain ⟨e, he, rfl⟩ := List.mem_map.1 hx
    exact ⟨List.mem_map_of_mem (L.memBE_E he), (key e (L.memBE_E he)).1 he⟩
  · rintro ⟨hx, hu⟩
    obtain ⟨e, he, rfl⟩ := List.mem_map.1 hx
    exact List.mem_map_of_mem ((key e he).2 hu)

theorem nodup_bedges (L : Lattice g nx ny h P dg E T BV BE) : g.boundary.edges.Nodup := by
  rw [L.bedges]
  exact nodup_map_labE (fun e he => L.memE_P (L.memBE_E he)) L.nodupBE

theorem memBV_P (L : Lattice g nx ny h P dg E T BV BE) {a : LP} (ha : a ∈ BV) : a ∈ P :=
  (L.memP a).2 ((L.memBV a).1 ha).1

theorem nodup_bvertices (L : Lattice g nx ny h P dg E T BV BE) : g.boundary.vertices.Nodup := by
  rw [L.bvertices]
  exact List.Nodup.map_on (fun a ha b _ hh => lab_inj (L.memBV_P ha) hh) L.nodupBV

/-- positions of the vertices -/
theorem at_lab (L : Lattice g nx ny h P dg E T BV BE) {a : LP} (ha : a ∈ P) : g.At (lab P a) (pos h a) := by
  rw [Grid.At, L.points, List.getElem?_map, getElem?_lab ha]; rfl

theorem vec2_inj {p q : ℝ × ℝ} (hh : vec2 p = vec2 q) : p = q := by
  simp only [vec2, Vec.mk.injEq, List.cons.injEq, and_true] at hh
  exact Prod.ext hh.1 hh.2

theorem at_iff (L : Lattice g nx ny h P dg E T BV BE) {v : Vertex} {q : ℝ × ℝ} :
    g.At v q ↔ ∃ a ∈ P, v = lab P a ∧ q = pos h a := by
  constructor
  · intro hh
    rw [Grid.At, L.points, List.getElem?_map] at hh
    obtain ⟨a, h1, h2⟩ := Option.map_eq_some_iff.1 hh
    have hv : v < P.length := (List.getElem?_eq_some_iff.1 h1).1
    have : a = co P v := by rw [co, List.getD_eq_getElem?_getD, h1]; rfl
    refine ⟨a, this ▸ co_mem hv, ?_, (vec2_inj h2).symm⟩
    rw [this, lab_co L.nodupP hv]
  · rintro ⟨a, ha, rfl, rfl⟩
    exact L.at_lab ha

theorem pos_inj (hh : 0 < h) {a b : LP} (hab : pos h a = pos h b) : a = b := by
  simp only [pos, Prod.mk.injEq] at hab
  ext
  · exact_mod_cast mul_right_cancel₀ hh.ne' hab.1
  · exact_mod_cast mul_right_cancel₀ hh.ne' hab.2

theorem rim_iff (L : Lattice g nx ny h P dg E T BV BE) (v : Vertex) :
    v ∈ g.boundary.vertices ↔ ∃ q, g.At v q ∧ (q.1 = 0 ∨ q.1 = nx * h ∨ q.2 = 0 ∨ q.2 = ny * h) := by
  have hh := L.h_pos
  have key : ∀ a : LP, ((pos h a).1 = 0 ∨ (pos h a).1 = nx * h ∨ (pos h a).2 = 0 ∨ (pos h a).2 = ny * h) ↔
      (a.1 = 0 ∨ a.1 = nx ∨ a.2 = 0 ∨ a.2 = ny) := by
    intro a
    simp only [pos, mul_eq_zero, hh.ne', or_false, mul_left_inj' hh.ne', Nat.cast_inj, Nat.cast_eq_zero]
  rw [L.bvertices]
  constructor
  · intro hv
    obtain ⟨a, ha, rfl⟩ := List.mem_map.1 hv
    exact ⟨_, L.at_lab (L.memBV_P ha), (key a).2 ((L.memBV a).1 ha).2⟩
  · rintro ⟨q, hq, hr⟩
    obtain ⟨a, ha, rfl, rfl⟩ := L.at_iff.1 hq
    exact List.mem_map_of_mem ((L.memBV a).2 ⟨(L.memP a).1 ha, (key a).1 hr⟩)

theorem bvertices_iff_endpoint (L : Lattice g nx ny h P dg E T BV BE) (v : Vertex) :
    v ∈ g.boundary.vertices ↔ ∃ e ∈ g.boundary.edges, v = e.1 ∨ v = e.2 := by
  have hx := L.hx
  have hy := L.hy
  rw [L.bvertices, L.bedges]
  constructor
  · intro hv
    obtain ⟨⟨i, j⟩, ha, rfl⟩ := List.mem_map.1 hv
    obtain ⟨⟨hi, hj⟩, hr⟩ := (L.memBV _).1 ha
    simp only at hi hj hr
    suffices ∃ e, (∃ f, SideEdge nx ny f e) ∧ ((i, j) = e.1 ∨ (i, j) = e.2) by
      obtain ⟨e, he, h'⟩ := this
      refine ⟨labE P e, List.mem_map_of_mem ((L.memBE e).2 he), ?_⟩
      rcases h' with h' | h'
      · left; rw [h']; rfl
      · right; rw [h']; rfl
    rcases hr with rfl | rfl | rfl | rfl
    · by_cases hj' : j < ny
      · exact ⟨_, ⟨.left, j, hj', rfl⟩, .inl rfl⟩
      · exact ⟨_, ⟨.left, j - 1, by omega, rfl⟩, .inr (Prod.ext (by dsimp only) (by dsimp only; omega))⟩
    · by_cases hj' : j < ny
      · exact ⟨_, ⟨.right, j, hj', rfl⟩, .inl rfl⟩
      · exact ⟨_, ⟨.right, j - 1, by omega, rfl⟩, .inr (Prod.ext (by dsimp only) (by dsimp only; omega))⟩
    · by_cases hi' : i < nx
      · exact ⟨_, ⟨.lower, i, hi', rfl⟩, .inl rfl⟩
      · exact ⟨_, ⟨.lower, i - 1, by omega, rfl⟩, .inr (Prod.ext (by dsimp only; omega) (by dsimp only))⟩
    · by_cases hi' : i < nx
      · exact ⟨_, ⟨.upper, i, hi', rfl⟩, .inl rfl⟩
      · exact ⟨_, ⟨.upper, i - 1, by omega, rfl⟩, .inr (Prod.ext (by dsimp only; omega) (by dsimp only))⟩
  · rintro ⟨e, he, hv⟩
    obtain ⟨e, he', rfl⟩ := List.mem_map.1 he
    obtain ⟨f, hf⟩ := (L.memBE e).1 he'
    have h1 := latEdge_mem (sideEdge_lat (dg := dg) hf)
    have h2 : ∀ a, (a = e.1 ∨ a = e.2) → (a.1 = 0 ∨ a.1 = nx ∨ a.2 = 0 ∨ a.2 = ny) := by
      intro a ha
      cases f <;> first | exact hf.elim | (obtain ⟨i, hi, rfl⟩ := hf; rcases ha with rfl | rfl <;> simp)
    rcases hv with rfl | rfl
    · exact List.mem_map_of_mem ((L.memBV e.1).2 ⟨h1.1, h2 _ (.inl rfl)⟩)
    · exact List.mem_map_of_mem ((L.memBV e.2).2 ⟨h1.2, h2 _ (.inr rfl)⟩)

end Lattice
end
end Tve
