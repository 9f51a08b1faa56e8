import Verif.Lemmas.RefineFull
import Verif.Props.GridEq

/-! Comparison of two lattice grids over the same box. -/

namespace Tve

/-- lattice edges without orientation do not depend on the direction of the diagonals -/
theorem latEdge_sym_iff {nx ny : ℕ} (dg dg' : Bool) (x : Sym2 LP) :
    (∃ e, LatEdge nx ny dg e ∧ s(e.1, e.2) = x) → ∃ e, LatEdge nx ny dg' e ∧ s(e.1, e.2) = x := by
  rintro ⟨e, ⟨i, j, ⟨hi, hj, rfl⟩ | ⟨hi, hj, rfl⟩ | ⟨hi, hj, rfl⟩⟩, rfl⟩
  · exact ⟨_, ⟨i, j, .inl ⟨hi, hj, rfl⟩⟩, rfl⟩
  · exact ⟨_, ⟨i, j, .inr (.inl ⟨hi, hj, rfl⟩)⟩, rfl⟩
  · refine ⟨_, ⟨i, j, .inr (.inr ⟨hi, hj, rfl⟩)⟩, ?_⟩
    cases dg <;> cases dg' <;> simp [Sym2.eq_swap]

section
variable {g g' : Grid ℝ} {nx ny : ℕ} {h h' : ℝ} {P P' : List LP} {dg dg' : Bool} {E E' : List (LP × LP)}
  {T T' : List (LP × LP × LP)} {BV BV' : List LP} {BE BE' : List (LP × LP)} {DV DV' : List LP} {DE DE' : List (LP × LP)}
  {NV NV' : List LP} {NE NE' : List (LP × LP)}

theorem edges_perm (L : Lattice g nx ny h P dg E T BV BE) (L' : Lattice g' nx ny h' P' dg' E' T' BV' BE') :
    (E'.map fun e => s(e.1, e.2)).Perm (E.map fun e => s(e.1, e.2)) := by
  refine (List.perm_ext_iff_of_nodup ?_ ?_).2 ?_
  · exact L'.nodupE.map_on fun a ha b hb hab => sym2_latEdge_inj ((L'.memE _).1 ha) ((L'.memE _).1 hb) hab
  · exact L.nodupE.map_on fun a ha b hb hab => sym2_latEdge_inj ((L.memE _).1 ha) ((L.memE _).1 hb) hab
  · intro x
    simp only [List.mem_map, L.memE, L'.memE]
    exact ⟨latEdge_sym_iff _ _ x, latEdge_sym_iff _ _ x⟩

/-- the renumbering that preserves coordinates -/
def relabel (P P' : List LP) (v : Vertex) : Vertex := lab P (co P' v)

theorem relabel_lab {a : LP} (ha : a ∈ P') : relabel P P' (lab P' a) = lab P a := by rw [relabel, co_lab ha]

theorem map_relabel {V : List LP} (hV : ∀ a ∈ V, a ∈ P') : (V.map (lab P')).map (relabel P P') = V.map (lab P) := by
  rw [List.map_map]
  exact List.map_congr_left fun a ha => relabel_lab (hV a ha)

theorem map_rename {X : List (LP × LP)} (hX : ∀ e ∈ X, e.1 ∈ P' ∧ e.2 ∈ P') :
    (X.map (labE P')).map (Edge.rename (relabel P P')) = (X.map fun e => s(e.1, e.2)).map (Sym2.map (lab P)) := by
  rw [List.map_map, List.map_map]
  refine List.map_congr_left fun e he => ?_
  simp only [Function.comp, Edge.rename, labE, relabel_lab (hX e he).1, relabel_lab (hX e he).2, Sym2.map_mk]

theorem map_undirected (X : List (LP × LP)) :
    (X.map (labE P)).map Edge.undirected = (X.map fun e => s(e.1, e.2)).map (Sym2.map (lab P)) := by
  rw [List.map_map, List.map_map]
  rfl

/-- boundaries with the same lattice description -/
theorem renames_of {b b' : Boundary} {V V' : List LP} {X X' : List (LP × LP)} (p : Part P b V X) (p' : Part P' b' V' X')
    (hV : V'.Perm V) (hX : X'.Perm X) : Boundary.Renames (relabel P P') b b' := by
  constructor
  · rw [p.vertices, p'.vertices, map_relabel p'.memV]
    exact hV.map _
  · rw [p.edges, p'.edges, map_rename p'.memX, map_undirected]
    exact (hX.map _).map _

theorem boundary_part (L : Lattice g nx ny h P dg E T BV BE) : Part P g.boundary BV BE :=
  ⟨L.bvertices, L.bedges, fun a ha => (L.memP a).2 ((L.memBV a).1 ha).1, fun e he => L.memE_P (L.memBE_E he)⟩

theorem neumann_edges_iff (A : LGrid g nx ny h P dg E T BV BE DV DE NV NE) (e : LP × LP) :
    e ∈ NE ↔ e ∈ BE ∧ e ∉ DE :=
  ⟨fun he => ⟨A.NEsub e he, fun hd => A.disj e hd he⟩, fun ⟨h1, h2⟩ => ((A.cover e).1 h1).resolve_left h2⟩

/-- all the parts of `SameMesh` that do not concern the Neumann vertices -/
theorem sameMesh_of_close (A : LGrid g nx ny h P dg E T BV BE DV DE NV NE)
    (B : LGrid g' nx ny h' P' dg' E' T' BV' BE' DV' DE' NV' NE') (hDE : ∀ e, e ∈ DE ↔ e ∈ DE')
    (htol : ∀ a ∈ P, dist2 (pos h' a) (pos h a) < g.pointTol)
    {b : Boundary} (hb : Boundary.Renames (relabel P P') b g'.neumann) :
    SameMesh { g with neumann := b } g' (relabel P P') := by
  have L := A.lat
  have L' := B.lat
  have hPP : ∀ a, a ∈ P ↔ a ∈ P' := fun a => by rw [L.memP, L'.memP]
  have hlen : P'.length = P.length := ((List.perm_ext_iff_of_nodup L'.nodupP L.nodupP).2 fun a => (hPP a).symm).length_eq
  have hBE : BE'.Perm BE := (List.perm_ext_iff_of_nodup L'.nodupBE L.nodupBE).2 fun e => by rw [L.memBE, L'.memBE]
  have hBV : BV'.Perm BV := (List.perm_ext_iff_of_nodup L'.nodupBV L.nodupBV).2 fun e => by rw [L.memBV, L'.memBV]
  have hT : T'.Perm T := (List.perm_ext_iff_of_nodup L'.nodupT L.nodupT).2 fun e => by rw [L.memT, L'.memT]
  have hDE' : DE'.Perm DE := (List.perm_ext_iff_of_nodup B.nodupDE A.nodupDE).2 fun e => (hDE e).symm
  have hDV' : DV'.Perm DV := (List.perm_ext_iff_of_nodup B.nodupDV A.nodupDV).2 fun e => by
    rw [A.memDV, B.memDV]; simp only [hDE]
  have hB1 : Boundary.Renames (relabel P P') g.boundary g'.boundary :=
    renames_of (boundary_part L) (boundary_part L') hBV hBE
  have hB2 : Boundary.Renames (relabel P P') g.dirichlet g'.dirichlet := renames_of A.pd B.pd hDV' hDE'
  refine ⟨?_, ⟨?_, ?_, ?_⟩, ?_, ?_, ?_, hB1, hB2, hb⟩
  · rw [L'.points, L.points]; simp [hlen]
  · intro v hv
    simp only [Set.mem_setOf_eq, L.points, L'.points, List.length_map] at hv ⊢
    exact lab_lt ((hPP _).2 (co_mem hv))
  · intro v hv w hw hvw
    simp only [Set.mem_setOf_eq, L'.points, List.length_map] at hv hw
    have := lab_inj ((hPP _).2 (co_mem hv)) hvw
    rw [← lab_co L'.nodupP hv, this, lab_co L'.nodupP hw]
  · intro v hv
    simp only [Set.mem_setOf_eq, L.points, List.length_map] at hv
    have hm := co_mem hv
    refine ⟨lab P' (co P v), ?_, ?_⟩
    · simp only [Set.mem_setOf_eq, L'.points, List.length_map]; exact lab_lt ((hPP _).1 hm)
    · rw [relabel_lab ((hPP _).1 hm), lab_co L.nodupP hv]
  · intro v q q' h1 h2
    obtain ⟨a, ha, rfl, rfl⟩ := L'.at_iff.1 h1
    rw [relabel_lab ha] at h2
    have h2' : g.At (lab P a) q := h2
    rw [at_unique h2' (L.at_lab ((hPP a).2 ha))]
    exact htol a ((hPP a).2 ha)
  · rw [L'.edges, map_rename fun e he => L'.memE_P he]
    show List.Perm _ (g.edges.map _)
    rw [L.edges, map_undirected]
    exact (edges_perm L L').map _
  · show List.Perm _ (g.triangles.map _)
    rw [L'.triangles, L.triangles, List.map_map, List.map_map]
    have : T'.map (Tri.rename (relabel P P') ∘ labT P') = T'.map (Tri.cycle ∘ labT P) := by
      refine List.map_congr_left fun t ht => ?_
      have := L'.memT_P ht
      simp only [Function.comp, Tri.rename, labT, relabel_lab this.1, relabel_lab this.2.1, relabel_lab this.2.2]
    rw [this]
    exact hT.map _

theorem sameMesh_of (A : LGrid g nx ny h P dg E T BV BE DV DE NV NE)
    (B : LGrid g' nx ny h P' dg' E' T' BV' BE' DV' DE' NV' NE') (hDE : ∀ e, e ∈ DE ↔ e ∈ DE') (htol : 0 < g.pointTol)
    {b : Boundary} (hb : Boundary.Renames (relabel P P') b g'.neumann) :
    SameMesh { g with neumann := b } g' (relabel P P') :=
  sameMesh_of_close A B hDE (fun a _ => by
    have h0 : dist2 (pos h a) (pos h a) = 0 := by simp [dist2]
    rw [h0]; exact htol) hb

/-- Two lattice grids over the same box with the same Dirichlet part are the same mesh iff the Neumann vertices agree. -/
theorem sameMesh_iff (A : LGrid g nx ny h P dg E T BV BE DV DE NV NE)
    (B : LGrid g' nx ny h P' dg' E' T' BV' BE' DV' DE' NV' NE') (hDE : ∀ e, e ∈ DE ↔ e ∈ DE') (htol : 0 < g.pointTol)
    (htol' : g.pointTol ≤ h) :
    (∃ σ, SameMesh g g' σ) ↔ ∀ a, a ∈ NV ↔ a ∈ NV' := by
  have L := A.lat
  have L' := B.lat
  have hPP : ∀ a, a ∈ P ↔ a ∈ P' := fun a => by rw [L.memP, L'.memP]
  constructor
  · rintro ⟨σ, S⟩ a
    have key : ∀ a ∈ P', σ (lab P' a) = lab P a := by
      intro a ha
      have hlt : lab P' a < g'.points.length := by rw [L'.points, List.length_map]; exact lab_lt ha
      have h1 := S.bij.mapsTo hlt
      simp only [Set.mem_setOf_eq, L.points, List.length_map] at h1
      have h2 := L.at_lab (co_mem h1)
      rw [lab_co L.nodupP h1] at h2
      have h3 := (S.close _ _ _ (L'.at_lab ha) h2).trans_le htol'
      have h4 : a = co P (σ (lab P' a)) := by
        by_contra hne
        have := dist2_pos_ge L.h_pos hne
        linarith
      rw [h4, lab_co L.nodupP h1, ← h4]
    have hp := S.neumann.1
    rw [A.pn.vertices, B.pn.vertices, List.map_map] at hp
    have h5 : NV'.map (σ ∘ lab P') = NV'.map (lab P) := List.map_congr_left fun a ha => key a (B.pn.memV a ha)
    rw [h5] at hp
    constructor
    · intro ha
      have : lab P a ∈ NV'.map (lab P) := hp.mem_iff.2 (List.mem_map_of_mem ha)
      obtain ⟨b, hb, h6⟩ := List.mem_map.1 this
      rw [← lab_inj ((hPP _).2 (B.pn.memV b hb)) h6]; exact hb
    · intro ha
      have : lab P a ∈ NV.map (lab P) := hp.mem_iff.1 (List.mem_map_of_mem ha)
      obtain ⟨b, hb, h6⟩ := List.mem_map.1 this
      rw [← lab_inj (A.pn.memV b hb) h6]; exact hb
  · intro hNV
    refine ⟨relabel P P', sameMesh_of A B hDE htol (b := g.neumann) ?_⟩
    refine renames_of A.pn B.pn ((List.perm_ext_iff_of_nodup B.nodupNV A.nodupNV).2 fun a => (hNV a).symm)
      ((List.perm_ext_iff_of_nodup B.nodupNE A.nodupNE).2 fun e => ?_)
    rw [neumann_edges_iff A, neumann_edges_iff B, L.memBE, L'.memBE, hDE]

end
end Tve
