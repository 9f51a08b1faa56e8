import Verif.Lemmas.GridEq
import Verif.Props.GridQuery

/-!
# Property C20: grid equality ignores numbering
-/

namespace Tve

/-- For well-formed grids whose vertices are further apart than twice the tolerance (and whose right-hand operand lists
no edge or triangle twice), `g == g'` does not raise and is `True` exactly when `g'` is `g` after renumbering the
vertices, up to the order of edges, triangles and boundary entries, the orientation of edges and the rotation of
triangles. -/
theorem C20_equal_iff_same_mesh {g g' : Grid ℝ} (W : g.WellFormed) (W' : g'.WellFormed) (hm : g.MeanExact)
    (hS : g'.Simple) (hsep : g.Separated (2 * g.pointTol)) (hsep' : g'.Separated (2 * g.pointTol)) :
    ∃ b, g.eq g' = .ok b ∧ (b = true ↔ ∃ σ, SameMesh g g' σ) :=
  eq_spec W W' hm hS hsep hsep'

theorem nodup_undirected_sub {g : Grid ℝ} (hn : (g.edges.map Edge.undirected).Nodup) {es : List Edge}
    (hs : ∀ e ∈ es, e ∈ g.edges) (hd : es.Nodup) : (es.map Edge.undirected).Nodup :=
  hd.map_on fun a ha b hb h => List.inj_on_of_nodup_map hn (hs a ha) (hs b hb) h

theorem vertexSet_of_cycle {t t' : Tri} (h : Tri.cycle t = Tri.cycle t') : t.vertexSet = t'.vertexSet := by
  rcases cycle_eq_iff.1 h with rfl | rfl | rfl
  · rfl
  · simp only [Tri.vertexSet]; ext x; simp only [Finset.mem_insert, Finset.mem_singleton]; tauto
  · simp only [Tri.vertexSet]; ext x; simp only [Finset.mem_insert, Finset.mem_singleton]; tauto

/-- grids of the library list nothing twice -/
theorem LibraryGrid.simple {g : Grid ℝ} {nx ny : ℕ} {s : ℝ} (G : LibraryGrid g nx ny s) : g.Simple := by
  obtain ⟨P, dg, E, T, BV, BE, DV, DE, NV, NE, H⟩ := G.lgrid
  have L := H.lat
  have W := H.wellFormed
  have hn := L.nodup_undirected
  have hmap : ∀ X : List (LP × LP), X.Nodup → (∀ e ∈ X, e ∈ BE) → (X.map (labE P)).Nodup := fun X hX hs =>
    hX.map_on fun a ha b hb h => labE_inj (L.memE_P (L.memBE_E (hs a ha))) h
  refine ⟨hn, ?_, ?_, ?_, ?_⟩
  · have h1 := L.nodup_vertexSet
    rw [List.Nodup, List.pairwise_map] at h1 ⊢
    exact h1.imp fun {a b} hne h => hne (vertexSet_of_cycle h)
  · exact nodup_undirected_sub hn W.boundary.2 L.nodup_bedges
  · exact nodup_undirected_sub hn W.dirichlet.2 (by rw [H.pd.edges]; exact hmap _ H.nodupDE H.DEsub)
  · exact nodup_undirected_sub hn W.neumann.2 (by rw [H.pn.edges]; exact hmap _ H.nodupNE H.NEsub)

/-- different vertices of a library grid are at least one mesh size apart, far more than the tolerance -/
theorem LibraryGrid.separated {g : Grid ℝ} {nx ny : ℕ} {s : ℝ} (G : LibraryGrid g nx ny s) :
    g.Separated s ∧ 2 * g.pointTol ≤ s / 10 ^ 6 := by
  obtain ⟨P, dg, E, T, BV, BE, L⟩ := G.lattice
  obtain ⟨h1, h2, h3⟩ := C17_unique G
  have h4 := L.meanLength_bounds
  have hs := L.h_pos
  refine ⟨h3, ?_⟩
  rw [L.pointTol_eq, ← mul_div_assoc, div_le_div_iff₀ (by norm_num) (by norm_num)]
  nlinarith

/-- Any two grids of the library whose mesh sizes do not differ by a factor of a million satisfy the hypotheses, so
`==` decides whether they are the same mesh. -/
theorem C20_library {g g' : Grid ℝ} {nx ny nx' ny' : ℕ} {s s' : ℝ} (G : LibraryGrid g nx ny s)
    (G' : LibraryGrid g' nx' ny' s') (hs : s / 10 ^ 6 ≤ s') :
    ∃ b, g.eq g' = .ok b ∧ (b = true ↔ ∃ σ, SameMesh g g' σ) := by
  obtain ⟨P, dg, E, T, BV, BE, L⟩ := G.lattice
  have h1 := G.separated
  have h2 := G'.separated
  have hpos := L.h_pos
  refine C20_equal_iff_same_mesh G.wellFormed G'.wellFormed L.meanExact G'.simple ?_ ?_
  · intro v v' q q' a b c
    have := h1.1 v v' q q' a b c
    have : s / 10 ^ 6 ≤ s := by rw [div_le_iff₀ (by norm_num)]; nlinarith
    linarith [h1.2]
  · intro v v' q q' a b c
    have := h2.1 v v' q q' a b c
    linarith [h1.2]

/-- every mesh is the same mesh as itself -/
theorem SameMesh.refl {g : Grid ℝ} (hpos : 0 < g.pointTol) : SameMesh g g id := by
  have hE : ∀ es : List Edge, es.map (Edge.rename id) = es.map Edge.undirected := fun es => rfl
  have hT : ∀ es : List Tri, es.map (Tri.rename id) = es.map Tri.cycle := fun es => rfl
  refine ⟨rfl, Set.bijOn_id _, ?_, by rw [hE], by rw [hT], ⟨by simp, by rw [hE]⟩, ⟨by simp, by rw [hE]⟩,
    ⟨by simp, by rw [hE]⟩⟩
  intro v q q' h1 h2
  rw [at_unique h1 h2]
  simpa [dist2] using hpos

/-- `==` is reflexive on grids of the library. -/
theorem C20_reflexive {g : Grid ℝ} {nx ny : ℕ} {s : ℝ} (G : LibraryGrid g nx ny s) : g.eq g = .ok true := by
  obtain ⟨P, dg, E, T, BV, BE, L⟩ := G.lattice
  have hpos := L.h_pos
  obtain ⟨b, h1, h2⟩ := C20_library G G (by rw [div_le_iff₀ (by norm_num)]; nlinarith)
  have : b = true := h2.2 ⟨id, SameMesh.refl (by rw [L.pointTol_eq]; exact (C17_unique G).1)⟩
  rw [h1, this]

/-- grids of different size never compare equal -/
theorem C20_size {g g' : Grid ℝ} {nx ny nx' ny' : ℕ} {s s' : ℝ} (G : LibraryGrid g nx ny s)
    (G' : LibraryGrid g' nx' ny' s') (hs : s / 10 ^ 6 ≤ s') (h : g.points.length ≠ g'.points.length) :
    g.eq g' = .ok false := by
  obtain ⟨b, h1, h2⟩ := C20_library G G' hs
  cases b
  · exact h1
  · obtain ⟨σ, hσ⟩ := h2.1 rfl
    exact absurd hσ.size.symm h

/-! ### a concrete non-trivial case -/

/-- the unit square, listed twice with different numbering, orientation and rotation -/
noncomputable def squareA : Grid ℝ :=
  ⟨[0, 1, 2, 3], [(0, 1), (1, 2), (2, 3), (3, 0), (0, 2)], [(0, 1, 2), (0, 2, 3)],
    ⟨[0, 1, 2, 3], [(0, 1), (1, 2), (2, 3), (3, 0)]⟩, ⟨[0, 1], [(0, 1)]⟩, ⟨[2, 3], [(1, 2), (2, 3), (3, 0)]⟩,
    [vec2 (0, 0), vec2 (1, 0), vec2 (1, 1), vec2 (0, 1)], some ((4 + Real.sqrt 2) / 5)⟩

/-- see `squareA`: vertex `0 ↦ 2`, `1 ↦ 0`, `2 ↦ 3`, `3 ↦ 1` -/
noncomputable def squareB : Grid ℝ :=
  ⟨[0, 1, 2, 3], [(1, 3), (3, 0), (0, 2), (1, 2), (1, 0)], [(3, 0, 1), (1, 0, 2)],
    ⟨[3, 1, 2, 0], [(1, 3), (0, 3), (2, 0), (2, 1)]⟩, ⟨[3, 1], [(3, 1)]⟩, ⟨[2, 0], [(0, 3), (2, 0), (1, 2)]⟩,
    [vec2 (1, 1), vec2 (0, 0), vec2 (0, 1), vec2 (1, 0)], some ((4 + Real.sqrt 2) / 5)⟩

/-- `SameMesh` relates the two squares by a renumbering that is not the identity. -/
theorem C20_example : ∃ σ, SameMesh squareA squareB σ := by
  let σ : Vertex → Vertex := fun v => if v = 0 then 2 else if v = 1 then 0 else if v = 2 then 3 else if v = 3 then 1 else v
  have hE : ∀ l l' : List (Sym2 ℕ), decide (l.Perm l') = true → l.Perm l' := fun _ _ h => of_decide_eq_true h
  refine ⟨σ, ⟨rfl, ?_, ?_, ?_, ?_, ⟨?_, ?_⟩, ⟨?_, ?_⟩, ⟨?_, ?_⟩⟩⟩
  · refine ⟨?_, ?_, ?_⟩
    · intro v hv
      simp only [squareA, squareB, List.length_cons, List.length_nil, Set.mem_setOf_eq] at hv ⊢
      interval_cases v <;> decide
    · intro v hv w hw
      simp only [squareB, List.length_cons, List.length_nil, Set.mem_setOf_eq] at hv hw
      interval_cases v <;> interval_cases w <;> decide
    · intro v hv
      simp only [squareA, List.length_cons, List.length_nil, Set.mem_setOf_eq] at hv
      interval_cases v
      exacts [⟨1, by decide, by decide⟩, ⟨3, by decide, by decide⟩, ⟨0, by decide, by decide⟩, ⟨2, by decide, by decide⟩]
  · intro v q q' h1 h2
    have hv : v < 4 := at_lt h1
    have key : q' = q := by
      interval_cases v <;>
        simp [σ, Grid.At, squareA, squareB, vec2, Prod.ext_iff] at h1 h2 ⊢ <;>
        exact ⟨h1.1.symm.trans h2.1, h1.2.symm.trans h2.2⟩
    rw [key]
    have : 0 < squareA.pointTol := by
      rw [Grid.pointTol, if_neg (by simp [squareA]), Grid.meanLength]
      have h0 : ∀ e, 0 ≤ edgeLen squareA.xy e := fun e => Real.sqrt_nonneg _
      have h1 : edgeLen squareA.xy (0, 1) = 1 := by simp [edgeLen, squareA, Grid.xy, vec2]
      simp only [show squareA.edges = [(0, 1), (1, 2), (2, 3), (3, 0), (0, 2)] from rfl, List.map_cons, List.map_nil,
        List.sum_cons, List.sum_nil, h1]
      have := h0 (1, 2); have := h0 (2, 3); have := h0 (3, 0); have := h0 (0, 2)
      apply div_pos (div_pos (by linarith) (by norm_num)) (by norm_num)
    simpa [dist2] using this
  all_goals (simp only [squareA, squareB]; decide +kernel)

end Tve
