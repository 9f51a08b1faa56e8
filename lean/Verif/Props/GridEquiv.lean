import Verif.Props.RefineEq

/-!
# Property C20, continued: on grids of one mesh size `==` is an equivalence relation
-/

namespace Tve

/-- `σ` maps every vertex of `g'` to the vertex of `g` at exactly the same point -/
def SamePoints (g g' : Grid ℝ) (σ : Vertex → Vertex) : Prop := ∀ v q, g'.At v q → g.At (σ v) q

theorem rename_comp (σ τ : Vertex → Vertex) (e : Edge) : Edge.rename (τ ∘ σ) e = Sym2.map τ (Edge.rename σ e) := rfl

theorem rename_comp_tri (σ τ : Vertex → Vertex) (t : Tri) : Tri.rename (τ ∘ σ) t = Cycle.map τ (Tri.rename σ t) := rfl

theorem undirected_map (τ : Vertex → Vertex) (e : Edge) : Sym2.map τ e.undirected = Edge.rename τ e := rfl

theorem Boundary.Renames.comp {b b' b'' : Boundary} {σ τ : Vertex → Vertex} (h : Boundary.Renames τ b b')
    (h' : Boundary.Renames σ b' b'') : Boundary.Renames (τ ∘ σ) b b'' := by
  refine ⟨?_, ?_⟩
  · have := h'.1.map τ
    rw [List.map_map] at this
    exact this.trans h.1
  · have := h'.2.map (Sym2.map τ)
    rw [List.map_map, List.map_map] at this
    exact this.trans h.2

theorem SameMesh.comp {g g' g'' : Grid ℝ} {σ τ : Vertex → Vertex} (h : SameMesh g g' τ) (h' : SameMesh g' g'' σ)
    (e : SamePoints g g' τ) (e' : SamePoints g' g'' σ) (hpos : 0 < g.pointTol) :
    SameMesh g g'' (τ ∘ σ) ∧ SamePoints g g'' (τ ∘ σ) := by
  have E : SamePoints g g'' (τ ∘ σ) := fun v q hq => e _ _ (e' _ _ hq)
  refine ⟨⟨h'.size.trans h.size, h.bij.comp h'.bij, ?_, ?_, ?_, h.boundary.comp h'.boundary,
    h.dirichlet.comp h'.dirichlet, h.neumann.comp h'.neumann⟩, E⟩
  · intro v q q' h1 h2
    rw [at_unique h2 (E v q' h1)]
    simpa [dist2] using hpos
  · have := h'.edges.map (Sym2.map τ)
    rw [List.map_map, List.map_map] at this
    exact this.trans h.edges
  · have := h'.triangles.map (Cycle.map τ)
    rw [List.map_map, List.map_map] at this
    exact this.trans h.triangles

theorem Boundary.Renames.symm {b b' : Boundary} {σ τ : Vertex → Vertex} {N : ℕ} (h : Boundary.Renames σ b b')
    (hτ : ∀ v < N, τ (σ v) = v) (hv : ∀ v ∈ b'.vertices, v < N) (he : ∀ e ∈ b'.edges, e.1 < N ∧ e.2 < N) :
    Boundary.Renames τ b' b := by
  refine ⟨?_, ?_⟩
  · have := h.1.map τ
    rw [List.map_map, List.map_congr_left (f := τ ∘ σ) (g := id) fun v h => hτ v (hv v h), List.map_id] at this
    exact this.symm
  · have := h.2.map (Sym2.map τ)
    rw [List.map_map, List.map_map, List.map_congr_left (g := Edge.undirected) fun e h => by
      obtain ⟨h1, h2⟩ := he e h
      show s(τ (σ e.1), τ (σ e.2)) = s(e.1, e.2)
      rw [hτ _ h1, hτ _ h2]] at this
    exact this.symm

theorem WF.bounds {g : Grid ℝ} (W : g.WellFormed) : (∀ v ∈ g.vertices, v < g.points.length) ∧
    (∀ e ∈ g.edges, e.1 < g.points.length ∧ e.2 < g.points.length) ∧
    ∀ t ∈ g.triangles, t.1 < g.points.length ∧ t.2.1 < g.points.length ∧ t.2.2 < g.points.length := by
  have h1 : ∀ v ∈ g.vertices, v < g.points.length := fun v hv => by rw [W.vertices] at hv; exact List.mem_range.1 hv
  exact ⟨h1, fun e he => ⟨h1 _ (W.edges e he).1, h1 _ (W.edges e he).2⟩,
    fun t ht => ⟨h1 _ (W.triangles t ht).1, h1 _ (W.triangles t ht).2.1, h1 _ (W.triangles t ht).2.2⟩⟩

theorem SameMesh.symm {g g' : Grid ℝ} {σ : Vertex → Vertex} (h : SameMesh g g' σ) (e : SamePoints g g' σ)
    (W : g.WellFormed) (W' : g'.WellFormed) (hpos : 0 < g'.pointTol) :
    ∃ τ, SameMesh g' g τ ∧ SamePoints g' g τ := by
  obtain ⟨b1, b2, b3⟩ := WF.bounds W'
  have hR := W'.planar
  let τ := Function.invFunOn σ {v | v < g'.points.length}
  have hinv : Set.InvOn τ σ {v | v < g'.points.length} {v | v < g.points.length} := h.bij.invOn_invFunOn
  have hτ : ∀ v < g'.points.length, τ (σ v) = v := fun v hv => hinv.1 hv
  have hbij : Set.BijOn τ {v | v < g.points.length} {v | v < g'.points.length} := Set.BijOn.symm hinv.symm h.bij
  have E : SamePoints g' g τ := by
    intro v q hq
    have hv : v < g.points.length := at_lt hq
    obtain ⟨q', hq'⟩ := hR (τ v) (hbij.mapsTo hv)
    have := e _ _ hq'
    rw [hinv.2 hv] at this
    rw [at_unique hq this]; exact hq'
  refine ⟨τ, ⟨h.size.symm, hbij, ?_, ?_, ?_, h.boundary.symm hτ (fun v hv => b1 v (W'.boundary.1 v hv))
    (fun x hx => b2 x (W'.boundary.2 x hx)), h.dirichlet.symm hτ (fun v hv => b1 v (W'.dirichlet.1 v hv))
    (fun x hx => b2 x (W'.dirichlet.2 x hx)), h.neumann.symm hτ (fun v hv => b1 v (W'.neumann.1 v hv))
    (fun x hx => b2 x (W'.neumann.2 x hx))⟩, E⟩
  · intro v q q' h1 h2
    rw [at_unique h2 (E v q' h1)]
    simpa [dist2] using hpos
  · have := h.edges.map (Sym2.map τ)
    rw [List.map_map, List.map_map, List.map_congr_left (g := Edge.undirected) fun x hx => by
      obtain ⟨h1, h2⟩ := b2 x hx
      show s(τ (σ x.1), τ (σ x.2)) = s(x.1, x.2)
      rw [hτ _ h1, hτ _ h2]] at this
    exact this.symm
  · have := h.triangles.map (Cycle.map τ)
    rw [List.map_map, List.map_map, List.map_congr_left (g := Tri.cycle) fun x hx => by
      obtain ⟨h1, h2, h3⟩ := b3 x hx
      show Tri.cycle (τ (σ x.1), τ (σ x.2.1), τ (σ x.2.2)) = Tri.cycle x
      rw [hτ _ h1, hτ _ h2, hτ _ h3]] at this
    exact this.symm

section
variable {g g' g'' : Grid ℝ} {nx ny nx' ny' nx'' ny'' : ℕ} {s : ℝ}

theorem LibraryGrid.pointTol_pos (G : LibraryGrid g nx ny s) : 0 < g.pointTol := by
  obtain ⟨P, dg, E, T, BV, BE, L⟩ := G.lattice
  rw [L.pointTol_eq]; exact (C17_unique G).1

/-- grids of one mesh size: if they are the same mesh then corresponding vertices lie at exactly the same points -/
theorem SameMesh.samePoints (G : LibraryGrid g nx ny s) (G' : LibraryGrid g' nx' ny' s) {σ : Vertex → Vertex}
    (h : SameMesh g g' σ) : SamePoints g g' σ := by
  intro v q' hq'
  obtain ⟨hs, -, -, -, -, hp, -⟩ := C22_structure G
  obtain ⟨-, -, -, -, -, hp', -⟩ := C22_structure G'
  obtain ⟨q, hq⟩ := G.wellFormed.planar _ (h.bij.mapsTo (at_lt hq'))
  have hc := h.close _ _ _ hq' hq
  have htol := G.separated.2
  obtain ⟨i, j, -, -, rfl⟩ := (hp _).1 ⟨_, hq⟩
  obtain ⟨i', j', -, -, rfl⟩ := (hp' _).1 ⟨_, hq'⟩
  have hne : ((i', j') : LP) = (i, j) := by
    by_contra hne
    have := dist2_pos_ge hs hne
    simp only [pos] at this
    have : s / 10 ^ 6 ≤ s := div_le_self hs.le (by norm_num)
    linarith [G.pointTol_pos]
  simp only [Prod.mk.injEq] at hne
  rw [hne.1, hne.2]
  exact hq

/-- For two grids of the library with the same mesh size, `g == g'` is `True` exactly if the grids agree up to
renumbering with *exactly* equal coordinates: the tolerance identifies nothing. -/
theorem C20_exact (G : LibraryGrid g nx ny s) (G' : LibraryGrid g' nx' ny' s) :
    ∃ b, g.eq g' = .ok b ∧ (b = true ↔ ∃ σ, SameMesh g g' σ ∧ ∀ v q, g'.At v q → g.At (σ v) q) := by
  obtain ⟨b, h1, h2⟩ := C20_library G G' (div_le_self (C22_structure G).1.le (by norm_num))
  refine ⟨b, h1, h2.trans ⟨?_, ?_⟩⟩
  · rintro ⟨σ, h⟩; exact ⟨σ, h, h.samePoints G G'⟩
  · rintro ⟨σ, h, -⟩; exact ⟨σ, h⟩

/-- `==` is symmetric on grids of one mesh size. -/
theorem C20_symmetric (G : LibraryGrid g nx ny s) (G' : LibraryGrid g' nx' ny' s) : g.eq g' = g'.eq g := by
  obtain ⟨b, h1, h2⟩ := C20_exact G G'
  obtain ⟨b', h1', h2'⟩ := C20_exact G' G
  have : b = true ↔ b' = true := by
    rw [h2, h2']
    constructor
    · rintro ⟨σ, h, e⟩; exact h.symm e G.wellFormed G'.wellFormed G'.pointTol_pos
    · rintro ⟨σ, h, e⟩; exact h.symm e G'.wellFormed G.wellFormed G.pointTol_pos
  rw [h1, h1']
  rw [Bool.eq_iff_iff.2 this]

/-- `==` is transitive on grids of one mesh size. -/
theorem C20_transitive (G : LibraryGrid g nx ny s) (G' : LibraryGrid g' nx' ny' s) (G'' : LibraryGrid g'' nx'' ny'' s)
    (h : g.eq g' = .ok true) (h' : g'.eq g'' = .ok true) : g.eq g'' = .ok true := by
  obtain ⟨b, h1, h2⟩ := C20_exact G G'
  obtain ⟨b', h1', h2'⟩ := C20_exact G' G''
  obtain ⟨b'', h1'', h2''⟩ := C20_exact G G''
  rw [h] at h1; cases h1
  rw [h'] at h1'; cases h1'
  obtain ⟨σ, hσ, e⟩ := h2.1 rfl
  obtain ⟨τ, hτ, e'⟩ := h2'.1 rfl
  have : b'' = true := h2''.2 ⟨_, hσ.comp hτ e e' G.pointTol_pos⟩
  rw [h1'', this]

end

/-! ### different mesh sizes: the tolerance is neither symmetric nor transitive -/

/-- the square of side `h`, with no side fixed -/
def squareDomain (h : ℝ) : RectDomain ℝ := ⟨h, h, .none⟩

/-- the distance below which the grid of one square of side `h` identifies points -/
noncomputable def squareTol (h : ℝ) : ℝ := h * ((4 + Real.sqrt 2) / 5) / 10 ^ 7

theorem cells_self {h : ℝ} (hh : 0 < h) : cells h h = 1 := by simp [cells, div_self hh.ne']

theorem square_pointTol {it : SetIter} {h : ℝ} {g : Grid ℝ} (hh : 0 < h) (hg : (squareDomain h).grid it h = .ok g) :
    g.pointTol = squareTol h := by
  obtain ⟨ts, S⟩ := rectSpec_unique (d := squareDomain h) hh.le hh.le hh hg
  simp only [squareDomain, cells_self hh] at S
  have L := rect_lattice S le_rfl le_rfl hh
  rw [L.pointTol_eq, L.meanLength_eq, squareTol]
  congr 1
  have hE : E0 1 1 = [((0, 0), (1, 0)), ((0, 1), (1, 1)), ((0, 0), (0, 1)), ((1, 0), (1, 1)), ((0, 0), (1, 1))] := by
    decide
  have h1 : Real.sqrt (h ^ 2) = h := Real.sqrt_sq hh.le
  have h2 : Real.sqrt (h ^ 2 + h ^ 2) = h * Real.sqrt 2 := by
    rw [show h ^ 2 + h ^ 2 = h ^ 2 * 2 by ring, Real.sqrt_mul (sq_nonneg h), h1]
  rw [hE]
  simp only [lenL, List.map_cons, List.map_nil, List.sum_cons, List.sum_nil, List.length_cons, List.length_nil]
  norm_num [h1, h2]
  ring

/-- comparing two grids of one square each: `True` exactly if the far corners are closer than the tolerance of the left
operand -/
theorem square_eq {it it' : SetIter} {h h' : ℝ} {g g' : Grid ℝ} (hh : 0 < h) (hle : |h' - h| ≤ h / 4)
    (hg : (squareDomain h).grid it h = .ok g) (hg' : (squareDomain h').grid it' h' = .ok g') :
    ∃ b, g.eq g' = .ok b ∧ (b = true ↔ |h' - h| * Real.sqrt 2 < squareTol h) := by
  have hab := abs_le.1 hle
  have hh' : 0 < h' := by linarith
  have G := LibraryGrid.grid hh le_rfl le_rfl hg
  have G' := LibraryGrid.grid hh' le_rfl le_rfl hg'
  obtain ⟨ts, S⟩ := rectSpec_unique (d := squareDomain h) hh.le hh.le hh hg
  obtain ⟨ts', S'⟩ := rectSpec_unique (d := squareDomain h') hh'.le hh'.le hh' hg'
  simp only [squareDomain, cells_self hh] at S G
  simp only [squareDomain, cells_self hh'] at S' G'
  have ht := square_pointTol hh hg
  have hcorner : ∀ x y : ℝ, |h' - h| ≤ |x| → |h' - h| ≤ |y| → |h' - h| * Real.sqrt 2 ≤ Real.sqrt (x ^ 2 + y ^ 2) := by
    intro x y hx hy
    apply Real.le_sqrt_of_sq_le
    rw [mul_pow, Real.sq_sqrt (by norm_num)]
    have := sq_le_sq' (by linarith [abs_nonneg (h' - h), abs_nonneg x]) hx
    have := sq_le_sq' (by linarith [abs_nonneg (h' - h), abs_nonneg y]) hy
    rw [sq_abs x] at *
    rw [sq_abs y] at *
    linarith
  obtain ⟨b, h1, h2⟩ := C20_library G G' (by
    have : h / 10 ^ 6 ≤ h / 4 := by gcongr; norm_num
    linarith)
  refine ⟨b, h1, h2.trans ⟨?_, ?_⟩⟩
  · rintro ⟨σ, M⟩
    obtain ⟨v, hv⟩ := ((C22_structure G').2.2.2.2.2.1 ((1 : ℕ) * h', (1 : ℕ) * h')).2 ⟨1, 1, le_rfl, le_rfl, rfl⟩
    obtain ⟨q, hq⟩ := G.wellFormed.planar _ (M.bij.mapsTo (at_lt hv))
    have hc := M.close _ _ _ hv hq
    rw [ht] at hc
    refine lt_of_le_of_lt ?_ hc
    obtain ⟨i, j, hi, hj, rfl⟩ := ((C22_structure G).2.2.2.2.2.1 q).1 ⟨_, hq⟩
    have key : ∀ i : ℕ, i ≤ 1 → |h' - h| ≤ |(1 : ℕ) * h' - i * h| := by
      intro i hi
      interval_cases i
      · simp only [Nat.cast_one, one_mul, Nat.cast_zero, zero_mul, sub_zero]
        rw [abs_of_pos hh']; linarith
      · simp
    exact hcorner _ _ (key i hi) (key j hj)
  · intro hlt
    obtain ⟨P, E, T, BV, BE, DV, DE, NV, NE, A, hDE, hNV⟩ := rect_LGrid' S le_rfl le_rfl hh
    obtain ⟨P', E', T', BV', BE', DV', DE', NV', NE', B, hDE', hNV'⟩ := rect_LGrid' S' le_rfl le_rfl hh'
    have hD : ∀ e, e ∈ DE ↔ e ∈ DE' := fun e => by rw [hDE, hDE']
    refine ⟨relabel P P', sameMesh_of_close A B hD ?_ (b := g.neumann) (renames_of A.pn B.pn
      ((List.perm_ext_iff_of_nodup B.nodupNV A.nodupNV).2 fun a => by rw [hNV, hNV'])
      ((List.perm_ext_iff_of_nodup B.nodupNE A.nodupNE).2 fun e => by
        rw [neumann_edges_iff A, neumann_edges_iff B, A.lat.memBE, B.lat.memBE, hD]))⟩
    intro a ha
    rw [ht]
    refine lt_of_le_of_lt ?_ hlt
    obtain ⟨a1, a2⟩ := (A.lat.memP _).1 ha
    obtain ⟨i, j⟩ := a
    simp only at a1 a2
    rw [show |h' - h| * Real.sqrt 2 = Real.sqrt (2 * (h' - h) ^ 2) by
      rw [Real.sqrt_mul (by norm_num), Real.sqrt_sq_eq_abs, mul_comm]]
    simp only [dist2, pos]
    apply Real.sqrt_le_sqrt
    have key : ∀ i : ℕ, i ≤ 1 → ((i : ℝ) * h' - i * h) ^ 2 ≤ (h' - h) ^ 2 := by
      intro i hi
      interval_cases i
      · simpa using sq_nonneg _
      · simp
    have := key i a1
    have := key j a2
    linarith

/-- For grids whose mesh sizes differ slightly `==` is not symmetric: there are two squares that compare equal in one
order and unequal in the other, because the tolerance is taken from the left operand. -/
theorem C20_not_symmetric (it it' : SetIter) : ∃ h h' : ℝ, ∃ g g', 0 < h ∧ 0 < h' ∧
    (squareDomain h).grid it h = .ok g ∧ (squareDomain h').grid it' h' = .ok g' ∧
    g.eq g' = .ok false ∧ g'.eq g = .ok true := by
  have s2 : 0 < Real.sqrt 2 := by positivity
  have s2' : Real.sqrt 2 < 3 / 2 := by rw [Real.sqrt_lt' (by norm_num)]; norm_num
  have s2'' : 1 < Real.sqrt 2 := by rw [Real.lt_sqrt (by norm_num)]; norm_num
  obtain ⟨δ, hδ⟩ : ∃ δ, δ = squareTol 1 / Real.sqrt 2 := ⟨_, rfl⟩
  have ht : 0 < squareTol 1 := by unfold squareTol; positivity
  have hpos : 0 < δ := by rw [hδ]; positivity
  have hmul : δ * Real.sqrt 2 = squareTol 1 := by rw [hδ]; field_simp
  have hsmall : δ ≤ 1 / 8 := by
    rw [hδ, div_le_iff₀ s2]
    have : squareTol 1 ≤ 1 / 10 := by unfold squareTol; norm_num; linarith
    linarith
  have h1δ : (0 : ℝ) < 1 + δ := by linarith
  obtain ⟨g, ts, hg, -⟩ := rect_grid_spec it (squareDomain 1) (s := 1) zero_le_one zero_le_one one_pos
  obtain ⟨g', ts', hg', -⟩ := rect_grid_spec it' (squareDomain (1 + δ)) (s := 1 + δ) h1δ.le h1δ.le h1δ
  refine ⟨1, 1 + δ, g, g', one_pos, h1δ, hg, hg', ?_, ?_⟩
  · obtain ⟨b, e1, e2⟩ := square_eq one_pos (by rw [abs_of_pos (by linarith)]; linarith) hg hg'
    cases b
    · exact e1
    · have := e2.1 rfl
      rw [show 1 + δ - 1 = δ by ring, abs_of_pos hpos, hmul] at this
      exact absurd this (lt_irrefl _)
  · obtain ⟨b, e1, e2⟩ := square_eq h1δ (by rw [abs_of_neg (by linarith)]; linarith) hg' hg
    rw [e1, e2.2]
    rw [show 1 - (1 + δ) = -δ by ring, abs_neg, abs_of_pos hpos, hmul]
    have : squareTol (1 + δ) = (1 + δ) * squareTol 1 := by unfold squareTol; ring
    rw [this]; nlinarith

/-- Nor is it transitive: three squares whose sides grow by `6e-8`. -/
theorem C20_not_transitive (it : SetIter) : ∃ g g' g'', (squareDomain 1).grid it 1 = .ok g ∧
    (squareDomain (1 + 6 / 10 ^ 8)).grid it (1 + 6 / 10 ^ 8) = .ok g' ∧
    (squareDomain (1 + 12 / 10 ^ 8)).grid it (1 + 12 / 10 ^ 8) = .ok g'' ∧
    g.eq g' = .ok true ∧ g'.eq g'' = .ok true ∧ g.eq g'' = .ok false := by
  have s2' : Real.sqrt 2 < 3 / 2 := by rw [Real.sqrt_lt' (by norm_num)]; norm_num
  have s2'' : 14 / 10 < Real.sqrt 2 := by rw [Real.lt_sqrt (by norm_num)]; norm_num
  obtain ⟨g, ts, hg, -⟩ := rect_grid_spec it (squareDomain 1) (s := 1) zero_le_one zero_le_one one_pos
  obtain ⟨g', ts', hg', -⟩ := rect_grid_spec it (squareDomain (1 + 6 / 10 ^ 8)) (s := 1 + 6 / 10 ^ 8)
    (by norm_num [squareDomain]) (by norm_num [squareDomain]) (by norm_num)
  obtain ⟨g'', ts'', hg'', -⟩ := rect_grid_spec it (squareDomain (1 + 12 / 10 ^ 8)) (s := 1 + 12 / 10 ^ 8)
    (by norm_num [squareDomain]) (by norm_num [squareDomain]) (by norm_num)
  refine ⟨g, g', g'', hg, hg', hg'', ?_, ?_, ?_⟩
  · obtain ⟨b, e1, e2⟩ := square_eq one_pos (by norm_num [abs_le]) hg hg'
    rw [e1, e2.2]
    rw [abs_of_pos (by norm_num), squareTol]
    linarith
  · obtain ⟨b, e1, e2⟩ := square_eq (by norm_num) (by norm_num [abs_le]) hg' hg''
    rw [e1, e2.2]
    rw [abs_of_pos (by norm_num), squareTol]
    linarith
  · obtain ⟨b, e1, e2⟩ := square_eq one_pos (by norm_num [abs_le]) hg hg''
    cases b
    · exact e1
    · have := e2.1 rfl
      rw [abs_of_pos (by norm_num), squareTol] at this
      exfalso
      linarith

end Tve
