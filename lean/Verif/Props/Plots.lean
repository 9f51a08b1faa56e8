import Verif.Props.Recorded

/-!
# Plots of grids and domains: C75
-/

namespace Tve

theorem npMax_spec : ∀ (l : List ℝ) (x m : ℝ), l.foldl Max.max x = m → x ≤ m ∧ (∀ y ∈ l, y ≤ m) ∧ (m = x ∨ m ∈ l)
  | [], x, m, h => by simp at h; subst h; simp
  | a :: l, x, m, h => by
    obtain ⟨h1, h2, h3⟩ := npMax_spec l (Max.max x a) m h
    refine ⟨(le_max_left _ _).trans h1, ?_, ?_⟩
    · intro y hy
      rcases List.mem_cons.1 hy with rfl | hy
      · exact (le_max_right _ _).trans h1
      · exact h2 y hy
    · rcases h3 with h3 | h3
      · rcases max_choice x a with h4 | h4
        · left; rw [h3, h4]
        · right; simp [h3, h4]
      · right; simp [h3]

theorem npMax_isGreatest {l : List ℝ} (h : l ≠ []) : ∃ m, NdArray.npMax l = .ok m ∧ IsGreatest {x | x ∈ l} m := by
  cases l with
  | nil => exact absurd rfl h
  | cons x l =>
    obtain ⟨h1, h2, h3⟩ := npMax_spec l x _ rfl
    refine ⟨_, rfl, ?_, ?_⟩
    · rcases h3 with h3 | h3
      · show _ ∈ x :: l
        rw [h3]; simp
      · exact List.mem_cons_of_mem _ h3
    · intro y hy
      rcases List.mem_cons.1 hy with rfl | hy
      · exact h1
      · exact h2 y hy

theorem plotEdges_eq {g : Grid ℝ} (W : g.WellFormed) : ∀ (es : List Edge) (ax : Axes), (∀ e ∈ es, e ∈ g.edges) →
    (pyFor es ax fun ax e => do
      let p ← pyGet g.points e.1
      let q ← pyGet g.points e.2
      let p0 ← p.getItem 0
      let q0 ← q.getItem 0
      let p1 ← p.getItem 1
      let q1 ← q.getItem 1
      Except.ok { ax with segments := ax.segments ++ [((p0, p1), (q0, q1))] }) =
    .ok { ax with segments := ax.segments ++ es.map fun e => (g.xy e.1, g.xy e.2) }
  | [], ax, _ => by simp [pyFor]
  | e :: es, ax, h => by
    obtain ⟨h1, h2⟩ := W.edges e (h e (by simp))
    rw [pyFor, WF.pyGet_point W h1, WF.pyGet_point W h2]
    simp only [bind_ok, getItem0_vec2, getItem1_vec2]
    rw [plotEdges_eq W es _ fun x hx => h x (by simp [hx])]
    simp

/-- **C75** (grids). `grid.plot(ax)` never raises for a grid of the library: it draws the vertices at their positions, in
order, one segment per edge, and only widens the axis limits, so that they contain the grid with a margin of `0.05`. -/
theorem C75_grid_plot_partial {g : Grid ℝ} {nx ny : ℕ} {h : ℝ} (G : LibraryGrid g nx ny h) (ax : Axes) :
    ∃ ax', g.plot (some ax) = .ok ax' ∧
      (∃ pts, ax'.scatter = ax.scatter ++ pts ∧ pts.length = g.vertices.length ∧ ∀ v z, g.At v z → pts[v]? = some z) ∧
      (∃ segs, ax'.segments = ax.segments ++ segs ∧ segs.length = g.edges.length ∧
        ∀ (i : ℕ) (e : Edge) (p q : ℝ × ℝ), g.edges[i]? = some e → g.At e.1 p → g.At e.2 q → segs[i]? = some (p, q)) ∧
      ax'.rectangles = ax.rectangles ∧
      ax'.xlim = (min ax.xlim.1 (-(5 / 100)), max ax.xlim.2 (nx * h + 5 / 100)) ∧
      ax'.ylim = (min ax.ylim.1 (-(5 / 100)), max ax.ylim.2 (ny * h + 5 / 100)) := by
  have W := G.wellFormed
  obtain ⟨h0, hnx, hny, hv, hl, hat, -⟩ := C22_structure G
  have hpts : ∃ P : List (ℝ × ℝ), g.points = P.map vec2 := by
    refine ⟨(List.range g.points.length).map g.xy, ?_⟩
    apply List.ext_getElem
    · simp
    · intro i h1 h2
      obtain ⟨z, hz⟩ := W.planar i h1
      have : g.points[i]? = some (vec2 z) := hz
      simp only [h1, getElem?_pos, Option.some.injEq] at this
      simp [this, xy_of_at hz]
  obtain ⟨P, hP⟩ := hpts
  have hPat : ∀ v z, P[v]? = some z ↔ g.At v z := by
    intro v z
    rw [Grid.At, hP, List.getElem?_map]
    constructor
    · intro h; rw [h]; rfl
    · intro h
      cases hp : P[v]? with
      | none => rw [hp] at h; cases h
      | some q =>
        rw [hp] at h
        simp only [Option.map_some, Option.some.injEq] at h
        have h1 := congrArg Vec.data h
        simp only [vec2, List.cons.injEq, and_true] at h1
        rw [Prod.ext h1.1 h1.2]
  have hPlen : P.length = (nx + 1) * (ny + 1) := by rw [← hl, hP, List.length_map]
  have hne : P ≠ [] := by
    intro e
    rw [e] at hPlen
    simp at hPlen
  have mx : pyMap g.points (fun p => p.getItem 0) = .ok (P.map Prod.fst) := by
    rw [hP, pyMap_map]; exact pyMap_eq_ok _ fun x _ => rfl
  have my : pyMap g.points (fun p => p.getItem 1) = .ok (P.map Prod.snd) := by
    rw [hP, pyMap_map]; exact pyMap_eq_ok _ fun x _ => rfl
  obtain ⟨X, hX, gX⟩ := npMax_isGreatest (l := P.map Prod.fst) (by simpa using hne)
  obtain ⟨Y, hY, gY⟩ := npMax_isGreatest (l := P.map Prod.snd) (by simpa using hne)
  have mem : ∀ z, z ∈ P ↔ ∃ i j : ℕ, i ≤ nx ∧ j ≤ ny ∧ z = (i * h, j * h) := by
    intro z
    rw [← hat z, List.mem_iff_getElem?]
    exact exists_congr fun v => hPat v z
  have eX : X = nx * h := by
    refine gX.unique ⟨List.mem_map.2 ⟨(nx * h, 0), (mem _).2 ⟨nx, 0, le_refl _, Nat.zero_le _, by simp⟩, rfl⟩, ?_⟩
    rintro x hx
    obtain ⟨z, hz, rfl⟩ := List.mem_map.1 hx
    obtain ⟨i, j, hi, hj, rfl⟩ := (mem z).1 hz
    exact mul_le_mul_of_nonneg_right (by exact_mod_cast hi) h0.le
  have eY : Y = ny * h := by
    refine gY.unique ⟨List.mem_map.2 ⟨(0, ny * h), (mem _).2 ⟨0, ny, Nat.zero_le _, le_refl _, by simp⟩, rfl⟩, ?_⟩
    rintro x hx
    obtain ⟨z, hz, rfl⟩ := List.mem_map.1 hx
    obtain ⟨i, j, hi, hj, rfl⟩ := (mem z).1 hz
    exact mul_le_mul_of_nonneg_right (by exact_mod_cast hj) h0.le
  have hzip : (P.map Prod.fst).zip (P.map Prod.snd) = P := by
    rw [List.zip_map']; simp
  simp only [Grid.plot, Grid.plotVertices, Grid.plotEdges, mx, my, hX, hY, bind_ok, pure_eq_ok, hzip]
  rw [plotEdges_eq W g.edges _ fun e he => he]
  refine ⟨_, rfl, ⟨P, rfl, by rw [hPlen, hv, List.length_range], fun v z hz => (hPat v z).2 hz⟩,
    ⟨_, rfl, by simp, fun i e p q he hp hq => ?_⟩, rfl, ?_, ?_⟩
  · rw [List.getElem?_map, he, Option.map_some, xy_of_at hp, xy_of_at hq]
  · rw [eX]; simp only [adjustLim, plotBorder]
  · rw [eY]; simp only [adjustLim, plotBorder]

/-- **C75** fails for `grid.plot(None)`: instead of creating an axis, `TypeError` is raised for every grid. -/
theorem C75_grid_plot_none_false (g : Grid ℝ) : g.plot none = .error .typeError := rfl

/-- **C75** (domains). `domain.plot()` creates an axis whose limits are the rectangle with a margin of `0.05`; `domain.plot(ax)` leaves
the limits of the given axis alone. Exactly the rectangle of the domain is added, with its lower left corner in the origin. -/
theorem C75_domain_plot (d : RectDomain ℝ) (ax : Axes) :
    d.plot none = ⟨(-(5 / 100), d.width + 5 / 100), (-(5 / 100), d.height + 5 / 100), [], [], [((0, 0), d.width, d.height)]⟩ ∧
    d.plot (some ax) = { ax with rectangles := ax.rectangles ++ [((0, 0), d.width, d.height)] } := ⟨rfl, rfl⟩

/-- a concrete grid with six vertices -/
example (it : SetIter) (ax : Axes) : ∃ g ax', exampleDomain.grid it (1 / 2) = .ok g ∧ g.vertices.length = 6 ∧
    g.plot (some ax) = .ok ax' ∧ ax'.scatter.length = ax.scatter.length + 6 := by
  obtain ⟨g, refined, hg, -⟩ := exampleSetup.grids_ok it
  have e : exampleParams.scale = 1 / 2 := rfl
  rw [e] at hg
  have G := LibraryGrid.grid (by norm_num) (by norm_num [exampleDomain]) (by norm_num [exampleDomain]) hg
  have c1 : cells exampleDomain.width (1 / 2) = 1 := by norm_num [cells, exampleDomain]
  have c2 : cells exampleDomain.height (1 / 2) = 2 := by norm_num [cells, exampleDomain]
  rw [c1, c2] at G
  have hv : g.vertices.length = 6 := by rw [(C22_structure G).2.2.2.1, List.length_range]
  obtain ⟨ax', h1, ⟨pts, h2, h3, -⟩, -⟩ := C75_grid_plot_partial G ax
  exact ⟨g, ax', hg, hv, h1, by rw [h2, List.length_append, h3, hv]⟩

end Tve
