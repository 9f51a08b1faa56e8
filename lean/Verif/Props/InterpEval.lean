import Verif.Props.InterpC1

/-!
# C43, C44: interpolations on refined grids and at Euclidean points
-/

namespace Tve
open Bell

/-! ### C43 -/

section
variable {g : Grid ℝ} {nx ny : ℕ} {s : ℝ}

/-- In every triangle of the refined grid value, gradient and Hessian of the refined interpolation are those of the
coarse interpolation (any object with the methods of the protocol) at the same point of the plane. -/
theorem C43_same_point (G : LibraryGrid g nx ny s) {n : ℕ} (hn : 1 ≤ n) (hs : 1 / 10 ^ 15 ≤ s / n) {d : RectDomain ℝ}
    {r : RefinedGrid ℝ} (hr : d.refine g n = .ok r) (coarse : Interp) {f : Tri} (hf : f ∈ r.toGrid.triangles)
    {c : Bary ℝ} (hc : c.Normalized) :
    ∃ t ∈ g.triangles, ∃ c', c'.Normalized ∧ (c.Inside → c'.Inside) ∧ g.pointAt t c' = r.toGrid.pointAt f c ∧
      (RefinedInterpolation coarse r).call f c = coarse.call t c' ∧
      (RefinedInterpolation coarse r).gradient f c = coarse.gradient t c' ∧
      (RefinedInterpolation coarse r).hessian f c = coarse.hessian t c' := by
  obtain ⟨b, h1, h2, h3, h4, h5⟩ := C24_stored_triangle_partial G hn hs hr hf hc
  refine ⟨b.triangle, h2, b.coordinates, h3, fun hi => ⟨h3, h5 hi.2.1 hi.2.2.1 hi.2.2.2⟩, h4, ?_, ?_, ?_⟩ <;>
  · simp only [RefinedInterpolation, toCoarseParameters, h1, bind_ok, pure_eq_ok]

/-- On the edges of the boundary of the refined grid `on_edge` is the coarse `on_edge` at the same point of the plane. -/
theorem C43_on_edge (G : LibraryGrid g nx ny s) {n : ℕ} (hn : 1 ≤ n) (hs : 1 / 10 ^ 15 ≤ s / n) {d : RectDomain ℝ}
    {r : RefinedGrid ℝ} (hr : d.refine g n = .ok r) (coarse : Interp) {e : Edge} (he : e ∈ r.toGrid.boundary.edges)
    (τ : ℝ) :
    ∃ e' ∈ g.edges, ∃ τ', (0 ≤ τ → τ ≤ 1 → 0 ≤ τ' ∧ τ' ≤ 1) ∧
      edgePoint (g.xy e'.1) (g.xy e'.2) τ' = edgePoint (r.toGrid.xy e.1) (r.toGrid.xy e.2) τ ∧
      (RefinedInterpolation coarse r).onEdge e τ = coarse.onEdge e' τ' := by
  obtain ⟨c, t', h1, h2, h3, h4⟩ := C25_boundary_edges G hn hs hr he τ
  refine ⟨c, h2, t', h4, h3, ?_⟩
  simp only [RefinedInterpolation, h1, bind_ok]

/-- A refined P1 interpolation takes at each point of the plane the value that the coarse interpolation takes there, in
whichever coarse triangle the point is looked up. -/
theorem C43_p1 (G : LibraryGrid g nx ny s) {n : ℕ} (hn : 1 ≤ n) (hs : 1 / 10 ^ 15 ≤ s / n) {d : RectDomain ℝ}
    {r : RefinedGrid ℝ} (hr : d.refine g n = .ok r) {u : List ℝ} {I : Interp} (hI : P1Interpolation g u = .ok I)
    {f : Tri} (hf : f ∈ r.toGrid.triangles) {c : Bary ℝ} (hc : c.Inside) {t : Tri} (ht : t ∈ g.triangles) {c' : Bary ℝ}
    (hc' : c'.Inside) (h : g.pointAt t c' = r.toGrid.pointAt f c) :
    ∃ x, (RefinedInterpolation I r).call f c = .ok x ∧ I.call t c' = .ok x := by
  obtain ⟨t0, ht0, c0, -, h2, h3, h4, -⟩ := C43_same_point G hn hs hr I hf hc.1
  rw [h4]
  exact C34_well_defined G hI ht0 ht (h2 hc) hc' (h3.trans h.symm)

/-- The same for C1 interpolations, with value and gradient. -/
theorem C43_c1 (G : LibraryGrid g nx ny s) {n : ℕ} (hn : 1 ≤ n) (hs : 1 / 10 ^ 15 ≤ s / n) {d : RectDomain ℝ}
    {r : RefinedGrid ℝ} (hr : d.refine g n = .ok r) {u : List (List ℝ)} {I : Interp} (hI : C1Interpolation g u = .ok I)
    {f : Tri} (hf : f ∈ r.toGrid.triangles) {c : Bary ℝ} (hc : c.Inside) {t : Tri} (ht : t ∈ g.triangles) {c' : Bary ℝ}
    (hc' : c'.Inside) (h : g.pointAt t c' = r.toGrid.pointAt f c) :
    ∃ x y, (RefinedInterpolation I r).call f c = .ok x ∧ I.call t c' = .ok x ∧
      (RefinedInterpolation I r).gradient f c = .ok y ∧ I.gradient t c' = .ok y := by
  obtain ⟨t0, ht0, c0, -, h2, h3, h4, h5, -⟩ := C43_same_point G hn hs hr I hf hc.1
  rw [h4, h5]
  exact C40_grid G hI ht0 ht (h2 hc) hc' (h3.trans h.symm)

theorem edge_in_triangle (G : LibraryGrid g nx ny s) {e : Edge} (he : e ∈ g.edges) :
    ∃ t ∈ g.triangles, ∃ i j : Fin 3, i ≠ j ∧ t.get i = e.1 ∧ t.get j = e.2 := by
  obtain ⟨P, dg, E, T, BV, BE, L⟩ := G.lattice
  obtain ⟨t, ht, hm⟩ := (L.edges_iff_sides e.undirected).1 (List.mem_map_of_mem he)
  refine ⟨t, ht, ?_⟩
  simp only [Tri.sides, Edge.undirected, List.mem_cons, List.not_mem_nil, or_false, Sym2.eq_iff] at hm
  rcases hm with (⟨a, b⟩ | ⟨a, b⟩) | (⟨a, b⟩ | ⟨a, b⟩) | (⟨a, b⟩ | ⟨a, b⟩)
  · exact ⟨0, 1, by decide, a.symm, b.symm⟩
  · exact ⟨1, 0, by decide, a.symm, b.symm⟩
  · exact ⟨1, 2, by decide, a.symm, b.symm⟩
  · exact ⟨2, 1, by decide, a.symm, b.symm⟩
  · exact ⟨2, 0, by decide, a.symm, b.symm⟩
  · exact ⟨0, 2, by decide, a.symm, b.symm⟩

/-- Edge values and triangle values of refined P1 and C1 interpolations agree along the boundary. -/
theorem C43_edge_consistent (G : LibraryGrid g nx ny s) {n : ℕ} (hn : 1 ≤ n) (hs : 1 / 10 ^ 15 ≤ s / n)
    {d : RectDomain ℝ} {r : RefinedGrid ℝ} (hr : d.refine g n = .ok r) {I : Interp}
    (hI : (∃ u, P1Interpolation g u = .ok I) ∨ ∃ u, C1Interpolation g u = .ok I) {f : Tri}
    (hf : f ∈ r.toGrid.triangles) {i j : Fin 3} (hij : i ≠ j) (he : (f.get i, f.get j) ∈ r.toGrid.boundary.edges) {τ : ℝ}
    (h0 : 0 ≤ τ) (h1 : τ ≤ 1) :
    ∃ x, (RefinedInterpolation I r).onEdge (f.get i, f.get j) τ = .ok x ∧
      (RefinedInterpolation I r).call f (edgeCoords i j τ) = .ok x := by
  obtain ⟨e', he', τ', a1, a2, a3⟩ := C43_on_edge G hn hs hr I he τ
  obtain ⟨t, ht, i', j', hij', b1, b2⟩ := edge_in_triangle G he'
  obtain ⟨c0, c1⟩ := a1 h0 h1
  have W := G.wellFormed
  have hin := edgeCoords_inside hij h0 h1
  have hin' := edgeCoords_inside hij' c0 c1
  have hpt : g.pointAt t (edgeCoords i' j' τ') = r.toGrid.pointAt f (edgeCoords i j τ) := by
    rw [pointAt_edgeCoords _ _ hij, pointAt_edgeCoords _ _ hij', b1, b2, a2]
  have e1 : e' = (t.get i', t.get j') := by rw [b1, b2]
  rw [a3, e1]
  rcases hI with ⟨u, hI⟩ | ⟨u, hI⟩
  · obtain ⟨-, x, k1, k2, -⟩ := C36_on_edge W hI ht hij' τ'
    obtain ⟨y, k3, k4⟩ := C43_p1 G hn hs hr hI hf hin ht hin' hpt
    rw [k4] at k2; cases k2
    exact ⟨_, k1, k3⟩
  · obtain ⟨-, x, k1, k2, -⟩ := C41_grid W hI ht (G.nondegenerate ht) hij' τ'
    obtain ⟨y, -, k3, k4, -⟩ := C43_c1 G hn hs hr hI hf hin ht hin' hpt
    rw [k4] at k2; cases k2
    exact ⟨_, k1, k3⟩

/-! ### C16: more on point location -/

theorem pointAt_labT {P : List LP} {dg : Bool} {E T BV BE} (L : Lattice g nx ny s P dg E T BV BE) {σ : LP × LP × LP}
    (hσ : σ ∈ T) (c : Bary ℝ) :
    g.pointAt (labT P σ) c = s • baryPoint (pos 1 σ.1) (pos 1 σ.2.1) (pos 1 σ.2.2) c.l1 c.l2 c.l3 := by
  have := L.memT_P hσ
  rw [← baryPoint_pos, Grid.pointAt]
  simp only [labT]
  rw [xy_of_at (L.at_lab this.1), xy_of_at (L.at_lab this.2.1), xy_of_at (L.at_lab this.2.2)]

/-- coordinates of a point in a lattice triangle: cell and position in the cell -/
theorem latTri_coords {t : LP × LP × LP} (ht : LatTri nx ny t) {c : Bary ℝ} (hc : c.Normalized) :
    ∃ i j : ℕ, i < nx ∧ j < ny ∧
      ((t = ((i, j), (i + 1, j), (i + 1, j + 1)) ∧
          baryPoint (pos 1 t.1) (pos 1 t.2.1) (pos 1 t.2.2) c.l1 c.l2 c.l3 = ((i : ℝ) + (c.l2 + c.l3), (j : ℝ) + c.l3)) ∨
       (t = ((i + 1, j + 1), (i, j + 1), (i, j)) ∧
          baryPoint (pos 1 t.1) (pos 1 t.2.1) (pos 1 t.2.2) c.l1 c.l2 c.l3 =
            ((i : ℝ) + c.l1, (j : ℝ) + (c.l1 + c.l2)))) := by
  obtain ⟨l1, l2, l3⟩ := c
  simp only [Bary.Normalized] at hc
  obtain ⟨i, j, hi, hj, rfl | rfl⟩ := ht
  · refine ⟨i, j, hi, hj, .inl ⟨rfl, ?_⟩⟩
    simp only [baryPoint, pos]
    ext
    · simp; linear_combination (i : ℝ) * hc
    · simp; linear_combination (j : ℝ) * hc
  · refine ⟨i, j, hi, hj, .inr ⟨rfl, ?_⟩⟩
    simp only [baryPoint, pos]
    ext
    · simp; linear_combination (i : ℝ) * hc
    · simp; linear_combination (j : ℝ) * hc

theorem nat_eq_of_near {a b : ℕ} (h1 : (a : ℝ) < b + 1) (h2 : (b : ℝ) < a + 1) : a = b := by
  have h1' : a < b + 1 := by exact_mod_cast h1
  have h2' : b < a + 1 := by exact_mod_cast h2
  omega

/-- A located point: the reported triangle and coordinates, in terms of `pointAt`. -/
theorem C16_point (G : LibraryGrid g nx ny s) {z : ℝ × ℝ} {b : BPoint ℝ}
    (hz : g.toBarycentricPoint (vec2 z) = .ok (some b)) :
    b.triangle ∈ g.triangles ∧ b.coordinates.Normalized ∧ g.pointAt b.triangle b.coordinates = z ∧
    -(2 * (1 / 10 ^ 10) / s ^ 2) ≤ b.coordinates.l1 ∧ -(2 * (1 / 10 ^ 10) / s ^ 2) ≤ b.coordinates.l2 ∧
    -(2 * (1 / 10 ^ 10) / s ^ 2) ≤ b.coordinates.l3 := by
  obtain ⟨h1, ⟨p, q, r, a1, a2, a3, h2⟩, h3, h4⟩ := C16_located G hz
  refine ⟨h1, h3, ?_, (h4 _ (by simp)).1, (h4 _ (by simp)).1, (h4 _ (by simp)).1⟩
  rw [Grid.pointAt, xy_of_at a1, xy_of_at a2, xy_of_at a3, h2]

/-- A point of a triangle that is not too close to its edges is located exactly: the reported triangle and coordinates
are those of the point. -/
theorem C16_interior (G : LibraryGrid g nx ny s) {t : Tri} (ht : t ∈ g.triangles) {c : Bary ℝ} (hc : c.Normalized)
    (h1 : 4 * (1 / 10 ^ 10) / s ^ 2 < c.l1) (h2 : 4 * (1 / 10 ^ 10) / s ^ 2 < c.l2) (h3 : 4 * (1 / 10 ^ 10) / s ^ 2 < c.l3) :
    g.toBarycentricPoint (vec2 (g.pointAt t c)) = .ok (some ⟨t, c⟩) := by
  obtain ⟨P, dg, E, T, BV, BE, L⟩ := G.lattice
  have hs := L.h_pos
  have hε : (0 : ℝ) ≤ 2 * (1 / 10 ^ 10) / s ^ 2 := by positivity
  have hε2 : 4 * (1 / 10 ^ 10) / s ^ 2 = 2 * (2 * (1 / 10 ^ 10) / s ^ 2) := by ring
  rw [hε2] at h1 h2 h3
  have hex : ∃ b, g.toBarycentricPoint (vec2 (g.pointAt t c)) = .ok (some b) := by
    obtain ⟨⟨o, ho⟩, -, hnone⟩ := C16_total G (g.pointAt t c)
    cases o with
    | some b => exact ⟨b, ho⟩
    | none =>
      exfalso
      refine hnone ho t ht ?_
      have W := G.wellFormed
      obtain ⟨m1, m2, m3⟩ := W.triangles t ht
      exact ⟨_, _, _, WF.at_xy W m1, WF.at_xy W m2, WF.at_xy W m3, c.l1, c.l2, c.l3, by linarith, by linarith,
        by linarith, hc, rfl⟩
  obtain ⟨b, hb⟩ := hex
  rw [hb]
  obtain ⟨k1, k2, k3, k4, k5, k6⟩ := C16_point G hb
  obtain ⟨t', c'⟩ := b
  simp only at k1 k2 k3 k4 k5 k6
  have htt : t' = t := by
    rw [L.triangles] at ht k1
    obtain ⟨τ, hτ, rfl⟩ := List.mem_map.1 ht
    obtain ⟨τ', hτ', rfl⟩ := List.mem_map.1 k1
    rw [pointAt_labT L hτ, pointAt_labT L hτ'] at k3
    have k3' := smul_right_injective (ℝ × ℝ) hs.ne' k3
    have e : c.l1 + c.l2 + c.l3 = 1 := hc
    have e' : c'.l1 + c'.l2 + c'.l3 = 1 := k2
    obtain ⟨i, j, -, -, hh⟩ := latTri_coords ((L.memT _).1 hτ) hc
    obtain ⟨i', j', -, -, hh'⟩ := latTri_coords ((L.memT _).1 hτ') k2
    rcases hh with ⟨rfl, q⟩ | ⟨rfl, q⟩ <;> rcases hh' with ⟨rfl, q'⟩ | ⟨rfl, q'⟩ <;>
      rw [q, q', Prod.mk.injEq] at k3' <;> obtain ⟨x1, x2⟩ := k3' <;>
      obtain rfl : i' = i := nat_eq_of_near (by linarith) (by linarith) <;>
      obtain rfl : j' = j := nat_eq_of_near (by linarith) (by linarith)
    · rfl
    · exfalso; linarith
    · exfalso; linarith
    · rfl
  subst htt
  have hd := G.nondegenerate k1
  have : ![c'.l1, c'.l2, c'.l3] = ![c.l1, c.l2, c.l3] := by
    rw [← lam_pointOf hd (L := ![c'.l1, c'.l2, c'.l3]) k2, ← lam_pointOf hd (L := ![c.l1, c.l2, c.l3]) hc]
    exact congrArg _ k3
  have e0 := congrFun this 0
  have e1 := congrFun this 1
  have e2 := congrFun this 2
  simp only [Matrix.cons_val_zero, Matrix.cons_val_one, Matrix.cons_val] at e0 e1 e2
  obtain ⟨x, y, w⟩ := c
  obtain ⟨x', y', w'⟩ := c'
  simp only at e0 e1 e2
  subst e0 e1 e2
  rfl

/-- For cells larger than `1.5e-5` every vertex is located exactly: the reported triangle has the vertex as a corner, and
the coordinates are those of this corner. -/
theorem C16_vertex_exact (G : LibraryGrid g nx ny s) (hs : 15 / 10 ^ 6 < s) {v : Vertex} {q : ℝ × ℝ} (hv : g.At v q) :
    ∃ t ∈ g.triangles, ∃ k, t.get k = v ∧ g.toBarycentricPoint (vec2 q) = .ok (some ⟨t, vertexCoords k⟩) := by
  obtain ⟨b, hb⟩ := C16_vertices_located G hv
  rw [hb]
  obtain ⟨k1, k2, k3, k4, k5, k6⟩ := C16_point G hb
  obtain ⟨t, c⟩ := b
  simp only at k1 k2 k3 k4 k5 k6
  refine ⟨t, k1, ?_⟩
  have hε : 2 * (1 / 10 ^ 10) / s ^ 2 < 1 := by
    have : (15 / 10 ^ 6 : ℝ) ^ 2 < s ^ 2 := by gcongr
    rw [div_lt_one (by positivity)]
    refine lt_trans ?_ this
    norm_num
  obtain ⟨P, dg, E, T, BV, BE, L⟩ := G.lattice
  obtain ⟨a, ha, rfl, rfl⟩ := L.at_iff.1 hv
  have hs' := L.h_pos
  rw [L.triangles] at k1
  obtain ⟨τ, hτ, rfl⟩ := List.mem_map.1 k1
  have hp : pos s a = s • pos 1 a := by simp [pos, mul_comm]
  rw [pointAt_labT L hτ, hp] at k3
  have k3' := smul_right_injective (ℝ × ℝ) hs'.ne' k3
  obtain ⟨l1, l2, l3⟩ := c
  have e' : l1 + l2 + l3 = 1 := k2
  obtain ⟨a1, a2⟩ := a
  obtain ⟨i, j, -, -, hh⟩ := latTri_coords ((L.memT _).1 hτ) k2
  have hm := L.memT_P hτ
  simp only at k4 k5 k6 hh
  have int0 : ∀ {x : ℝ} (m : ℤ), x = m → -1 < x → 0 ≤ m := by
    intro x m hx h
    rw [hx] at h
    have : (-1 : ℤ) < m := by exact_mod_cast h
    omega
  rcases hh with ⟨rfl, q⟩ | ⟨rfl, q⟩
  · rw [q] at k3'
    simp only [pos, Prod.mk.injEq, mul_one] at k3'
    obtain ⟨x1, x2⟩ := k3'
    have c3 := int0 (x := l3) ((a2 : ℤ) - j) (by push_cast; linarith) (by linarith)
    have c2 := int0 (x := l2) (((a1 : ℤ) - i) - ((a2 : ℤ) - j)) (by push_cast; linarith) (by linarith)
    have c1 := int0 (x := l1) (1 - ((a1 : ℤ) - i)) (by push_cast; linarith) (by linarith)
    obtain ⟨rfl, rfl⟩ | ⟨rfl, rfl⟩ | ⟨rfl, rfl⟩ : (a1 = i ∧ a2 = j) ∨ (a1 = i + 1 ∧ a2 = j) ∨ (a1 = i + 1 ∧ a2 = j + 1) := by
      omega
    · refine ⟨0, rfl, ?_⟩
      have : (⟨l1, l2, l3⟩ : Bary ℝ) = vertexCoords 0 := by
        simp [vertexCoords, baryOf] at *; refine ⟨?_, ?_, ?_⟩ <;> linarith
      rw [this]
    · refine ⟨1, rfl, ?_⟩
      have : (⟨l1, l2, l3⟩ : Bary ℝ) = vertexCoords 1 := by
        simp [vertexCoords, baryOf] at *; refine ⟨?_, ?_, ?_⟩ <;> linarith
      rw [this]
    · refine ⟨2, rfl, ?_⟩
      have : (⟨l1, l2, l3⟩ : Bary ℝ) = vertexCoords 2 := by
        simp [vertexCoords, baryOf] at *; refine ⟨?_, ?_, ?_⟩ <;> linarith
      rw [this]
  · rw [q] at k3'
    simp only [pos, Prod.mk.injEq, mul_one] at k3'
    obtain ⟨x1, x2⟩ := k3'
    have c1 := int0 (x := l1) ((a1 : ℤ) - i) (by push_cast; linarith) (by linarith)
    have c2 := int0 (x := l2) (((a2 : ℤ) - j) - ((a1 : ℤ) - i)) (by push_cast; linarith) (by linarith)
    have c3 := int0 (x := l3) (1 - ((a2 : ℤ) - j)) (by push_cast; linarith) (by linarith)
    obtain ⟨rfl, rfl⟩ | ⟨rfl, rfl⟩ | ⟨rfl, rfl⟩ : (a1 = i + 1 ∧ a2 = j + 1) ∨ (a1 = i ∧ a2 = j + 1) ∨ (a1 = i ∧ a2 = j) := by
      omega
    · refine ⟨0, rfl, ?_⟩
      have : (⟨l1, l2, l3⟩ : Bary ℝ) = vertexCoords 0 := by
        simp [vertexCoords, baryOf] at *; refine ⟨?_, ?_, ?_⟩ <;> linarith
      rw [this]
    · refine ⟨1, rfl, ?_⟩
      have : (⟨l1, l2, l3⟩ : Bary ℝ) = vertexCoords 1 := by
        simp [vertexCoords, baryOf] at *; refine ⟨?_, ?_, ?_⟩ <;> linarith
      rw [this]
    · refine ⟨2, rfl, ?_⟩
      have : (⟨l1, l2, l3⟩ : Bary ℝ) = vertexCoords 2 := by
        simp [vertexCoords, baryOf] at *; refine ⟨?_, ?_, ?_⟩ <;> linarith
      rw [this]

/-- Points farther than `4e-10 / s` from the rectangle covered by the grid are not located. -/
theorem C16_outside (G : LibraryGrid g nx ny s) {z : ℝ × ℝ}
    (hz : z.1 < -(4 * (1 / 10 ^ 10) / s) ∨ nx * s + 4 * (1 / 10 ^ 10) / s < z.1 ∨
      z.2 < -(4 * (1 / 10 ^ 10) / s) ∨ ny * s + 4 * (1 / 10 ^ 10) / s < z.2) :
    g.toBarycentricPoint (vec2 z) = .ok none := by
  obtain ⟨⟨o, ho⟩, -, -⟩ := C16_total G z
  cases o with
  | none => exact ho
  | some b =>
    exfalso
    obtain ⟨k1, k2, k3, k4, k5, k6⟩ := C16_point G ho
    obtain ⟨t, c⟩ := b
    simp only at k1 k2 k3 k4 k5 k6
    obtain ⟨P, dg, E, T, BV, BE, L⟩ := G.lattice
    have hs := L.h_pos
    rw [L.triangles] at k1
    obtain ⟨τ, hτ, rfl⟩ := List.mem_map.1 k1
    rw [pointAt_labT L hτ] at k3
    obtain ⟨i, j, hi, hj, hh⟩ := latTri_coords ((L.memT _).1 hτ) k2
    have e' : c.l1 + c.l2 + c.l3 = 1 := k2
    have hi' : (i : ℝ) + 1 ≤ nx := by exact_mod_cast hi
    have hj' : (j : ℝ) + 1 ≤ ny := by exact_mod_cast hj
    have hi0 : (0 : ℝ) ≤ i := by positivity
    have hj0 : (0 : ℝ) ≤ j := by positivity
    have hε : 4 * (1 / 10 ^ 10) / s = s * (2 * (2 * (1 / 10 ^ 10) / s ^ 2)) := by field_simp; ring
    rw [hε] at hz
    have hε0 : 0 ≤ 2 * (1 / 10 ^ 10) / s ^ 2 := by positivity
    generalize 2 * (1 / 10 ^ 10) / s ^ 2 = ε at *
    obtain ⟨z1, z2⟩ := z
    have hxy : ∃ x y : ℝ, z1 = s * x ∧ z2 = s * y ∧ -(2 * ε) ≤ x ∧ x ≤ nx + 2 * ε ∧ -(2 * ε) ≤ y ∧ y ≤ ny + 2 * ε := by
      rcases hh with ⟨rfl, q⟩ | ⟨rfl, q⟩ <;> rw [q] at k3 <;> simp only [Prod.smul_mk, smul_eq_mul, Prod.mk.injEq] at k3
      · exact ⟨_, _, k3.1.symm, k3.2.symm, by linarith, by linarith, by linarith, by linarith⟩
      · exact ⟨_, _, k3.1.symm, k3.2.symm, by linarith, by linarith, by linarith, by linarith⟩
    obtain ⟨x, y, rfl, rfl, b1, b2, b3, b4⟩ := hxy
    simp only at hz
    rcases hz with hz | hz | hz | hz
    · nlinarith
    · nlinarith
    · nlinarith
    · nlinarith

/-! ### C44 -/

/-- Evaluation at a Euclidean point of the rectangle covered by the grid: the interpolation (any object with the methods of
the protocol) is evaluated in a triangle of the grid at coordinates that describe exactly this point; they are
nonnegative up to the location tolerance. -/
theorem C44_grid_points_partial (G : LibraryGrid g nx ny s) (I : Interp) (hI : I.grid = g) {x y : ℝ}
    (hx : 0 ≤ x ∧ x ≤ nx * s) (hy : 0 ≤ y ∧ y ≤ ny * s) :
    ∃ t ∈ g.triangles, ∃ c : Bary ℝ, c.Normalized ∧ g.pointAt t c = (x, y) ∧
      (-(2 * (1 / 10 ^ 10) / s ^ 2) ≤ c.l1 ∧ -(2 * (1 / 10 ^ 10) / s ^ 2) ≤ c.l2 ∧ -(2 * (1 / 10 ^ 10) / s ^ 2) ≤ c.l3) ∧
      (EuclInterp.mk I).call x y = I.call t c ∧ (EuclInterp.mk I).gradient x y = I.gradient t c ∧
      (EuclInterp.mk I).hessian x y = I.hessian t c := by
  obtain ⟨b, hb⟩ := (C16_total G (x, y)).2.1 ⟨hx.1, hx.2, hy.1, hy.2⟩
  obtain ⟨k1, k2, k3, k4⟩ := C16_point G hb
  have e : (EuclInterp.mk I).toBarycentricInputs x y = .ok (b.triangle, b.coordinates) := by
    have : I.grid.toBarycentricPoint ⟨[x, y]⟩ = .ok (some b) := by rw [hI]; exact hb
    simp only [EuclInterp.toBarycentricInputs, this, bind_ok, pure_eq_ok]
  refine ⟨_, k1, _, k2, k3, k4, ?_, ?_, ?_⟩
  · simp only [EuclInterp.call, e, bind_ok]
  · simp only [EuclInterp.gradient, e, bind_ok]
  · simp only [EuclInterp.hessian, e, bind_ok]

/-- At a point of a triangle that is not too close to its edges the interpolation is evaluated in this triangle. -/
theorem C44_interior (G : LibraryGrid g nx ny s) (I : Interp) (hI : I.grid = g) {t : Tri} (ht : t ∈ g.triangles)
    {c : Bary ℝ} (hc : c.Normalized) (h1 : 4 * (1 / 10 ^ 10) / s ^ 2 < c.l1) (h2 : 4 * (1 / 10 ^ 10) / s ^ 2 < c.l2)
    (h3 : 4 * (1 / 10 ^ 10) / s ^ 2 < c.l3) :
    (EuclInterp.mk I).call (g.pointAt t c).1 (g.pointAt t c).2 = I.call t c ∧
    (EuclInterp.mk I).gradient (g.pointAt t c).1 (g.pointAt t c).2 = I.gradient t c ∧
    (EuclInterp.mk I).hessian (g.pointAt t c).1 (g.pointAt t c).2 = I.hessian t c := by
  have hb := C16_interior G ht hc h1 h2 h3
  have e : (EuclInterp.mk I).toBarycentricInputs (g.pointAt t c).1 (g.pointAt t c).2 = .ok (t, c) := by
    have : I.grid.toBarycentricPoint ⟨[(g.pointAt t c).1, (g.pointAt t c).2]⟩ = .ok (some ⟨t, c⟩) := by rw [hI]; exact hb
    simp only [EuclInterp.toBarycentricInputs, this, bind_ok, pure_eq_ok]
  refine ⟨?_, ?_, ?_⟩
  · simp only [EuclInterp.call, e, bind_ok]
  · simp only [EuclInterp.gradient, e, bind_ok]
  · simp only [EuclInterp.hessian, e, bind_ok]

/-- At the vertices P1 interpolations take their parameters and C1 interpolations the first parameter, with gradient and
Hessian given by the others. -/
theorem C44_vertices (G : LibraryGrid g nx ny s) (hs : 15 / 10 ^ 6 < s) {v : Vertex} {q : ℝ × ℝ} (hv : g.At v q) :
    (∀ u I, P1Interpolation g u = .ok I → ∃ x, u[v]? = some x ∧ (EuclInterp.mk I).call q.1 q.2 = .ok x) ∧
    (∀ u I, C1Interpolation g u = .ok I → ∃ a b c d e f, u[v]? = some [a, b, c, d, e, f] ∧
      (EuclInterp.mk I).call q.1 q.2 = .ok a ∧ (EuclInterp.mk I).gradient q.1 q.2 = .ok (vecOf ![b, c]) ∧
      (EuclInterp.mk I).hessian q.1 q.2 = .ok (matOf !![d, e; e, f])) := by
  obtain ⟨t, ht, k, rfl, hb⟩ := C16_vertex_exact G hs hv
  have W := G.wellFormed
  have e : ∀ I : Interp, I.grid = g → (EuclInterp.mk I).toBarycentricInputs q.1 q.2 = .ok (t, vertexCoords k) := by
    intro I hI
    have : I.grid.toBarycentricPoint ⟨[q.1, q.2]⟩ = .ok (some ⟨t, vertexCoords k⟩) := by rw [hI]; exact hb
    simp only [EuclInterp.toBarycentricInputs, this, bind_ok, pure_eq_ok]
  constructor
  · intro u I hI
    obtain ⟨x, h1, h2⟩ := C34_vertex_values W hI ht k
    refine ⟨x, h1, ?_⟩
    simp only [EuclInterp.call, e I (by rw [(P1_of hI).2]), bind_ok, h2]
  · intro u I hI
    obtain ⟨a, b, c, d, e', f, h1, h2, h3, h4⟩ := C37_grid W hI ht (G.nondegenerate ht) k
    have e := e I (by rw [(C1_of hI).2.2])
    refine ⟨a, b, c, d, e', f, h1, ?_, ?_, ?_⟩
    · simp only [EuclInterp.call, e, bind_ok, h2]
    · simp only [EuclInterp.gradient, e, bind_ok, h3]
    · simp only [EuclInterp.hessian, e, bind_ok, h4]

/-- Points that cannot be located raise `ValueError`, in particular all points farther than `4e-10 / s` from the
rectangle covered by the grid. -/
theorem C44_outside (G : LibraryGrid g nx ny s) (I : Interp) (hI : I.grid = g) {x y : ℝ}
    (h : x < -(4 * (1 / 10 ^ 10) / s) ∨ nx * s + 4 * (1 / 10 ^ 10) / s < x ∨
      y < -(4 * (1 / 10 ^ 10) / s) ∨ ny * s + 4 * (1 / 10 ^ 10) / s < y) :
    (EuclInterp.mk I).call x y = .error .valueError ∧ (EuclInterp.mk I).gradient x y = .error .valueError ∧
    (EuclInterp.mk I).hessian x y = .error .valueError := by
  have hb := C16_outside G (z := (x, y)) h
  have e : (EuclInterp.mk I).toBarycentricInputs x y = .error .valueError := by
    have : I.grid.toBarycentricPoint ⟨[x, y]⟩ = .ok none := by rw [hI]; exact hb
    simp only [EuclInterp.toBarycentricInputs, this, bind_ok]
  refine ⟨?_, ?_, ?_⟩
  · simp only [EuclInterp.call, e, bind_err]
  · simp only [EuclInterp.gradient, e, bind_err]
  · simp only [EuclInterp.hessian, e, bind_err]

/-- A refined interpolation evaluated at Euclidean points: it is defined on the same rectangle as the coarse interpolation, and
takes there the value, gradient and hessian of the coarse interpolation at coordinates describing exactly this point; a point
outside of the rectangle is rejected. -/
theorem C43_euclidean (G : LibraryGrid g nx ny s) {n : ℕ} (hn : 1 ≤ n) (hs : 1 / 10 ^ 15 ≤ s / n) {d : RectDomain ℝ}
    {r : RefinedGrid ℝ} (hr : d.refine g n = .ok r) (coarse : Interp) (x y : ℝ) :
    (0 ≤ x ∧ x ≤ nx * s → 0 ≤ y ∧ y ≤ ny * s → ∃ t ∈ g.triangles, ∃ c : Bary ℝ, c.Normalized ∧ g.pointAt t c = (x, y) ∧
      (EuclInterp.mk (RefinedInterpolation coarse r)).call x y = coarse.call t c ∧
      (EuclInterp.mk (RefinedInterpolation coarse r)).gradient x y = coarse.gradient t c ∧
      (EuclInterp.mk (RefinedInterpolation coarse r)).hessian x y = coarse.hessian t c) ∧
    (x < -(4 * (1 / 10 ^ 10) / (s / n)) ∨ nx * s + 4 * (1 / 10 ^ 10) / (s / n) < x ∨
      y < -(4 * (1 / 10 ^ 10) / (s / n)) ∨ ny * s + 4 * (1 / 10 ^ 10) / (s / n) < y →
      (EuclInterp.mk (RefinedInterpolation coarse r)).call x y = .error .valueError ∧
      (EuclInterp.mk (RefinedInterpolation coarse r)).gradient x y = .error .valueError ∧
      (EuclInterp.mk (RefinedInterpolation coarse r)).hessian x y = .error .valueError) := by
  obtain ⟨r', hr', L, -⟩ := C22_refine G d hn hs
  obtain rfl : r' = r := Except.ok.inj (hr'.symm.trans hr)
  have hn' : (n : ℝ) ≠ 0 := by exact_mod_cast (by omega : n ≠ 0)
  have ex : ((n * nx : ℕ) : ℝ) * (s / n) = nx * s := by push_cast; field_simp
  have ey : ((n * ny : ℕ) : ℝ) * (s / n) = ny * s := by push_cast; field_simp
  refine ⟨fun hx hy => ?_, fun h => ?_⟩
  · obtain ⟨f, hf, c, hc, h1, -, h2, h3, h4⟩ := C44_grid_points_partial L (RefinedInterpolation coarse r') rfl (x := x) (y := y)
      (by rwa [ex]) (by rwa [ey])
    obtain ⟨t, ht, c', k1, -, k2, k3, k4, k5⟩ := C43_same_point G hn hs hr coarse hf hc
    exact ⟨t, ht, c', k1, k2.trans h1, h2.trans k3, h3.trans k4, h4.trans k5⟩
  · exact C44_outside L (RefinedInterpolation coarse r') rfl (by rwa [ex, ey])

/-- P1 interpolations of affine data are the affine function wherever they can be evaluated. -/
theorem C44_affine (G : LibraryGrid g nx ny s) {u : List ℝ} {I : Interp} (hI : P1Interpolation g u = .ok I)
    (a bx cy : ℝ) (hdata : ∀ v q, g.At v q → u[v]? = some (a + bx * q.1 + cy * q.2)) (x y : ℝ) :
    ((EuclInterp.mk I).call x y = .ok (a + bx * x + cy * y) ∧ (EuclInterp.mk I).gradient x y = .ok (vecOf ![bx, cy])) ∨
    (¬ (0 ≤ x ∧ x ≤ nx * s ∧ 0 ≤ y ∧ y ≤ ny * s) ∧ (EuclInterp.mk I).call x y = .error .valueError ∧
      (EuclInterp.mk I).gradient x y = .error .valueError) := by
  have hg : I.grid = g := by rw [(P1_of hI).2]
  obtain ⟨⟨o, ho⟩, hin, -⟩ := C16_total G (x, y)
  have ho' : I.grid.toBarycentricPoint ⟨[x, y]⟩ = .ok o := by rw [hg]; exact ho
  cases o with
  | none =>
    right
    have e : (EuclInterp.mk I).toBarycentricInputs x y = .error .valueError := by
      simp only [EuclInterp.toBarycentricInputs, ho', bind_ok]
    refine ⟨?_, ?_, ?_⟩
    · intro h
      obtain ⟨b, hb⟩ := hin h
      rw [ho] at hb; cases hb
    · simp only [EuclInterp.call, e, bind_err]
    · simp only [EuclInterp.gradient, e, bind_err]
  | some b =>
    left
    obtain ⟨k1, k2, k3, -⟩ := C16_point G ho
    have e : (EuclInterp.mk I).toBarycentricInputs x y = .ok (b.triangle, b.coordinates) := by
      simp only [EuclInterp.toBarycentricInputs, ho', bind_ok, pure_eq_ok]
    obtain ⟨h1, h2⟩ := C34_reproduces_affine G.wellFormed hI k1 (G.nondegenerate k1) a bx cy hdata b.coordinates k2
    rw [k3] at h1
    constructor
    · simp only [EuclInterp.call, e, bind_ok, h1]
    · simp only [EuclInterp.gradient, e, bind_ok, h2]

/-- The expected evaluation at every point of the domain rectangle fails when the scale does not divide a side: the strip
that the grid does not cover raises `ValueError`. Example: a `1.5 × 1` rectangle with scale `1`, point `(1.25, 0.5)`. -/
theorem C44_domain_rectangle_false :
    ∃ (d : RectDomain ℝ) (s x y : ℝ), 0 < s ∧ s ≤ d.width ∧ s ≤ d.height ∧ 0 ≤ x ∧ x ≤ d.width ∧ 0 ≤ y ∧ y ≤ d.height ∧
      ∀ it g, d.grid it s = .ok g → ∀ I : Interp, I.grid = g → (EuclInterp.mk I).call x y = .error .valueError := by
  refine ⟨⟨3 / 2, 1, .none⟩, 1, 5 / 4, 1 / 2, by norm_num, by norm_num, by norm_num, by norm_num, by norm_num,
    by norm_num, by norm_num, ?_⟩
  intro it g hg I hI
  have G : LibraryGrid g _ _ 1 := LibraryGrid.grid (by norm_num) (by norm_num) (by norm_num) hg
  have e : cells (3 / 2) 1 = 1 := by
    rw [cells, Nat.floor_eq_iff (by norm_num)]; norm_num
  refine (C44_outside G I hI (.inr (.inl ?_))).1
  simp only [e]
  norm_num

/-! ### components of deformations -/

/-- A Euclidean deformation evaluates both components; the strain has their gradients as rows; errors are passed on. -/
theorem C44_deformation (d : EuclDeformation) (x y : ℝ) :
    (∀ a b, d.y1.call x y = .ok a → d.y2.call x y = .ok b → d.call x y = .ok (vecOf ![a, b])) ∧
    (∀ a b : Fin 2 → ℝ, d.y1.gradient x y = .ok (vecOf a) → d.y2.gradient x y = .ok (vecOf b) →
      d.strain x y = .ok (matOf !![a 0, a 1; b 0, b 1])) ∧
    (∀ A B : Matrix (Fin 2) (Fin 2) ℝ, d.y1.hessian x y = .ok (matOf A) → d.y2.hessian x y = .ok (matOf B) →
      d.hyperStrain x y = .ok (tenOf fun i j k => ![A, B] i j k)) ∧
    d.getItem 0 = .ok d.y1 ∧ d.getItem 1 = .ok d.y2 := by
  refine ⟨?_, ?_, ?_, rfl, rfl⟩
  · intro a b h1 h2
    simp only [EuclDeformation.call, h1, h2, bind_ok, pure_eq_ok]
    rfl
  · intro a b h1 h2
    simp only [EuclDeformation.strain, h1, h2, bind_ok]
    rfl
  · intro A B h1 h2
    simp only [EuclDeformation.hyperStrain, h1, h2, bind_ok]
    rfl

/-- The same for deformations evaluated in triangles and on edges. -/
theorem C44_deformation_triangles (d : Deformation) (t : Tri) (c : Bary ℝ) (e : Edge) (τ : ℝ) :
    (∀ a b, d.y1.call t c = .ok a → d.y2.call t c = .ok b → d.call t c = .ok (vecOf ![a, b])) ∧
    (∀ a b, d.y1.onEdge e τ = .ok a → d.y2.onEdge e τ = .ok b → d.onEdge e τ = .ok (vecOf ![a, b])) ∧
    (∀ a b : Fin 2 → ℝ, d.y1.gradient t c = .ok (vecOf a) → d.y2.gradient t c = .ok (vecOf b) →
      d.strain t c = .ok (matOf !![a 0, a 1; b 0, b 1])) ∧
    (∀ A B : Matrix (Fin 2) (Fin 2) ℝ, d.y1.hessian t c = .ok (matOf A) → d.y2.hessian t c = .ok (matOf B) →
      d.hyperStrain t c = .ok (tenOf fun i j k => ![A, B] i j k)) ∧
    d.getItem 0 = .ok d.y1 ∧ d.getItem 1 = .ok d.y2 := by
  refine ⟨?_, ?_, ?_, ?_, rfl, rfl⟩
  · intro a b h1 h2
    simp only [Deformation.call, h1, h2, bind_ok, pure_eq_ok]
    rfl
  · intro a b h1 h2
    simp only [Deformation.onEdge, h1, h2, bind_ok, pure_eq_ok]
    rfl
  · intro a b h1 h2
    simp only [Deformation.strain, h1, h2, bind_ok]
    rfl
  · intro A B h1 h2
    simp only [Deformation.hyperStrain, h1, h2, bind_ok]
    rfl

/-- The hypotheses of C43 and C44 hold in a concrete case: the `2 × 1` rectangle with scale 1 and its refinement by 3, a
C1 interpolation with constant parameters, evaluated at `(1/4, 1/3)`. -/
example : ∃ g r I, LibraryGrid g 2 1 1 ∧ (RectDomain.mk (2 : ℝ) 1 (.one .lower)).refine g 3 = .ok r ∧
    C1Interpolation g (g.vertices.map fun _ => [1, 2, 3, 4, 5, 6]) = .ok I ∧
    (∃ t ∈ g.triangles, ∃ c, c.Normalized ∧ g.pointAt t c = (1 / 4, 1 / 3) ∧
      (EuclInterp.mk I).call (1 / 4) (1 / 3) = I.call t c) ∧
    (r.toGrid.triangles ≠ [] ∧ ∀ f ∈ r.toGrid.triangles, ∃ t ∈ g.triangles, ∃ c, c.Inside ∧
      (RefinedInterpolation I r).hessian f ⟨1 / 3, 1 / 3, 1 / 3⟩ = I.hessian t c) := by
  obtain ⟨g, r, G, hr, F⟩ := libraryGrid_example .insertion
  obtain ⟨I, hI, hg⟩ := (C45_c1_ctor g (g.vertices.map fun _ => [1, 2, 3, 4, 5, 6])).1 ⟨by simp, by simp⟩
  refine ⟨g, r, I, G, hr, hI, ?_, ?_, ?_⟩
  · obtain ⟨t, ht, c, hc, hp, -, h, -⟩ := C44_grid_points_partial G I hg (x := 1 / 4) (y := 1 / 3)
      ⟨by norm_num, by norm_num⟩ ⟨by norm_num, by norm_num⟩
    exact ⟨t, ht, c, hc, hp, h⟩
  · intro h
    have := (C22_structure F).2.2.2.2.2.2.1
    rw [h] at this
    simp at this
  · intro f hf
    have hin : (⟨1 / 3, 1 / 3, 1 / 3⟩ : Bary ℝ).Inside := ⟨by simp [Bary.Normalized]; norm_num, by norm_num, by norm_num, by norm_num⟩
    obtain ⟨t, ht, c, -, h2, -, -, -, h3⟩ := C43_same_point (n := 3) G (by norm_num) (by norm_num) hr I hf hin.1
    exact ⟨t, ht, c, h2 hin, h3⟩

end

end Tve
