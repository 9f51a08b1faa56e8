import Verif.Props.InterpP1

/-!
# C37 – C41 and C45 for `C1Interpolation` on grids
-/

namespace Tve
open Bell

section
variable {g : Grid ℝ} {u : List (List ℝ)} {I : Interp} {t : Tri}

/-! ### C45 -/

/-- `C1Interpolation` accepts exactly one list of six values per vertex. -/
theorem C45_c1_ctor (g : Grid ℝ) (u : List (List ℝ)) :
    ((u.length = g.vertices.length ∧ ∀ p ∈ u, p.length = 6) → ∃ I, C1Interpolation g u = .ok I ∧ I.grid = g) ∧
    (¬ (u.length = g.vertices.length ∧ ∀ p ∈ u, p.length = 6) → C1Interpolation g u = .error .valueError) := by
  have key : (u.any fun p => p.length != 6) = true ↔ ¬ ∀ p ∈ u, p.length = 6 := by simp
  constructor
  · rintro ⟨h1, h2⟩
    exact ⟨_, by rw [C1Interpolation, if_neg (fun h => key.1 h h2), if_neg (not_not.2 h1)], rfl⟩
  · intro h
    unfold C1Interpolation
    split_ifs with h1 h2
    · rfl
    · rfl
    · exact absurd ⟨not_not.1 h2, not_not.1 (fun h' => h1 (key.2 h'))⟩ h

/-- `P1BoundaryInterpolation` accepts exactly as many values as there are boundary vertices; with distinct keys that are
boundary vertices this is one value per boundary vertex. -/
theorem C45_boundary_ctor (b : Boundary) (d : PyDict Vertex ℝ) :
    (d.items.length = b.vertices.length → P1BoundaryInterp.new b d = .ok ⟨b, d⟩) ∧
    (d.items.length ≠ b.vertices.length → P1BoundaryInterp.new b d = .error .valueError) := by
  constructor
  · intro h; rw [P1BoundaryInterp.new, if_neg (not_not.2 h)]
  · intro h; rw [P1BoundaryInterp.new, if_pos h]

/-- The Bell functions need 18 parameters, six per vertex. -/
theorem C45_bell (tv : TriVerts) (c : Bary ℝ) (p : Vec ℝ) (h : p.data.length ≠ 18) :
    interpolation tv c p = .error .valueError ∧ interpolationGradient tv c p = .error .valueError ∧
    interpolationHessian tv c p = .error .valueError := by
  have h : p.size ≠ 18 := h
  refine ⟨?_, ?_, ?_⟩
  · rw [interpolation, if_pos h]
  · rw [interpolationGradient, if_pos h]
  · rw [interpolationHessian, if_pos h]

/-- With 18 parameters and a nondegenerate triangle they succeed. -/
theorem C45_bell_ok (P : Fin 3 → ℝ × ℝ) (hP : Nondegenerate P) (c : Bary ℝ) (p : Vec ℝ) (h : p.data.length = 18) :
    (∃ v, interpolation (tvOf P) c p = .ok v) ∧ (∃ v, interpolationGradient (tvOf P) c p = .ok v) ∧
    ∃ v, interpolationHessian (tvOf P) c p = .ok v := by
  obtain ⟨f, hf⟩ : ∃ f : Fin 3 → Fin 6 → ℝ, p = parOf f := by
    obtain ⟨l⟩ := p
    refine ⟨fun i k => l.getD (6 * i + k) 0, ?_⟩
    rw [parOf, Vec.mk.injEq]
    apply List.ext_getElem
    · simp at h ⊢; exact h
    · intro n h1 h2
      have hn : n < 18 := by simpa [h] using h1
      have e : ∀ m (hm : m < l.length), l.getD m 0 = l[m] := by
        intro m hm; rw [List.getD_eq_getElem?_getD, List.getElem?_eq_getElem hm]; rfl
      interval_cases n <;> simp [List.getElem_append, List.getElem?_eq_getElem h1]
  subst hf
  obtain ⟨l1, l2, l3⟩ := c
  exact ⟨⟨_, interpolation_eq (L := ![l1, l2, l3]) hP⟩, ⟨_, gradient_eq (L := ![l1, l2, l3]) hP⟩,
    ⟨_, hessian_eq (L := ![l1, l2, l3]) hP⟩⟩

/-! ### C37: nodal data -/

/-- At every vertex of a grid triangle value, gradient and Hessian are the six parameters of the vertex. -/
theorem C37_grid (W : g.WellFormed) (hI : C1Interpolation g u = .ok I) (ht : t ∈ g.triangles)
    (hd : Nondegenerate (g.corners t)) (k : Fin 3) :
    ∃ a b c d e f, u[t.get k]? = some [a, b, c, d, e, f] ∧ I.call t (vertexCoords k) = .ok a ∧
      I.gradient t (vertexCoords k) = .ok (vecOf ![b, c]) ∧
      I.hessian t (vertexCoords k) = .ok (matOf !![d, e; e, f]) := by
  obtain ⟨h6, hu, rfl⟩ := C1_of hI
  have hl := WF.len W hu (WF.mem_get W ht k)
  let p : Fin 3 → Fin 6 → ℝ := fun k => nodeParam u (t.get k)
  refine ⟨p k 0, p k 1, p k 2, p k 3, p k 4, p k 5, ?_, ?_, ?_, ?_⟩
  pick_goal 2
  · simp only; rw [(C1_call_eq W h6 hu ht _).1]; exact C37_value _ hd p k
  pick_goal 2
  · simp only; rw [(C1_call_eq W h6 hu ht _).2.1]; exact C37_gradient _ hd p k
  pick_goal 2
  · simp only; rw [(C1_call_eq W h6 hu ht _).2.2]; exact C37_hessian _ hd p k
  · rw [getElem?_of_getD hl [], param_eq h6 hl]
    simp [List.ofFn_succ, p]

/-! ### C39: derivatives -/

/-- On every grid triangle gradient and Hessian are the first and second derivatives of the interpolation. -/
theorem C39_grid (W : g.WellFormed) (hI : C1Interpolation g u = .ok I) (ht : t ∈ g.triangles)
    (hd : Nondegenerate (g.corners t)) :
    ∃ f fx fy fxx fxy fyy : ℝ × ℝ → ℝ,
      (∀ z, HasFDerivAt f (lin (fx z) (fy z)) z) ∧
      (∀ z, HasFDerivAt fx (lin (fxx z) (fxy z)) z) ∧
      (∀ z, HasFDerivAt fy (lin (fxy z) (fyy z)) z) ∧
      ∀ c : Bary ℝ, c.Normalized →
        I.call t c = .ok (f (g.pointAt t c)) ∧
        I.gradient t c = .ok (vecOf ![fx (g.pointAt t c), fy (g.pointAt t c)]) ∧
        I.hessian t c = .ok (matOf !![fxx (g.pointAt t c), fxy (g.pointAt t c); fxy (g.pointAt t c), fyy (g.pointAt t c)]) := by
  obtain ⟨h6, hu, rfl⟩ := C1_of hI
  obtain ⟨f, fx, fy, fxx, fxy, fyy, h1, h2, h3, h4⟩ := C39_derivatives _ hd fun k => nodeParam u (t.get k)
  refine ⟨f, fx, fy, fxx, fxy, fyy, h1, h2, h3, fun c hc => ?_⟩
  obtain ⟨e1, e2, e3⟩ := C1_call_eq W h6 hu ht c
  simp only
  rw [e1, e2, e3]
  exact h4 ![c.l1, c.l2, c.l3] hc

/-! ### C40: continuity of value and gradient -/

theorem weightOf_get {t : Tri} (hn : Function.Injective t.get) (L : Fin 3 → ℝ) (k : Fin 3) :
    weightOf t (baryOf L) (t.get k) = L k := by
  have h01 : t.1 ≠ t.2.1 := fun h => absurd (hn (a₁ := 0) (a₂ := 1) h) (by decide)
  have h02 : t.1 ≠ t.2.2 := fun h => absurd (hn (a₁ := 0) (a₂ := 2) h) (by decide)
  have h12 : t.2.1 ≠ t.2.2 := fun h => absurd (hn (a₁ := 1) (a₂ := 2) h) (by decide)
  fin_cases k <;> simp [weightOf, Tri.get, baryOf, h01, h02, h12, h01.symm, h02.symm, h12.symm]

theorem weightOf_ne {t : Tri} {L : Fin 3 → ℝ} {v : Vertex} (h : weightOf t (baryOf L) v ≠ 0) : ∃ k, t.get k = v := by
  by_contra hne
  push Not at hne
  apply h
  have h0 := hne 0
  have h1 := hne 1
  have h2 := hne 2
  simp only [Tri.get, Matrix.cons_val_zero, Matrix.cons_val_one, Matrix.cons_val] at h0 h1 h2
  simp [weightOf, h0, h1, h2]

theorem LibraryGrid.get_injective {nx ny : ℕ} {s : ℝ} (G : LibraryGrid g nx ny s) (ht : t ∈ g.triangles) :
    Function.Injective t.get := by
  have hd := G.nondegenerate ht
  intro i j hij
  by_contra hne
  apply hd
  have : ∀ a b, t.get a = t.get b → g.corners t a = g.corners t b := fun a b h => by rw [Grid.corners, Grid.corners, h]
  have := this i j hij
  fin_cases i <;> fin_cases j <;> simp_all [cross] <;> ring

/-- The shapes in which two descriptions of the same point can differ. -/
theorem description_cases {nx ny : ℕ} {s : ℝ} (G : LibraryGrid g nx ny s) {t' : Tri} (ht : t ∈ g.triangles)
    (ht' : t' ∈ g.triangles) {c c' : Bary ℝ} (hc : c.Inside) (hc' : c'.Inside) (h : g.pointAt t c = g.pointAt t' c') :
    (t = t' ∧ c = c') ∨
    (∃ i i', t.get i = t'.get i' ∧ c = vertexCoords i ∧ c' = vertexCoords i') ∨
    ∃ i j i' j' s, i ≠ j ∧ i' ≠ j' ∧ t.get i = t'.get i' ∧ t.get j = t'.get j' ∧ c = edgeCoords i j s ∧
      c' = edgeCoords i' j' s := by
  have hn := G.get_injective ht
  have hn' := G.get_injective ht'
  have hw := weight_unique G ht ht' hc hc' h
  obtain ⟨L, rfl⟩ : ∃ L, c = baryOf L := ⟨![c.l1, c.l2, c.l3], rfl⟩
  obtain ⟨L', rfl⟩ : ∃ L', c' = baryOf L' := ⟨![c'.l1, c'.l2, c'.l3], rfl⟩
  obtain ⟨hs, p0, p1, p2⟩ := hc
  obtain ⟨hs', p0', p1', p2'⟩ := hc'
  simp only [Bary.Normalized, baryOf] at hs hs' p0 p1 p2 p0' p1' p2'
  have fwd : ∀ k, 0 < L k → ∃ k', t'.get k' = t.get k ∧ L' k' = L k := by
    intro k hk
    have e := hw (t.get k)
    rw [weightOf_get hn] at e
    obtain ⟨k', hk'⟩ := weightOf_ne (t := t') (L := L') (v := t.get k) (by rw [← e]; exact hk.ne')
    refine ⟨k', hk', ?_⟩
    rw [← hk', weightOf_get hn'] at e
    exact e.symm
  have nn : ∀ k, 0 ≤ L k := by intro k; fin_cases k; exacts [p0, p1, p2]
  have nn' : ∀ k, 0 ≤ L' k := by intro k; fin_cases k; exacts [p0', p1', p2']
  have hS : ∑ k, L k = 1 := by rw [Fin.sum_univ_three]; exact hs
  have hS' : ∑ k, L' k = 1 := by rw [Fin.sum_univ_three]; exact hs'
  -- a vertex with weight one
  by_cases hone : ∃ i, L i = 1
  · obtain ⟨i, hi⟩ := hone
    obtain ⟨i', hi', hL⟩ := fwd i (by rw [hi]; norm_num)
    right; left
    have key : ∀ (M : Fin 3 → ℝ) (i : Fin 3), (∀ k, 0 ≤ M k) → ∑ k, M k = 1 → M i = 1 → baryOf M = vertexCoords i := by
      intro M i h0 h1 h2
      have a0 := h0 0
      have a1 := h0 1
      have a2 := h0 2
      rw [Fin.sum_univ_three] at h1
      fin_cases i <;> simp only [vertexCoords, baryOf, Bary.mk.injEq] <;> simp at h2 <;>
        refine ⟨?_, ?_, ?_⟩ <;> simp <;> linarith
    exact ⟨i, i', hi'.symm, key L i nn hS hi, key L' i' nn' hS' (hL.trans hi)⟩
  push Not at hone
  -- an edge
  by_cases hzero : ∃ k, L k = 0
  · obtain ⟨k, hk⟩ := hzero
    right; right
    obtain ⟨i, j, hij, hik, hjk⟩ : ∃ i j : Fin 3, i ≠ j ∧ i ≠ k ∧ j ≠ k := by fin_cases k <;> decide
    have hij1 : L i + L j = 1 := by
      have : L i + L j + L k = 1 := by
        rw [Fin.sum_univ_three] at hS
        fin_cases i <;> fin_cases j <;> fin_cases k <;> simp_all <;> linarith
      linarith
    have hi0 : 0 < L i := lt_of_le_of_ne (nn i) fun h0 => hone j (by linarith)
    have hj0 : 0 < L j := lt_of_le_of_ne (nn j) fun h0 => hone i (by linarith)
    obtain ⟨i', hi', hLi⟩ := fwd i hi0
    obtain ⟨j', hj', hLj⟩ := fwd j hj0
    have hij' : i' ≠ j' := by
      rintro rfl
      exact hij (hn (hi'.symm.trans hj'))
    have key : ∀ (M : Fin 3 → ℝ) (i j : Fin 3), i ≠ j → ∑ k, M k = 1 → M i + M j = 1 →
        baryOf M = edgeCoords i j (M i) := by
      intro M i j hij h1 h2
      rw [Fin.sum_univ_three] at h1
      fin_cases i <;> fin_cases j <;> simp_all [edgeCoords, baryOf] <;> (try constructor) <;> linarith
    refine ⟨i, j, i', j', L i, hij, hij', hi'.symm, hj'.symm, key L i j hij hS hij1, ?_⟩
    rw [← hLi]
    exact key L' i' j' hij' hS' (by rw [hLi, hLj]; exact hij1)
  -- an interior point
  push Not at hzero
  left
  have hpos : ∀ k, 0 < L k := fun k => lt_of_le_of_ne (nn k) (hzero k).symm
  choose σ hσ1 hσ2 using fun k => fwd k (hpos k)
  have hσ : Function.Injective σ := fun a b hab => hn ((hσ1 a).symm.trans ((congrArg t'.get hab).trans (hσ1 b)))
  have hσs : Function.Surjective σ := Finite.surjective_of_injective hσ
  have hvs : t.vertexSet = t'.vertexSet := by
    have im : ∀ τ : Tri, τ.vertexSet = Finset.univ.image τ.get := by
      intro τ
      ext v
      simp [Tri.vertexSet, Tri.get, Fin.exists_fin_succ, eq_comm]
    rw [im, im]
    ext v
    simp only [Finset.mem_image, Finset.mem_univ, true_and]
    constructor
    · rintro ⟨k, rfl⟩; exact ⟨σ k, hσ1 k⟩
    · rintro ⟨k, rfl⟩
      obtain ⟨k', rfl⟩ := hσs k
      exact ⟨k', (hσ1 k').symm⟩
  have htt : t = t' := by
    obtain ⟨P, dg, E, T, BV, BE, Lt⟩ := G.lattice
    exact List.inj_on_of_nodup_map Lt.nodup_vertexSet ht ht' hvs
  subst htt
  refine ⟨rfl, ?_⟩
  have : L = L' := by
    funext k
    have : σ k = k := hn (hσ1 k)
    rw [← hσ2 k, this]
  rw [this]

/-- A `C1Interpolation` on a grid of the library is continuously differentiable: wherever two triangles meet (on a common
edge or in a common vertex), both give the same value and the same gradient. -/
theorem C40_grid {nx ny : ℕ} {s : ℝ} (G : LibraryGrid g nx ny s) (hI : C1Interpolation g u = .ok I) {t' : Tri}
    (ht : t ∈ g.triangles) (ht' : t' ∈ g.triangles) {c c' : Bary ℝ} (hc : c.Inside) (hc' : c'.Inside)
    (h : g.pointAt t c = g.pointAt t' c') :
    ∃ x y, I.call t c = .ok x ∧ I.call t' c' = .ok x ∧ I.gradient t c = .ok y ∧ I.gradient t' c' = .ok y := by
  have W := G.wellFormed
  have hd := G.nondegenerate ht
  have hd' := G.nondegenerate ht'
  rcases description_cases G ht ht' hc hc' h with ⟨rfl, rfl⟩ | ⟨i, i', hi, rfl, rfl⟩ | ⟨i, j, i', j', s, hij, hij', hi, hj, rfl, rfl⟩
  · obtain ⟨f, fx, fy, fxx, fxy, fyy, -, -, -, h4⟩ := C39_grid W hI ht hd
    obtain ⟨e1, e2, -⟩ := h4 c hc.1
    exact ⟨_, _, e1, e1, e2, e2⟩
  · obtain ⟨a, b, c, d, e, f, k1, k2, k3, -⟩ := C37_grid W hI ht hd i
    obtain ⟨a', b', c', d', e', f', k1', k2', k3', -⟩ := C37_grid W hI ht' hd' i'
    rw [← hi, k1] at k1'
    simp only [Option.some.injEq, List.cons.injEq] at k1'
    obtain ⟨rfl, rfl, rfl, -⟩ := k1'
    exact ⟨_, _, k2, k2', k3, k3'⟩
  · obtain ⟨h6, hu, rfl⟩ := C1_of hI
    obtain ⟨v, y, e1, e2, e3, e4⟩ := C40_edge_continuity (g.corners t) (g.corners t') hd hd'
      (fun k => nodeParam u (t.get k)) (fun k => nodeParam u (t'.get k)) i j i' j' hij hij'
      (by rw [Grid.corners, Grid.corners, hi]) (by rw [Grid.corners, Grid.corners, hj]) (by rw [hi]) (by rw [hj]) s
    refine ⟨v, y, ?_, ?_, ?_, ?_⟩
    · simp only; rw [(C1_call_eq W h6 hu ht _).1]; exact e1
    · simp only; rw [(C1_call_eq W h6 hu ht' _).1]; exact e2
    · simp only; rw [(C1_call_eq W h6 hu ht _).2.1]; exact e3
    · simp only; rw [(C1_call_eq W h6 hu ht' _).2.1]; exact e4

/-! ### C41: edges -/

/-- `C1Interpolation.on_edge` on the edge between two vertices of a triangle is the interpolation inside this triangle at
the point `s * p_i + (1 - s) * p_j`; reversing the edge and the parameter gives the same value. -/
theorem C41_grid (W : g.WellFormed) (hI : C1Interpolation g u = .ok I) (ht : t ∈ g.triangles)
    (hd : Nondegenerate (g.corners t)) {i j : Fin 3} (hij : i ≠ j) (s : ℝ) :
    g.pointAt t (edgeCoords i j s) = edgePoint (g.xy (t.get i)) (g.xy (t.get j)) s ∧
    ∃ x, I.onEdge (t.get i, t.get j) s = .ok x ∧ I.call t (edgeCoords i j s) = .ok x ∧
      I.onEdge (t.get j, t.get i) (1 - s) = .ok x := by
  refine ⟨pointAt_edgeCoords g t hij s, ?_⟩
  obtain ⟨h6, hu, rfl⟩ := C1_of hI
  have mi := WF.mem_get W ht i
  have mj := WF.mem_get W ht j
  obtain ⟨v, e1, e2⟩ := C41_on_edge (g.corners t) hd (fun k => nodeParam u (t.get k)) i j hij s
  have hne : g.xy (t.get i) ≠ g.xy (t.get j) := by
    intro h
    have h' : g.corners t i = g.corners t j := h
    apply hd
    fin_cases i <;> fin_cases j <;> simp_all [cross] <;> ring
  obtain ⟨w, e3, e4⟩ := C41_reverse (g.xy (t.get i)) (g.xy (t.get j)) hne (nodeParam u (t.get i)) (nodeParam u (t.get j)) s
  refine ⟨v, ?_, ?_, ?_⟩
  · simp only; rw [C1_onEdge_eq W h6 hu mi mj]; exact e1
  · simp only; rw [(C1_call_eq W h6 hu ht _).1]; exact e2
  · simp only
    rw [C1_onEdge_eq W h6 hu mj mi]
    have e1' : interpolationOnEdge (vec2 (g.xy (t.get i)), vec2 (g.xy (t.get j))) s
      ⟨List.ofFn (nodeParam u (t.get i)) ++ List.ofFn (nodeParam u (t.get j))⟩ = .ok v := e1
    rw [e1'] at e3
    cases e3
    exact e4

/-- The hypotheses of this file are met by every grid of the library and every choice of six numbers per vertex. -/
example {nx ny : ℕ} {s : ℝ} (G : LibraryGrid g nx ny s) (f : Vertex → Fin 6 → ℝ) (ht : t ∈ g.triangles) :
    (∃ I, C1Interpolation g (g.vertices.map fun v => List.ofFn (f v)) = .ok I) ∧ g.WellFormed ∧
      Nondegenerate (g.corners t) := by
  refine ⟨?_, G.wellFormed, G.nondegenerate ht⟩
  obtain ⟨I, hI, -⟩ := (C45_c1_ctor g (g.vertices.map fun v => List.ofFn (f v))).1 ⟨by simp, by simp⟩
  exact ⟨I, hI⟩

end

end Tve
