import Verif.Props.GridEquiv
import Verif.Props.RefineEq
import Verif.Props.RefineCompose
import Verif.Props.InterpEval
import Verif.Props.InterpC1
import Verif.Props.Sample

/-!
# More concrete cases for the theorems about grids and interpolations

For each theorem about grids and interpolations without an example of its own, a concrete case that meets its hypotheses,
mostly on the grid of `Props/Sample.lean` (`2 × 2` cells of size `1/2`).
-/

namespace Tve

variable (it it' : SetIter)

/-! ### C20: equality -/

/-- the sample grid is equal to itself, also if it was created with another iteration order of sets, in both directions; and
different from a grid of the same scale with another number of points -/
example : (sampleGrid it).eq (sampleGrid it) = .ok true ∧ (sampleGrid it).eq (sampleGrid it') = (sampleGrid it').eq (sampleGrid it) ∧
    ∀ g, (RectDomain.mk (1 : ℝ) (3 / 2) .none).grid it (1 / 2) = .ok g → (sampleGrid it).eq g = .ok false := by
  refine ⟨C20_reflexive (sampleGrid_library it), C20_symmetric (sampleGrid_library it) (sampleGrid_library it'), fun g hg => ?_⟩
  have G := LibraryGrid.grid (by norm_num) (by norm_num) (by norm_num) hg
  refine C20_size (sampleGrid_library it) G (by norm_num) ?_
  obtain ⟨-, -, -, -, h, -⟩ := C22_structure G
  have c1 : cells (1 : ℝ) (1 / 2) = 2 := by rw [cells, Nat.floor_eq_iff (by norm_num)]; norm_num
  have c2 : cells (3 / 2 : ℝ) (1 / 2) = 3 := by rw [cells, Nat.floor_eq_iff (by norm_num)]; norm_num
  rw [sampleGrid_length, h]
  simp only [c1, c2]
  decide

/-! ### C23–C26, C81: refinement -/

/-- the unit square without fixed side: refining by 2 gives the same grid as halving the scale -/
example : ∃ g r g', (RectDomain.mk (1 : ℝ) 1 .none).grid it (1 / 2) = .ok g ∧ (RectDomain.mk (1 : ℝ) 1 .none).refine g 2 = .ok r ∧
    (RectDomain.mk (1 : ℝ) 1 .none).grid it' (1 / 2 / 2) = .ok g' ∧ r.toGrid.eq g' = .ok true := by
  obtain ⟨g, -, -, -, -, hg, -⟩ := C09_grid_counts it (RectDomain.mk (1 : ℝ) 1 .none) (s := 1 / 2) (by norm_num) (by norm_num) (by norm_num)
  obtain ⟨g', -, -, -, -, hg', -⟩ := C09_grid_counts it' (RectDomain.mk (1 : ℝ) 1 .none) (s := 1 / 2 / 2) (by norm_num) (by norm_num)
    (by norm_num)
  have G := LibraryGrid.grid (by norm_num) (by norm_num) (by norm_num) hg
  obtain ⟨r, hr, -⟩ := C22_refine G (RectDomain.mk (1 : ℝ) 1 .none) (n := 2) (by norm_num) (by norm_num)
  have c1 : cells (1 : ℝ) (1 / 2) = 2 := by rw [cells, Nat.floor_eq_iff (by norm_num)]; norm_num
  have c2 : cells (1 : ℝ) (1 / 2 / (2 : ℕ)) = 4 := by rw [cells, Nat.floor_eq_iff (by norm_num)]; norm_num
  refine ⟨g, r, g', hg, hr, hg', C23_no_fix_partial (d := RectDomain.mk (1 : ℝ) 1 .none) (s := 1 / 2) (n := 2) (by norm_num)
    (by norm_num) (by norm_num) (by norm_num) (by norm_num) hg hr (by exact_mod_cast hg') ?_ ?_ rfl⟩ <;>
  · simp only [c1, c2]

/-- refinements of the sample grid: by a factor below 1, a triangle that is not part of the grid, and by 2 and 3 in both orders -/
example : sampleDomain.refine (sampleGrid it) 0 = .error .valueError ∧
    ∃ r2 r3 r23 r32, sampleDomain.refine (sampleGrid it) 2 = .ok r2 ∧ sampleDomain.refine (sampleGrid it) 3 = .ok r3 ∧
      sampleDomain.refine r2.toGrid 3 = .ok r23 ∧ sampleDomain.refine r3.toGrid 2 = .ok r32 ∧ r23.toGrid.eq r32.toGrid = .ok true ∧
      r2.toCoarseBarycentricPoint ⟨(0, 0, 0), ⟨1, 0, 0⟩⟩ = .error .valueError := by
  refine ⟨C22_factor_below_one _ _ (by norm_num), ?_⟩
  obtain ⟨r2, h2, L2, -⟩ := C22_refine (sampleGrid_library it) sampleDomain (n := 2) (by norm_num) (by norm_num)
  obtain ⟨r3, h3, L3, -⟩ := C22_refine (sampleGrid_library it) sampleDomain (n := 3) (by norm_num) (by norm_num)
  obtain ⟨r23, h23, -⟩ := C22_refine L2 sampleDomain (n := 3) (by norm_num) (by norm_num)
  obtain ⟨r32, h32, -⟩ := C22_refine L3 sampleDomain (n := 2) (by norm_num) (by norm_num)
  refine ⟨r2, r3, r23, r32, h2, h3, h23, h32, C81_refine_commutes (sampleGrid_library it) (a := 2) (b := 3) (by norm_num)
    (by norm_num) (by norm_num) h2 h23 h3 h32, C24_foreign_triangle _ _ fun t ht hc => ?_⟩
  obtain ⟨p, q, r, hp, hq, hr, -, -, -, hpos⟩ := (C22_structure L2).2.2.2.2.2.2.2 t ht
  have e : ∀ x ∈ t.cycle, x = 0 := by rw [hc]; simp [Tri.cycle]
  have e1 : t.1 = t.2.1 := (e _ (by simp [Tri.cycle])).trans (e _ (by simp [Tri.cycle])).symm
  rw [e1] at hp
  have : p = q := by simpa using (xy_of_at hp).symm.trans (xy_of_at hq)
  subst this
  simp [cross] at hpos

/-! ### C34–C36: P1 interpolation -/

/-- data `x + 2 y` on the sample grid: affine, so reproduced at all points of the plane that are located, with gradient `(1, 2)`;
no second derivatives; bounded by the data -/
example : ∃ I, P1Interpolation (sampleGrid it) ((sampleGrid it).vertices.map fun v =>
      ((sampleGrid it).xy v).1 + 2 * ((sampleGrid it).xy v).2) = .ok I ∧
    (EuclInterp.mk I).call (2 / 3) (3 / 4) = .ok (2 / 3 + 2 * (3 / 4)) ∧
    (EuclInterp.mk I).gradient (2 / 3) (3 / 4) = .ok (vecOf ![1, 2]) ∧
    I.hessian (0, 1, 4) ⟨1 / 3, 1 / 3, 1 / 3⟩ = .error .notImplemented ∧
    (EuclInterp.mk I).call (6 / 5) (1 / 2) = .error .valueError := by
  have G := sampleGrid_library it
  obtain ⟨I, hI, hg⟩ := (C34_ctor (sampleGrid it) ((sampleGrid it).vertices.map fun v =>
      ((sampleGrid it).xy v).1 + 2 * ((sampleGrid it).xy v).2)).1 (by simp)
  have hdata : ∀ v q, (sampleGrid it).At v q → ((sampleGrid it).vertices.map fun v =>
      ((sampleGrid it).xy v).1 + 2 * ((sampleGrid it).xy v).2)[v]? = some (0 + 1 * q.1 + 2 * q.2) := by
    intro v q hv
    have hl : v < 9 := by
      have := (List.getElem?_eq_some_iff.1 hv).1
      rwa [sampleGrid_length] at this
    have hv' : (sampleGrid it).vertices[v]? = some v := by
      rw [(sampleGrid_lists it).1]
      interval_cases v <;> rfl
    rw [List.getElem?_map, hv', Option.map_some, xy_of_at hv]
    ring_nf
  refine ⟨I, hI, ?_, ?_, C34_hessian hI _ _, (C44_outside G I hg (Or.inr (Or.inl (by norm_num)))).1⟩
  · rcases C44_affine G hI 0 1 2 hdata (2 / 3) (3 / 4) with ⟨h, -⟩ | ⟨h, -⟩
    · rw [h]; norm_num
    · exact absurd (by norm_num) h
  · rcases C44_affine G hI 0 1 2 hdata (2 / 3) (3 / 4) with ⟨-, h⟩ | ⟨h, -⟩
    · exact h
    · exact absurd (by norm_num) h

/-- on the diagonal edge from vertex 0 to vertex 4, seen from its two triangles -/
example (u : List ℝ) (hu : u.length = 9) : ∃ I, P1Interpolation (sampleGrid it) u = .ok I ∧
    (∃ x, I.onEdge (0, 4) (1 / 3) = .ok x ∧ I.call (0, 1, 4) (edgeCoords 0 2 (1 / 3)) = .ok x) ∧
    (∃ x, I.onEdge (0, 4) (1 / 3) = .ok x ∧ I.call (4, 3, 0) (edgeCoords 2 0 (1 / 3)) = .ok x) := by
  have G := sampleGrid_library it
  obtain ⟨I, hI, -⟩ := (C34_ctor (sampleGrid it) u).1 (by rw [hu, (sampleGrid_lists it).1]; rfl)
  refine ⟨I, hI, ?_, ?_⟩
  · obtain ⟨-, x, h1, h2, -⟩ := C36_on_edge G.wellFormed hI (t := (0, 1, 4)) (by rw [(sampleGrid_lists it).2.2]; decide)
      (i := 0) (j := 2) (by decide) (1 / 3)
    exact ⟨x, h1, h2⟩
  · obtain ⟨-, x, h1, h2, -⟩ := C36_on_edge G.wellFormed hI (t := (4, 3, 0)) (by rw [(sampleGrid_lists it).2.2]; decide)
      (i := 2) (j := 0) (by decide) (1 / 3)
    exact ⟨x, h1, h2⟩

/-- boundary interpolation of temperatures `1` and `3` at the ends of the edge `(0, 1)` -/
example : ∃ B, P1BoundaryInterp.new ⟨[0, 1], [(0, 1)]⟩ ⟨[(0, 1), (1, 3)]⟩ = .ok B ∧ B.call (0, 1) (1 / 4) = .ok (5 / 2) ∧
    P1BoundaryInterp.new ⟨[0, 1], [(0, 1)]⟩ ⟨[(0, 1)]⟩ = .error .valueError := by
  have hB := (C45_boundary_ctor ⟨[0, 1], [(0, 1)]⟩ ⟨[(0, (1 : ℝ)), (1, 3)]⟩).1 rfl
  refine ⟨_, hB, ?_, (C45_boundary_ctor _ _).2 (by decide)⟩
  obtain ⟨I, hI, -⟩ := (C34_ctor (sampleGrid .insertion) [1, 3, 0, 0, 0, 0, 0, 0, 0]).1 (by rw [(sampleGrid_lists _).1]; rfl)
  rw [(C36_boundary _ _ hB hI (e := (0, 1)) (x := 1) (y := 3) rfl rfl rfl rfl (1 / 4)).1]
  norm_num

/-! ### C37–C45: Bell's element -/

/-- wrong numbers of parameters: of the vertices of a grid, of one vertex, of a triangle -/
example : C1Interpolation (sampleGrid it) (List.replicate 8 [1, 2, 3, 4, 5, 6]) = .error .valueError ∧
    C1Interpolation (sampleGrid it) (List.replicate 9 [1, 2, 3, 4, 5]) = .error .valueError ∧
    ∀ tv c, Bell.interpolation tv c ⟨List.replicate 17 0⟩ = .error .valueError := by
  refine ⟨(C45_c1_ctor _ _).2 ?_, (C45_c1_ctor _ _).2 ?_, fun tv c => (C45_bell tv c _ (by simp)).1⟩
  · rintro ⟨h, -⟩; rw [(sampleGrid_lists it).1] at h; simp at h
  · rintro ⟨-, h⟩; have := h _ (List.mem_replicate.2 ⟨by decide, rfl⟩); simp at this

/-- data `(1, 2, 3, 4, 5, 6)` at every vertex of the sample grid: the interpolation has these as value and derivatives at each vertex
of each triangle, its value and gradient do not depend on the triangle used to evaluate them on a common edge -/
example : ∃ I, C1Interpolation (sampleGrid it) (List.replicate 9 [1, 2, 3, 4, 5, 6]) = .ok I ∧
    I.call (0, 1, 4) (vertexCoords 1) = .ok 1 ∧ I.gradient (0, 1, 4) (vertexCoords 1) = .ok (vecOf ![2, 3]) ∧
    I.hessian (0, 1, 4) (vertexCoords 1) = .ok (matOf !![4, 5; 5, 6]) ∧
    (∃ x y, I.call (0, 1, 4) (edgeCoords 0 2 (1 / 3)) = .ok x ∧ I.call (4, 3, 0) (edgeCoords 2 0 (1 / 3)) = .ok x ∧
      I.gradient (0, 1, 4) (edgeCoords 0 2 (1 / 3)) = .ok y ∧ I.gradient (4, 3, 0) (edgeCoords 2 0 (1 / 3)) = .ok y) ∧
    (EuclInterp.mk I).call (1 / 2) 1 = .ok 1 := by
  have G := sampleGrid_library it
  obtain ⟨I, hI, -⟩ := (C45_c1_ctor (sampleGrid it) (List.replicate 9 [1, 2, 3, 4, 5, 6])).1
    ⟨by rw [(sampleGrid_lists it).1]; rfl, fun p hp => by rw [List.eq_of_mem_replicate hp]; rfl⟩
  have m1 : ((0, 1, 4) : Tri) ∈ (sampleGrid it).triangles := by rw [(sampleGrid_lists it).2.2]; decide
  have m2 : ((4, 3, 0) : Tri) ∈ (sampleGrid it).triangles := by rw [(sampleGrid_lists it).2.2]; decide
  obtain ⟨a, b, c, d, e, f, h1, h2, h3, h4⟩ := C37_grid G.wellFormed hI m1 (G.nondegenerate m1) 1
  have h1' : some [1, 2, 3, 4, 5, 6] = some [a, b, c, d, e, f] := h1
  simp only [Option.some.injEq, List.cons.injEq, and_true] at h1'
  obtain ⟨rfl, rfl, rfl, rfl, rfl, rfl⟩ := h1'
  refine ⟨I, hI, h2, h3, h4, ?_, ?_⟩
  · refine C40_grid G hI m1 m2 ?_ ?_ ?_
    · constructor <;> norm_num [baryOf, show ¬(1 : Fin 3) = 2 by decide, show ¬(2 : Fin 3) = 0 by decide,
        show ¬(0 : Fin 3) = 2 by decide, edgeCoords, Bary.Normalized]
    · constructor <;> norm_num [baryOf, show ¬(1 : Fin 3) = 2 by decide, show ¬(2 : Fin 3) = 0 by decide,
        show ¬(0 : Fin 3) = 2 by decide, edgeCoords, Bary.Normalized]
    · rw [(C41_grid G.wellFormed hI m1 (G.nondegenerate m1) (i := 0) (j := 2) (by decide) (1 / 3)).1,
        (C41_grid G.wellFormed hI m2 (G.nondegenerate m2) (i := 2) (j := 0) (by decide) (1 / 3)).1]
      rfl
  · obtain ⟨a, b, c, d, e, f, k1, k2, -⟩ := (C44_vertices G (by norm_num) (sampleGrid_points it).2.2.2.2.2.2.2.1).2 _ _ hI
    have k1' : some [1, 2, 3, 4, 5, 6] = some [a, b, c, d, e, f] := k1
    simp only [Option.some.injEq, List.cons.injEq, and_true] at k1'
    rw [k2, ← k1'.1]

/-! ### C16, C43: location of points, refined interpolations -/

/-- the centre of a triangle is located in this triangle, a vertex in a triangle with this vertex, a point next to the rectangle
nowhere -/
example : (sampleGrid it).toBarycentricPoint (vec2 ((sampleGrid it).pointAt (1, 2, 5) ⟨1 / 3, 1 / 3, 1 / 3⟩)) =
      .ok (some ⟨(1, 2, 5), ⟨1 / 3, 1 / 3, 1 / 3⟩⟩) ∧
    (∃ t ∈ (sampleGrid it).triangles, ∃ k, t.get k = 8 ∧
      (sampleGrid it).toBarycentricPoint (vec2 (1, 1)) = .ok (some ⟨t, vertexCoords k⟩)) ∧
    (sampleGrid it).toBarycentricPoint (vec2 (-1, 0)) = .ok none := by
  have G := sampleGrid_library it
  exact ⟨C16_interior G (by rw [(sampleGrid_lists it).2.2]; decide) (by norm_num [Bary.Normalized]) (by norm_num) (by norm_num)
    (by norm_num), C16_vertex_exact G (by norm_num) (sampleGrid_points it).2.2.2.2.2.2.2.2,
    C16_outside G (Or.inl (by norm_num))⟩

/-- the refined interpolation of P1 data, at the centre of a fine triangle, has the value of the coarse interpolation at this point -/
example (u : List ℝ) (hu : u.length = 9) : ∃ r I, sampleDomain.refine (sampleGrid it) 2 = .ok r ∧
    P1Interpolation (sampleGrid it) u = .ok I ∧ ∀ f ∈ r.toGrid.triangles, ∃ t ∈ (sampleGrid it).triangles, ∃ c : Bary ℝ, ∃ x,
      c.Inside ∧ (RefinedInterpolation I r).call f ⟨1 / 3, 1 / 3, 1 / 3⟩ = .ok x ∧ I.call t c = .ok x := by
  have G := sampleGrid_library it
  obtain ⟨r, hr, -⟩ := C22_refine G sampleDomain (n := 2) (by norm_num) (by norm_num)
  obtain ⟨I, hI, -⟩ := (C34_ctor (sampleGrid it) u).1 (by rw [hu, (sampleGrid_lists it).1]; rfl)
  refine ⟨r, I, hr, hI, fun f hf => ?_⟩
  have hc : (⟨1 / 3, 1 / 3, 1 / 3⟩ : Bary ℝ).Inside := by constructor <;> norm_num [Bary.Normalized]
  obtain ⟨t, ht, c', -, h2, h3, -⟩ := C43_same_point G (by norm_num) (by norm_num) hr I hf hc.1
  obtain ⟨x, h4, h5⟩ := C43_p1 G (by norm_num) (by norm_num) hr hI hf hc ht (h2 hc) h3
  exact ⟨t, ht, c', x, h2 hc, h4, h5⟩

/-- the refinement of the sample grid by 2, evaluated at a Euclidean point -/
example (coarse : Interp) : ∃ r, sampleDomain.refine (sampleGrid it) 2 = .ok r ∧
    ∃ t ∈ (sampleGrid it).triangles, ∃ c : Bary ℝ, c.Normalized ∧ (sampleGrid it).pointAt t c = (2 / 3, 1 / 5) ∧
      (EuclInterp.mk (RefinedInterpolation coarse r)).call (2 / 3) (1 / 5) = coarse.call t c := by
  have G := sampleGrid_library it
  obtain ⟨r, hr, -⟩ := C22_refine G sampleDomain (n := 2) (by norm_num) (by norm_num)
  obtain ⟨t, ht, c, h1, h2, h3, -⟩ := (C43_euclidean G (n := 2) (by norm_num) (by norm_num) hr coarse (2 / 3) (1 / 5)).1
    (by norm_num) (by norm_num)
  exact ⟨r, hr, t, ht, c, h1, h2, h3⟩

end Tve
