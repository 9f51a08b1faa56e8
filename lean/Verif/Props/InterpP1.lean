import Verif.Lemmas.Interp
import Verif.Props.Refine

/-!
# C34 – C36: piecewise affine interpolation
-/

namespace Tve
open Bell

theorem LibraryGrid.nondegenerate {g : Grid ℝ} {nx ny : ℕ} {s : ℝ} (G : LibraryGrid g nx ny s) {t : Tri}
    (ht : t ∈ g.triangles) : Nondegenerate (g.corners t) := by
  obtain ⟨p, q, r, h1, h2, h3, -, -, -, h⟩ := (C22_structure G).2.2.2.2.2.2.2 t ht
  have : cross (g.corners t 0) (g.corners t 1) (g.corners t 2) = cross p q r := by
    simp only [Grid.corners, Tri.get, Matrix.cons_val_zero, Matrix.cons_val_one, Matrix.cons_val]
    rw [xy_of_at h1, xy_of_at h2, xy_of_at h3]
  rw [Nondegenerate, this]; exact h.ne'

section
variable {g : Grid ℝ} {u : List ℝ} {I : Interp} {t : Tri}

/-! ### C34 -/

/-- The constructor raises `ValueError` exactly when the number of parameters differs from the number of vertices. -/
theorem C34_ctor (g : Grid ℝ) (u : List ℝ) :
    (u.length = g.vertices.length → ∃ I, P1Interpolation g u = .ok I ∧ I.grid = g) ∧
    (u.length ≠ g.vertices.length → P1Interpolation g u = .error .valueError) := by
  constructor
  · intro h; exact ⟨_, by rw [P1Interpolation, if_neg (not_not.2 h)], rfl⟩
  · intro h; rw [P1Interpolation, if_pos h]

/-- second derivatives of a piecewise affine function raise `NotImplementedError` -/
theorem C34_hessian (hI : P1Interpolation g u = .ok I) (t : Tri) (c : Bary ℝ) :
    I.hessian t c = .error .notImplemented := by
  rw [(P1_of hI).2]; rfl

/-- At the vertices the interpolation takes the given values. -/
theorem C34_vertex_values (W : g.WellFormed) (hI : P1Interpolation g u = .ok I) (ht : t ∈ g.triangles) (k : Fin 3) :
    ∃ x, u[t.get k]? = some x ∧ I.call t (vertexCoords k) = .ok x := by
  obtain ⟨hu, rfl⟩ := P1_of hI
  refine ⟨_, getElem?_of_getD (WF.len W hu (WF.mem_get W ht k)) 0, ?_⟩
  simp only
  rw [P1_call_eq W hu ht]
  fin_cases k <;> simp [vertexCoords, baryOf, Tri.get]

/-- On each triangle the interpolation is an affine function of the point of the plane, and the gradient consists of its
coefficients. -/
theorem C34_affine (W : g.WellFormed) (hI : P1Interpolation g u = .ok I) (ht : t ∈ g.triangles)
    (hd : Nondegenerate (g.corners t)) :
    ∃ a bx cy : ℝ, ∀ c : Bary ℝ, c.Normalized →
      I.call t c = .ok (a + bx * (g.pointAt t c).1 + cy * (g.pointAt t c).2) ∧
      I.gradient t c = .ok (vecOf ![bx, cy]) := by
  obtain ⟨hu, rfl⟩ := P1_of hI
  refine ⟨∑ j, u.getD (t.get j) 0 * (((g.corners t (j + 1)).1 * (g.corners t (j + 2)).2 -
      (g.corners t (j + 2)).1 * (g.corners t (j + 1)).2) / twoD (g.corners t)), _, _, fun c hc => ⟨?_,
    P1_gradient_eq W hu ht hd c⟩⟩
  have hl : lam (g.corners t) (g.pointAt t c) = ![c.l1, c.l2, c.l3] := by
    rw [pointAt_eq]; exact lam_pointOf hd hc
  have e1 : c.l1 = lam (g.corners t) (g.pointAt t c) 0 := by rw [hl]; rfl
  have e2 : c.l2 = lam (g.corners t) (g.pointAt t c) 1 := by rw [hl]; rfl
  have e3 : c.l3 = lam (g.corners t) (g.pointAt t c) 2 := by rw [hl]; rfl
  simp only
  rw [P1_call_eq W hu ht]
  congr 1
  have key : c.l1 * u.getD t.1 0 + c.l2 * u.getD t.2.1 0 + c.l3 * u.getD t.2.2 0 =
      ∑ j, lam (g.corners t) (g.pointAt t c) j * u.getD (t.get j) 0 := by
    rw [Fin.sum_univ_three, ← e1, ← e2, ← e3]; rfl
  rw [key]
  simp only [lam, Finset.sum_mul, ← Finset.sum_add_distrib]
  exact Finset.sum_congr rfl fun j _ => by ring

/-- Affine functions are reproduced exactly, together with their gradient. -/
theorem C34_reproduces_affine (W : g.WellFormed) (hI : P1Interpolation g u = .ok I) (ht : t ∈ g.triangles)
    (hd : Nondegenerate (g.corners t)) (a bx cy : ℝ)
    (hdata : ∀ v q, g.At v q → u[v]? = some (a + bx * q.1 + cy * q.2)) (c : Bary ℝ) (hc : c.Normalized) :
    I.call t c = .ok (a + bx * (g.pointAt t c).1 + cy * (g.pointAt t c).2) ∧
    I.gradient t c = .ok (vecOf ![bx, cy]) := by
  obtain ⟨hu, rfl⟩ := P1_of hI
  have hval : ∀ k, u.getD (t.get k) 0 = a + bx * (g.corners t k).1 + cy * (g.corners t k).2 := by
    intro k
    have := hdata _ _ (WF.at_xy W (WF.mem_get W ht k))
    rw [List.getD_eq_getElem?_getD, this]; rfl
  simp only
  rw [P1_call_eq W hu ht, P1_gradient_eq W hu ht hd]
  have hd' : twoD (g.corners t) ≠ 0 := hd
  constructor
  · congr 1
    have h0 := hval 0
    have h1 := hval 1
    have h2 := hval 2
    simp only [Tri.get, Matrix.cons_val_zero, Matrix.cons_val_one, Matrix.cons_val] at h0 h1 h2
    rw [h0, h1, h2]
    simp only [Grid.pointAt, baryPoint, Grid.corners, Tri.get, Matrix.cons_val_zero, Matrix.cons_val_one, Matrix.cons_val,
      Prod.fst_add, Prod.snd_add, Prod.smul_fst, Prod.smul_snd, smul_eq_mul]
    have e : c.l1 + c.l2 + c.l3 = 1 := hc
    linear_combination a * e
  · have e1 : ∑ j, bb (g.corners t) j * u.getD (t.get j) 0 / twoD (g.corners t) = bx := by
      simp only [hval]
      rw [← Finset.sum_div, div_eq_iff hd', Fin.sum_univ_three]
      simp [bb, twoD, cross]; ring
    have e2 : ∑ j, cc (g.corners t) j * u.getD (t.get j) 0 / twoD (g.corners t) = cy := by
      simp only [hval]
      rw [← Finset.sum_div, div_eq_iff hd', Fin.sum_univ_three]
      simp [cc, twoD, cross]; ring
    rw [e1, e2]

/-- Inside a triangle the value lies between the smallest and the largest value at its vertices. -/
theorem C34_bounds (W : g.WellFormed) (hI : P1Interpolation g u = .ok I) (ht : t ∈ g.triangles) (c : Bary ℝ)
    (hc : c.Inside) (lo hi : ℝ) (hlo : ∀ k x, u[t.get k]? = some x → lo ≤ x) (hhi : ∀ k x, u[t.get k]? = some x → x ≤ hi) :
    ∃ y, I.call t c = .ok y ∧ lo ≤ y ∧ y ≤ hi := by
  obtain ⟨hu, rfl⟩ := P1_of hI
  refine ⟨_, P1_call_eq W hu ht c, ?_⟩
  have hg : ∀ k, u[t.get k]? = some (u.getD (t.get k) 0) := fun k => getElem?_of_getD (WF.len W hu (WF.mem_get W ht k)) 0
  obtain ⟨hs, h1, h2, h3⟩ := hc
  have hs : c.l1 + c.l2 + c.l3 = 1 := hs
  have a1 := hlo 0 _ (hg 0)
  have a2 := hlo 1 _ (hg 1)
  have a3 := hlo 2 _ (hg 2)
  have b1 := hhi 0 _ (hg 0)
  have b2 := hhi 1 _ (hg 1)
  have b3 := hhi 2 _ (hg 2)
  simp only [Tri.get, Matrix.cons_val_zero, Matrix.cons_val_one, Matrix.cons_val] at a1 a2 a3 b1 b2 b3
  constructor
  · have e : lo = c.l1 * lo + c.l2 * lo + c.l3 * lo := by linear_combination -lo * hs
    rw [e]
    exact add_le_add (add_le_add (mul_le_mul_of_nonneg_left a1 h1) (mul_le_mul_of_nonneg_left a2 h2))
      (mul_le_mul_of_nonneg_left a3 h3)
  · have e : hi = c.l1 * hi + c.l2 * hi + c.l3 * hi := by linear_combination -hi * hs
    rw [e]
    exact add_le_add (add_le_add (mul_le_mul_of_nonneg_left b1 h1) (mul_le_mul_of_nonneg_left b2 h2))
      (mul_le_mul_of_nonneg_left b3 h3)

theorem P1_sum_weight {u : List ℝ} {N : ℕ} {t : Tri} (h : t.1 < N ∧ t.2.1 < N ∧ t.2.2 < N) (c : Bary ℝ) :
    c.l1 * u.getD t.1 0 + c.l2 * u.getD t.2.1 0 + c.l3 * u.getD t.2.2 0 =
      ∑ v ∈ Finset.range N, weightOf t c v * u.getD v 0 := by
  simp only [weightOf, add_mul, ite_mul, zero_mul, Finset.sum_add_distrib]
  rw [Finset.sum_ite_eq, Finset.sum_ite_eq, Finset.sum_ite_eq]
  simp [h]

/-- The interpolation is a function of the point of the plane: wherever two triangles of the grid meet (a common edge or
vertex) they give the same value. -/
theorem C34_well_defined {nx ny : ℕ} {s : ℝ} (G : LibraryGrid g nx ny s) (hI : P1Interpolation g u = .ok I) {t' : Tri}
    (ht : t ∈ g.triangles) (ht' : t' ∈ g.triangles) {c c' : Bary ℝ} (hc : c.Inside) (hc' : c'.Inside)
    (h : g.pointAt t c = g.pointAt t' c') : ∃ x, I.call t c = .ok x ∧ I.call t' c' = .ok x := by
  obtain ⟨hu, rfl⟩ := P1_of hI
  have W := G.wellFormed
  refine ⟨_, P1_call_eq W hu ht c, ?_⟩
  simp only
  rw [P1_call_eq W hu ht' c']
  congr 1
  have key : ∀ {τ : Tri}, τ ∈ g.triangles → τ.1 < g.points.length ∧ τ.2.1 < g.points.length ∧ τ.2.2 < g.points.length :=
    fun hτ => ⟨WF.lt W (W.triangles _ hτ).1, WF.lt W (W.triangles _ hτ).2.1, WF.lt W (W.triangles _ hτ).2.2⟩
  rw [P1_sum_weight (key ht) c, P1_sum_weight (key ht') c']
  exact Finset.sum_congr rfl fun v _ => by rw [weight_unique G ht ht' hc hc' h v]

/-! ### C35 -/

/-- The gradient is the derivative of the interpolation as a function of the point of the plane. -/
theorem C35_derivative (W : g.WellFormed) (hI : P1Interpolation g u = .ok I) (ht : t ∈ g.triangles)
    (hd : Nondegenerate (g.corners t)) :
    ∃ f fx fy : ℝ × ℝ → ℝ, (∀ z, HasFDerivAt f (lin (fx z) (fy z)) z) ∧ ∀ c : Bary ℝ, c.Normalized →
      I.call t c = .ok (f (g.pointAt t c)) ∧
      I.gradient t c = .ok (vecOf ![fx (g.pointAt t c), fy (g.pointAt t c)]) := by
  obtain ⟨a, bx, cy, h⟩ := C34_affine W hI ht hd
  refine ⟨fun z => a + bx * z.1 + cy * z.2, fun _ => bx, fun _ => cy, ?_, h⟩
  intro z
  have e : (fun z : ℝ × ℝ => a + bx * z.1 + cy * z.2) = fun z => lin bx cy z + a := by
    funext z; simp [lin]; ring
  rw [e]
  exact (ContinuousLinearMap.hasFDerivAt _).add_const _

/-! ### C36 -/

theorem edgeCoords_normalized {i j : Fin 3} (hij : i ≠ j) (s : ℝ) : (edgeCoords i j s).Normalized := by
  fin_cases i <;> fin_cases j <;> simp_all [edgeCoords, baryOf, Bary.Normalized]

theorem edgeCoords_inside {i j : Fin 3} (hij : i ≠ j) {s : ℝ} (h0 : 0 ≤ s) (h1 : s ≤ 1) : (edgeCoords i j s).Inside := by
  refine ⟨edgeCoords_normalized hij s, ?_⟩
  fin_cases i <;> fin_cases j <;> simp_all [edgeCoords, baryOf]

theorem pointAt_edgeCoords (g : Grid ℝ) (t : Tri) {i j : Fin 3} (hij : i ≠ j) (s : ℝ) :
    g.pointAt t (edgeCoords i j s) = edgePoint (g.xy (t.get i)) (g.xy (t.get j)) s := by
  fin_cases i <;> fin_cases j <;> simp_all [edgeCoords, baryOf, Grid.pointAt, baryPoint, edgePoint, Tri.get, add_comm]

/-- On the edge between two vertices of a triangle `on_edge` is the value of the interpolation in this triangle at the
point `s * p_i + (1 - s) * p_j`; reversing the edge and the parameter gives the same value. -/
theorem C36_on_edge (W : g.WellFormed) (hI : P1Interpolation g u = .ok I) (ht : t ∈ g.triangles) {i j : Fin 3}
    (hij : i ≠ j) (s : ℝ) :
    g.pointAt t (edgeCoords i j s) = edgePoint (g.xy (t.get i)) (g.xy (t.get j)) s ∧
    ∃ x, I.onEdge (t.get i, t.get j) s = .ok x ∧ I.call t (edgeCoords i j s) = .ok x ∧
      I.onEdge (t.get j, t.get i) (1 - s) = .ok x := by
  refine ⟨pointAt_edgeCoords g t hij s, ?_⟩
  obtain ⟨hu, rfl⟩ := P1_of hI
  have hg : ∀ k, pyGet u (t.get k) = .ok (u.getD (t.get k) 0) := fun k => pyGet_getD (WF.len W hu (WF.mem_get W ht k)) 0
  refine ⟨_, by simp only [P1.onEdge, hg, bind_ok, pure_eq_ok]; rfl, ?_, ?_⟩
  · simp only
    rw [P1_call_eq W hu ht]
    congr 1
    fin_cases i <;> fin_cases j <;> simp_all [edgeCoords, baryOf, Tri.get] <;> ring
  · simp only [P1.onEdge, hg, bind_ok, pure_eq_ok]
    congr 1; ring

/-- `on_edge` agrees in both triangles that share the edge: it only depends on the edge. A boundary interpolation whose
parameters are the values at the boundary vertices agrees with `on_edge`. -/
theorem C36_boundary (b : Boundary) (d : PyDict Vertex ℝ) {B : P1BoundaryInterp} (hB : P1BoundaryInterp.new b d = .ok B)
    (hI : P1Interpolation g u = .ok I) {e : Edge} {x y : ℝ} (h1 : u[e.1]? = some x) (h2 : u[e.2]? = some y)
    (hd1 : d.get e.1 = .ok x) (hd2 : d.get e.2 = .ok y) (s : ℝ) :
    B.call e s = .ok (s * x + (1 - s) * y) ∧ I.onEdge e s = .ok (s * x + (1 - s) * y) := by
  obtain ⟨hu, rfl⟩ := P1_of hI
  unfold P1BoundaryInterp.new at hB
  split_ifs at hB
  cases hB
  constructor
  · simp only [P1BoundaryInterp.call, hd1, hd2, bind_ok, pure_eq_ok]
  · simp only [P1.onEdge, pyGet_eq_ok.2 h1, pyGet_eq_ok.2 h2, bind_ok, pure_eq_ok]

end

/-! ### the hypotheses are satisfiable -/

/-- Every grid of the library carries, for every choice of one value per vertex, an interpolation to which C34 – C36
apply. -/
example {g : Grid ℝ} {nx ny : ℕ} {s : ℝ} (G : LibraryGrid g nx ny s) (f : Vertex → ℝ) {t : Tri} (ht : t ∈ g.triangles) :
    ∃ I, P1Interpolation g (g.vertices.map f) = .ok I ∧ g.WellFormed ∧ Nondegenerate (g.corners t) ∧
      ∀ k, I.call t (vertexCoords k) = .ok (f (t.get k)) := by
  obtain ⟨I, hI, -⟩ := (C34_ctor g (g.vertices.map f)).1 (by simp)
  refine ⟨I, hI, G.wellFormed, G.nondegenerate ht, fun k => ?_⟩
  obtain ⟨x, hx, e⟩ := C34_vertex_values G.wellFormed hI ht k
  have hm := WF.mem_get G.wellFormed ht k
  rw [G.wellFormed.vertices] at hx hm
  rw [List.mem_range] at hm
  simp [hm] at hx
  rw [e, hx]

/-- On the sample grid with the values `2x + 6y`, i.e. `0, 1, …, 8` at the nine vertices: the interpolation is this function
on every triangle, and its gradient is `(2, 6)`. At the centroid of the triangle `(4, 5, 8)` its value is `17/3`. -/
example (it : SetIter) : ∃ I, P1Interpolation (sampleGrid it) [0, 1, 2, 3, 4, 5, 6, 7, 8] = .ok I ∧
    I.call (4, 5, 8) ⟨1 / 3, 1 / 3, 1 / 3⟩ = .ok (17 / 3) ∧
    I.gradient (4, 5, 8) ⟨1 / 3, 1 / 3, 1 / 3⟩ = .ok (vecOf ![2, 6]) := by
  have G := sampleGrid_library it
  obtain ⟨h1, -, h3⟩ := sampleGrid_lists it
  obtain ⟨-, -, -, -, p4, p5, -, -, p8⟩ := sampleGrid_points it
  obtain ⟨I, hI, -⟩ := (C34_ctor (sampleGrid it) [0, 1, 2, 3, 4, 5, 6, 7, 8]).1 (by rw [h1]; rfl)
  have ht : (4, 5, 8) ∈ (sampleGrid it).triangles := by rw [h3]; decide
  have h := C34_reproduces_affine G.wellFormed hI ht (G.nondegenerate ht) 0 2 6 (fun v q hq => by
    obtain ⟨i, j, hi, hj, rfl, rfl⟩ := (C10_points (by norm_num [sampleDomain]) (by norm_num [sampleDomain]) (by norm_num)
      (sampleGrid_eq it) v q).1 hq
    rw [sample_cells.1] at hi
    rw [sample_cells.2] at hj
    rw [sample_cells.1]
    interval_cases i <;> interval_cases j <;> norm_num) ⟨1 / 3, 1 / 3, 1 / 3⟩ (by norm_num [Bary.Normalized])
  refine ⟨I, hI, ?_, h.2⟩
  rw [h.1]
  simp only [Grid.pointAt, xy_of_at p4, xy_of_at p5, xy_of_at p8, baryPoint]
  norm_num

end Tve
