import Verif.Lemmas.SimilarObjective
import Verif.Lemmas.EnergySim
import Verif.Props.BellUnique

/-!
# The Bell interpolation of the image of a deformation
-/

namespace Tve
open Bell MvPolynomial

/-! ### points inside a triangle -/

/-- the coordinates of a point of the open triangle -/
def Bary.Inner (c : Bary ℝ) : Prop := c.Normalized ∧ 0 < c.l1 ∧ 0 < c.l2 ∧ 0 < c.l3

theorem Bary.Inner.inside {c : Bary ℝ} (h : c.Inner) : c.Inside := ⟨h.1, h.2.1.le, h.2.2.1.le, h.2.2.2.le⟩

section
variable {g : Grid ℝ} {nx ny : ℕ} {s : ℝ}

theorem LibraryGrid.distinct (G : LibraryGrid g nx ny s) {t : Tri} (ht : t ∈ g.triangles) :
    t.1 ≠ t.2.1 ∧ t.2.1 ≠ t.2.2 ∧ t.1 ≠ t.2.2 := by
  have h : cross (g.xy t.1) (g.xy t.2.1) (g.xy t.2.2) ≠ 0 := G.nondeg ht
  refine ⟨fun e => h ?_, fun e => h ?_, fun e => h ?_⟩ <;> rw [e] <;> simp only [cross] <;> ring

theorem inner_unique (G : LibraryGrid g nx ny s) {t t' : Tri} (ht : t ∈ g.triangles) (ht' : t' ∈ g.triangles) {c c' : Bary ℝ}
    (hc : c.Inner) (hc' : c'.Inside) (h : g.pointAt t c = g.pointAt t' c') : t = t' ∧ c = c' := by
  have hw := weight_unique G ht ht' hc.inside hc' h
  obtain ⟨d1, d2, d3⟩ := G.distinct ht
  obtain ⟨-, p1, p2, p3⟩ := hc
  have w1 := hw t.1
  have w2 := hw t.2.1
  have w3 := hw t.2.2
  have z : ∀ v, weightOf t' c' v ≠ 0 → v ∈ t'.vertexSet := by
    intro v hv
    by_contra hn
    simp only [Tri.vertexSet, Finset.mem_insert, Finset.mem_singleton, not_or] at hn
    exact hv (by simp [weightOf, Ne.symm hn.1, Ne.symm hn.2.1, Ne.symm hn.2.2])
  simp only [weightOf, if_true, d1, d1.symm, d2, d2.symm, d3, d3.symm, if_false, add_zero, zero_add] at w1 w2 w3
  have hset : t.vertexSet = t'.vertexSet := by
    refine Finset.eq_of_subset_of_card_le ?_ ?_
    · intro v hv
      simp only [Tri.vertexSet, Finset.mem_insert, Finset.mem_singleton] at hv
      rcases hv with rfl | rfl | rfl
      · exact z _ (by rw [weightOf, ← w1]; exact p1.ne')
      · exact z _ (by rw [weightOf, ← w2]; exact p2.ne')
      · exact z _ (by rw [weightOf, ← w3]; exact p3.ne')
    · refine Finset.card_le_three.trans ?_
      rw [Tri.vertexSet, Finset.card_eq_three.2 ⟨_, _, _, d1, d3, d2, rfl⟩]
  obtain ⟨P, dg, E, T, BV, BE, L⟩ := G.lattice
  obtain rfl := List.inj_on_of_nodup_map L.nodup_vertexSet ht ht' hset
  simp only [if_true, d1, d1.symm, d2, d2.symm, d3, d3.symm, if_false, add_zero, zero_add] at w1 w2 w3
  refine ⟨rfl, ?_⟩
  obtain ⟨a, b, c⟩ := c
  obtain ⟨a', b', c'⟩ := c'
  simp only at w1 w2 w3
  rw [w1, w2, w3]

/-- an inner point of a fine triangle is an inner point of the coarse triangle -/
theorem coarse_inner (G : LibraryGrid g nx ny s) {n : ℕ} (hn : 1 ≤ n) (hs : 1 / 10 ^ 15 ≤ s / n) {d : RectDomain ℝ}
    {r : RefinedGrid ℝ} (hr : d.refine g n = .ok r) {f : Tri} (hf : f ∈ r.toGrid.triangles) {b : Bary ℝ} (hb : b.Inner) :
    ∃ t ∈ g.triangles, ∃ c : Bary ℝ, c.Inner ∧ g.pointAt t c = r.toGrid.pointAt f b ∧
      ∀ coarse : Interp, (RefinedInterpolation coarse r).call f b = coarse.call t c ∧
        (RefinedInterpolation coarse r).gradient f b = coarse.gradient t c ∧
        (RefinedInterpolation coarse r).hessian f b = coarse.hessian t c := by
  obtain ⟨t, ht, -, hsub, -, hcr⟩ := C27_fine_triangle G hn hs hr f hf
  have Wr := (LibraryGrid.refine G hn hs hr).wellFormed
  have W := G.wellFormed
  obtain ⟨v1, v2, v3⟩ := Wr.triangles f hf
  obtain ⟨u1, u2, u3⟩ := W.triangles t ht
  have e : g.region t = closedTriangle (g.xy t.1) (g.xy t.2.1) (g.xy t.2.2) :=
    region_eq (WF.at_xy W u1) (WF.at_xy W u2) (WF.at_xy W u3)
  have er : r.toGrid.region f = closedTriangle (r.toGrid.xy f.1) (r.toGrid.xy f.2.1) (r.toGrid.xy f.2.2) :=
    region_eq (WF.at_xy Wr v1) (WF.at_xy Wr v2) (WF.at_xy Wr v3)
  rw [e, er] at hsub
  have m1 := hsub (show r.toGrid.xy f.1 ∈ closedTriangle _ _ _ from ⟨1, 0, 0, by norm_num, by norm_num, by norm_num, by norm_num, by
    simp [baryPoint]⟩)
  have m2 := hsub (show r.toGrid.xy f.2.1 ∈ closedTriangle _ _ _ from ⟨0, 1, 0, by norm_num, by norm_num, by norm_num, by norm_num, by
    simp [baryPoint]⟩)
  have m3 := hsub (show r.toGrid.xy f.2.2 ∈ closedTriangle _ _ _ from ⟨0, 0, 1, by norm_num, by norm_num, by norm_num, by norm_num, by
    simp [baryPoint]⟩)
  obtain ⟨a1, b1, c1, x1, y1, z1, s1, q1⟩ := m1
  obtain ⟨a2, b2, c2, x2, y2, z2, s2, q2⟩ := m2
  obtain ⟨a3, b3, c3, x3, y3, z3, s3, q3⟩ := m3
  obtain ⟨hb0, p1, p2, p3⟩ := hb
  rw [Bary.Normalized] at hb0
  have cr : cross (r.toGrid.xy f.1) (r.toGrid.xy f.2.1) (r.toGrid.xy f.2.2) =
      (a1 * (b2 * c3 - b3 * c2) - b1 * (a2 * c3 - a3 * c2) + c1 * (a2 * b3 - a3 * b2)) *
        cross (g.xy t.1) (g.xy t.2.1) (g.xy t.2.2) := by
    rw [q1, q2, q3]
    obtain rfl : c1 = 1 - a1 - b1 := by linarith
    obtain rfl : c2 = 1 - a2 - b2 := by linarith
    obtain rfl : c3 = 1 - a3 - b3 := by linarith
    simp only [cross, baryPoint, Prod.fst_add, Prod.snd_add, Prod.smul_fst, Prod.smul_snd, smul_eq_mul]
    ring
  set c : Bary ℝ := ⟨b.l1 * a1 + b.l2 * a2 + b.l3 * a3, b.l1 * b1 + b.l2 * b2 + b.l3 * b3, b.l1 * c1 + b.l2 * c2 + b.l3 * c3⟩ with hc
  have hpt : g.pointAt t c = r.toGrid.pointAt f b := by
    rw [Grid.pointAt, Grid.pointAt, q1, q2, q3]
    simp only [baryPoint, hc, Prod.ext_iff, Prod.fst_add, Prod.snd_add, Prod.smul_fst, Prod.smul_snd, smul_eq_mul]
    constructor <;> ring
  have zero : ∀ u v w : ℝ, 0 ≤ u → 0 ≤ v → 0 ≤ w → ¬ 0 < b.l1 * u + b.l2 * v + b.l3 * w → u = 0 ∧ v = 0 ∧ w = 0 := by
    intro u v w hu hv hw hn
    have k1 := mul_nonneg p1.le hu
    have k2 := mul_nonneg p2.le hv
    have k3 := mul_nonneg p3.le hw
    have l1 : b.l1 * u = 0 := by linarith
    have l2 : b.l2 * v = 0 := by linarith
    have l3 : b.l3 * w = 0 := by linarith
    exact ⟨(mul_eq_zero.1 l1).resolve_left p1.ne', (mul_eq_zero.1 l2).resolve_left p2.ne', (mul_eq_zero.1 l3).resolve_left p3.ne'⟩
  rw [cr] at hcr
  have hin : c.Inner := by
    refine ⟨?_, ?_, ?_, ?_⟩
    · rw [Bary.Normalized, hc]
      simp only
      linear_combination hb0 + b.l1 * s1 + b.l2 * s2 + b.l3 * s3
    · by_contra hn
      obtain ⟨rfl, rfl, rfl⟩ := zero _ _ _ x1 x2 x3 hn
      simp at hcr
    · by_contra hn
      obtain ⟨rfl, rfl, rfl⟩ := zero _ _ _ y1 y2 y3 hn
      simp at hcr
    · by_contra hn
      obtain ⟨rfl, rfl, rfl⟩ := zero _ _ _ z1 z2 z3 hn
      simp at hcr
  refine ⟨t, ht, c, hin, hpt, fun coarse => ?_⟩
  obtain ⟨t', ht', c', -, k1, k2, k3, k4, k5⟩ := C43_same_point G hn hs hr coarse hf (show b.Normalized from hb0)
  obtain ⟨rfl, rfl⟩ := inner_unique G ht ht' hin (k1 ⟨hb0, p1.le, p2.le, p3.le⟩) (hpt.trans k2.symm)
  exact ⟨k3, k4, k5⟩

end

/-! ### the Bell interpolation -/

/-- nodal values of `κ u + c` in coordinates multiplied by `κ` -/
noncomputable def scaleParam (κ c : ℝ) (p : Fin 6 → ℝ) : Fin 6 → ℝ :=
  ![κ * p 0 + c, p 1, p 2, p 3 / κ, p 4 / κ, p 5 / κ]

theorem isBell_affine {P : Fin 3 → ℝ × ℝ} {p : Fin 3 → Fin 6 → ℝ} {q : MvPolynomial (Fin 2) ℝ} (h : IsBell P p q) (κ c : ℝ) :
    IsBell P (fun m => ![κ * p m 0 + c, κ * p m 1, κ * p m 2, κ * p m 3, κ * p m 4, κ * p m 5])
      (MvPolynomial.C κ * q + MvPolynomial.C c) := by
  have e : ∀ k, pderiv k (MvPolynomial.C κ * q + MvPolynomial.C c) = MvPolynomial.C κ * pderiv k q := by
    intro k; simp [pderiv_C]
  have e2 : ∀ j k, pderiv j (MvPolynomial.C κ * pderiv k q) = MvPolynomial.C κ * pderiv j (pderiv k q) := by
    intro j k; simp [pderiv_C]
  refine ⟨?_, ?_, ?_⟩
  · refine (totalDegree_add _ _).trans (max_le ((totalDegree_mul _ _).trans ?_) ?_)
    · rw [totalDegree_C, zero_add]; exact h.degree
    · rw [totalDegree_C]; norm_num
  · intro m
    have hv := h.vertices m
    funext i
    have hi := congrFun hv
    simp only [nodal] at hi ⊢
    rw [e, e, e2, e2, e2]
    have h0 := hi 0; have h1 := hi 1; have h2 := hi 2; have h3 := hi 3; have h4 := hi 4; have h5 := hi 5
    simp only [Matrix.cons_val_zero, Matrix.cons_val_one, Matrix.cons_val, polyAt] at h0 h1 h2 h3 h4 h5
    fin_cases i <;> simp [polyAt, h0, h1, h2, h3, h4, h5]
  · intro i j
    obtain ⟨ρ, h1, h2⟩ := h.edges i j
    refine ⟨Polynomial.C κ * ρ, (Polynomial.natDegree_C_mul_le _ _).trans h1, fun t => ?_⟩
    rw [Polynomial.eval_mul, Polynomial.eval_C, ← h2 t]
    simp only [normalDerivative, e]
    simp only [polyAt, map_mul, eval_C]
    ring

section
variable {T : Similarity} {σ : Vertex → Vertex} {g g' : Grid ℝ}

/-- the gradient and the Hessian of a Bell interpolation and of its image -/
theorem SimilarMesh.c1_image (S : SimilarMesh T σ g g') (hsw : T.swap = false) {u u' : List (List ℝ)} (h6 : ∀ p ∈ u, p.length = 6)
    (hu : u.length = g.vertices.length) (h6' : ∀ p ∈ u', p.length = 6) (hu' : u'.length = g'.vertices.length) {c0 : ℝ}
    (hσ : ∀ v ∈ g.vertices, nodeParam u' (σ v) = scaleParam T.κ c0 (nodeParam u v)) {t : Tri} (ht : t ∈ g.triangles) {c : Bary ℝ}
    (hc : c.Normalized) :
    ∃ (G : Fin 2 → ℝ) (H : Matrix (Fin 2) (Fin 2) ℝ), C1.gradient g u t c = .ok (vecOf G) ∧
      C1.gradient g' u' (T.tri σ t) c = .ok (vecOf G) ∧ C1.hessian g u t c = .ok (matOf H) ∧
      C1.hessian g' u' (T.tri σ t) c = .ok (matOf (T.κ⁻¹ • H)) := by
  have k0 := S.ne
  obtain ⟨-, e2, e3⟩ := C1_call_eq S.wf h6 hu ht c
  obtain ⟨-, e2', e3'⟩ := C1_call_eq S.wf' h6' hu' (S.tri_mem ht) c
  have hget : ∀ m, (T.tri σ t).get m = σ (t.get m) := by
    intro m
    simp only [Similarity.tri, hsw, Bool.false_eq_true, if_false, Tri.get]
    fin_cases m <;> rfl
  have hcor : g'.corners (T.tri σ t) = fun m => affine (T.κ • 1) T.c (g.corners t m) := by
    funext m
    rw [Grid.corners, hget, S.xy _ (WF.mem_get S.wf ht m), Grid.corners]
    simp [Similarity.map, Similarity.dir, hsw, affine]
  have hpar : (fun m => nodeParam u' ((T.tri σ t).get m)) = fun m => scaleParam T.κ c0 (nodeParam u (t.get m)) := by
    funext m
    rw [hget, hσ _ (WF.mem_get S.wf ht m)]
  rw [e2, e3, e2', e3', hcor, hpar]
  set p : Fin 3 → Fin 6 → ℝ := fun m => nodeParam u (t.get m) with hp
  obtain ⟨q, hq, -⟩ := C104_unique (g.corners t) (S.nd t ht) p
  have hL : (![c.l1, c.l2, c.l3] : Fin 3 → ℝ) 0 + ![c.l1, c.l2, c.l3] 1 + ![c.l1, c.l2, c.l3] 2 = 1 := hc
  have hA : IsSimilarity (T.κ • (1 : Matrix (Fin 2) (Fin 2) ℝ)) :=
    ⟨T.κ ^ 2, pow_ne_zero _ k0, by rw [Matrix.transpose_smul, Matrix.transpose_one, smul_mul_smul_comm, one_mul, sq]⟩
  obtain ⟨-, a2, a3⟩ := C104_interpolation (g.corners t) (S.nd t ht) p hq _ hL
  obtain ⟨-, ⟨G', b1, b2⟩, H', b3, b4⟩ := C104_similar (g.corners t) (S.nd t ht) _ hA T.c (fun m => scaleParam T.κ c0 (p m)) _ hL
  have hpull : (fun m => pullback (T.κ • 1) (scaleParam T.κ c0 (p m))) =
      fun m => ![T.κ * p m 0 + c0, T.κ * p m 1, T.κ * p m 2, T.κ * p m 3, T.κ * p m 4, T.κ * p m 5] := by
    funext m i
    fin_cases i <;> simp [pullback, scaleParam, Matrix.mulVec, Matrix.mul_apply, dotProduct, Fin.sum_univ_two] <;> field_simp
  rw [hpull] at b2 b4
  obtain ⟨-, d2, d3⟩ := C104_interpolation (g.corners t) (S.nd t ht) _ (isBell_affine hq T.κ c0) _ hL
  have e : ∀ k, pderiv k (MvPolynomial.C T.κ * q + MvPolynomial.C c0) = MvPolynomial.C T.κ * pderiv k q := by
    intro k; simp [pderiv_C]
  have e2 : ∀ j k, pderiv j (MvPolynomial.C T.κ * pderiv k q) = MvPolynomial.C T.κ * pderiv j (pderiv k q) := by
    intro j k; simp [pderiv_C]
  have m : ∀ (f : MvPolynomial (Fin 2) ℝ) z, polyAt (MvPolynomial.C T.κ * f) z = T.κ * polyAt f z := by
    intro f z; simp [polyAt]
  rw [d2] at b2
  rw [d3] at b4
  have hG := vecOf_injective (Except.ok.inj b2)
  have hH := matOf_injective (Except.ok.inj b4)
  simp only [e, e2, m] at hG hH
  set z := pointOf (g.corners t) ![c.l1, c.l2, c.l3]
  refine ⟨_, _, a2, b1.trans ?_, a3, b3.trans ?_⟩
  · congr 2
    funext i
    have := congrFun hG i
    refine mul_left_cancel₀ k0 ?_
    fin_cases i <;> simp [Matrix.mulVec, dotProduct, Fin.sum_univ_two, k0] at this ⊢ <;> exact this.symm
  · congr 2
    ext i j
    have hs : (T.κ • (1 : Matrix (Fin 2) (Fin 2) ℝ)).transpose * H' * (T.κ • 1) = (T.κ * T.κ) • H' := by
      simp [smul_smul]
    rw [hs] at hH
    have := congrFun (congrFun hH i) j
    rw [Matrix.smul_apply, smul_eq_mul] at this ⊢
    refine mul_left_cancel₀ k0 (mul_left_cancel₀ k0 ?_)
    rw [mul_inv_cancel_left₀ k0, ← mul_assoc, ← this]
    fin_cases i <;> fin_cases j <;> rfl

theorem deformed_3 {y : NdArray} {n : ℕ} (h : y.Has [n, 2, 6]) (v : ℕ) : y.deformed v = (y.at3 2 6 v 0 0, y.at3 2 6 v 1 0) := by
  rw [NdArray.deformed, h.1]

/-- the interpolation with given nodal values -/
noncomputable def c1I (g : Grid ℝ) (u : List (List ℝ)) : Interp := ⟨g, C1.call g u, C1.gradient g u, C1.hessian g u, C1.onEdge g u⟩

theorem c1I_gradient (u : List (List ℝ)) (t : Tri) (c : Bary ℝ) : (c1I g u).gradient t c = C1.gradient g u t c := rfl
theorem c1I_hessian (u : List (List ℝ)) (t : Tri) (c : Bary ℝ) : (c1I g u).hessian t c = C1.hessian g u t c := rfl

theorem strain_of {I1 I2 : Interp} {t : Tri} {b : Bary ℝ} {G0 G1 : Fin 2 → ℝ} (h1 : I1.gradient t b = .ok (vecOf G0))
    (h2 : I2.gradient t b = .ok (vecOf G1)) : Deformation.strain ⟨I1, I2⟩ t b = .ok (matOf !![G0 0, G0 1; G1 0, G1 1]) := by
  have e : ∀ v : Fin 2 → ℝ, v = ![v 0, v 1] := fun v => by ext i; fin_cases i <;> rfl
  rw [Deformation.strain]
  simp only
  rw [h1, h2, bind_ok, bind_ok, e G0, e G1, stack_pairs]
  rfl

theorem hyper_of {I1 I2 : Interp} {t : Tri} {b : Bary ℝ} {H0 H1 : Matrix (Fin 2) (Fin 2) ℝ} (h1 : I1.hessian t b = .ok (matOf H0))
    (h2 : I2.hessian t b = .ok (matOf H1)) : Deformation.hyperStrain ⟨I1, I2⟩ t b = .ok (tenOf ![H0, H1]) := by
  rw [Deformation.hyperStrain]
  simp only
  rw [h1, h2, bind_ok, bind_ok]
  rfl

/-- the interpolations of the components of a deformation -/
theorem c1_deform (W : g.WellFormed) (r : RefinedGrid ℝ) {y : NdArray} (hy : y.Has [g.points.length, 2, 6]) :
    ∃ U : Fin 2 → List (List ℝ), (∀ i, ∀ p ∈ U i, p.length = 6) ∧ (∀ i, (U i).length = g.vertices.length) ∧
      (∀ i, ∀ v < g.points.length, ∀ j : Fin 6, nodeParam (U i) v j = y.at3 2 6 v i j) ∧
      deformOf g (some r) y = .ok ⟨RefinedInterpolation (c1I g (U 0)) r,
        RefinedInterpolation (c1I g (U 1)) r⟩ := by
  have hb0 := NdArray.block_eq hy (j := 0) (by norm_num)
  have hb1 := NdArray.block_eq hy (j := 1) (by norm_num)
  set U : ℕ → List (List ℝ) := fun j =>
    (List.range g.points.length).map fun i => (List.range 6).map fun k => y.at3 2 6 i j k with hU
  have h6 : ∀ j, ∀ p ∈ U j, p.length = 6 := by
    intro j p hp
    obtain ⟨i, -, rfl⟩ := List.mem_map.1 hp
    simp
  have hl : ∀ j, (U j).length = g.vertices.length := by intro j; simp [hU, length_vertices W]
  have hC : ∀ j, C1Interpolation g (U j) = .ok (c1I g (U j)) := by
    intro j
    obtain ⟨I, hI⟩ := C1_ok (g := g) (u := U j) (h6 j) (hl j)
    rw [hI, (C1_of hI).2.2]; rfl
  refine ⟨fun i => U i, fun i => h6 i, fun i => hl i, fun i v hv j => ?_, ?_⟩
  · rw [nodeParam, List.getD_eq_getElem?_getD, List.getD_eq_getElem?_getD]
    simp [hU, hv]
  · rw [deformOf, hb0, bind_ok, hb1, bind_ok]
    show RegMechModel.deformation g r (U 0) (U 1) = _
    rw [RegMechModel.deformation, hC, bind_ok, hC, bind_ok]
    rfl

section
variable {σr : Vertex → Vertex} {nx ny nx' ny' n n' : ℕ} {s s' : ℝ} {r r' : RefinedGrid ℝ} {d d' : RectDomain ℝ}

/-- corresponding inner points of corresponding fine triangles lie in corresponding coarse triangles -/
theorem coarse_image (S : SimilarMesh T σ g g') (R : SimilarMesh T σr r.toGrid r'.toGrid) (hsw : T.swap = false)
    (G : LibraryGrid g nx ny s) (hn : 1 ≤ n) (hs : 1 / 10 ^ 15 ≤ s / n) (hr : d.refine g n = .ok r)
    (G' : LibraryGrid g' nx' ny' s') (hn' : 1 ≤ n') (hs' : 1 / 10 ^ 15 ≤ s' / n') (hr' : d'.refine g' n' = .ok r')
    {f : Tri} (hf : f ∈ r.toGrid.triangles) {b : Bary ℝ} (hb : b.Inner) :
    ∃ t ∈ g.triangles, ∃ c : Bary ℝ, c.Normalized ∧ ∀ I I' : Interp,
      (RefinedInterpolation I r).gradient f b = I.gradient t c ∧ (RefinedInterpolation I r).hessian f b = I.hessian t c ∧
      (RefinedInterpolation I' r').gradient (T.tri σr f) b = I'.gradient (T.tri σ t) c ∧
      (RefinedInterpolation I' r').hessian (T.tri σr f) b = I'.hessian (T.tri σ t) c := by
  obtain ⟨t, ht, c, hc, k1, k2⟩ := coarse_inner G hn hs hr hf hb
  obtain ⟨t', ht', c', hc', k1', k2'⟩ := coarse_inner G' hn' hs' hr' (R.tri_mem hf) hb
  have mp : ∀ {h h' : Grid ℝ} {τ : Vertex → Vertex} (Q : SimilarMesh T τ h h') {u : Tri}, u ∈ h.triangles → ∀ {x : Bary ℝ},
      x.Normalized → h'.pointAt (T.tri τ u) x = T.map (h.pointAt u x) := by
    intro h h' τ Q u hu x hx
    obtain ⟨h1, h2, h3⟩ := Q.wf.triangles u hu
    rw [Bary.Normalized] at hx
    simp only [Grid.pointAt, Similarity.tri, hsw, Bool.false_eq_true, if_false]
    rw [Q.xy _ h1, Q.xy _ h2, Q.xy _ h3]
    simp only [Similarity.map, Similarity.dir, hsw, Bool.false_eq_true, if_false, baryPoint, Prod.ext_iff, Prod.fst_add, Prod.snd_add,
      Prod.smul_fst, Prod.smul_snd, smul_eq_mul]
    constructor
    · linear_combination T.c.1 * hx
    · linear_combination T.c.2 * hx
  have e : g'.pointAt t' c' = g'.pointAt (T.tri σ t) c := by
    rw [k1', mp S ht hc.1, mp R hf hb.1, k1]
  obtain ⟨rfl, rfl⟩ := inner_unique G' ht' (S.tri_mem ht) hc' hc.inside e
  exact ⟨t, ht, c', hc.1, fun I I' => ⟨(k2 I).2.1, (k2 I).2.2, (k2' I').2.1, (k2' I').2.2⟩⟩

/-- the strains and the hyperstrains of a deformation and of its image -/
theorem reg_image (S : SimilarMesh T σ g g') (R : SimilarMesh T σr r.toGrid r'.toGrid) (hsw : T.swap = false)
    (G : LibraryGrid g nx ny s) (hn : 1 ≤ n) (hs : 1 / 10 ^ 15 ≤ s / n) (hr : d.refine g n = .ok r)
    (G' : LibraryGrid g' nx' ny' s') (hn' : 1 ≤ n') (hs' : 1 / 10 ^ 15 ≤ s' / n') (hr' : d'.refine g' n' = .ok r')
    {y y' : NdArray} (hy : NdArray.ImageDeformationC1 T σ g.points.length y y') :
    ∃ (D D' : Deformation) (F : Tri → Bary ℝ → Matrix (Fin 2) (Fin 2) ℝ) (H : Tri → Bary ℝ → Fin 2 → Fin 2 → Fin 2 → ℝ),
      deformOf g (some r) y = .ok D ∧ deformOf g' (some r') y' = .ok D' ∧
      ∀ t ∈ r.toGrid.triangles, ∀ b : Bary ℝ, b.Inner → D.strain t b = .ok (matOf (F t b)) ∧
        D'.strain (T.tri σr t) b = .ok (matOf (F t b)) ∧ D.hyperStrain t b = .ok (tenOf (H t b)) ∧
        D'.hyperStrain (T.tri σr t) b = .ok (tenOf fun i j k => T.κ⁻¹ * H t b i j k) := by
  obtain ⟨y1, y2, yσ⟩ := hy
  obtain ⟨U, u1, u2, u3, u4⟩ := c1_deform S.wf r y1
  obtain ⟨U', u1', u2', u3', u4'⟩ := c1_deform S.wf' r' (y := y') (by rw [S.len]; exact y2)
  have node : ∀ i : Fin 2, ∀ v ∈ g.vertices, nodeParam (U' i) (σ v) =
      scaleParam T.κ (![T.c.1, T.c.2] i) (nodeParam (U i) v) := by
    intro i v hv
    obtain ⟨h1, h2⟩ := S.mem hv
    rw [← S.len] at h2
    obtain ⟨z1, z2⟩ := yσ v h1
    have z3 := z2 i i.2
    rw [deformed_3 y1, deformed_3 y2] at z1
    simp only [Similarity.map, Similarity.dir, hsw, Bool.false_eq_true, if_false, Prod.mk.injEq] at z1
    have w := u3 i v h1
    have w0 := w 0
    have w1 := w 1
    have w2 := w 2
    have w3 := w 3
    have w4 := w 4
    have w5 := w 5
    simp only [List.mem_cons, List.not_mem_nil, or_false, forall_eq_or_imp, forall_eq] at z3
    funext j
    rw [u3' i _ h2 j, scaleParam, w0, w1, w2, w3, w4, w5]
    obtain ⟨⟨a1, a2⟩, a3, a4, a5⟩ := z3
    fin_cases j
    · fin_cases i
      · exact z1.1
      · exact z1.2
    · exact a1
    · exact a2
    · exact a3
    · exact a4
    · exact a5
  have key : ∀ t b, ∃ (F : Matrix (Fin 2) (Fin 2) ℝ) (H : Fin 2 → Fin 2 → Fin 2 → ℝ), t ∈ r.toGrid.triangles → b.Inner →
      Deformation.strain ⟨RefinedInterpolation (c1I g (U 0)) r,
        RefinedInterpolation (c1I g (U 1)) r⟩ t b = .ok (matOf F) ∧
      Deformation.strain ⟨RefinedInterpolation (c1I g' (U' 0)) r',
        RefinedInterpolation (c1I g' (U' 1)) r'⟩
          (T.tri σr t) b = .ok (matOf F) ∧
      Deformation.hyperStrain ⟨RefinedInterpolation (c1I g (U 0)) r,
        RefinedInterpolation (c1I g (U 1)) r⟩ t b = .ok (tenOf H) ∧
      Deformation.hyperStrain ⟨RefinedInterpolation (c1I g' (U' 0)) r',
        RefinedInterpolation (c1I g' (U' 1)) r'⟩
          (T.tri σr t) b = .ok (tenOf fun i j k => T.κ⁻¹ * H i j k) := by
    intro f b
    by_cases h : f ∈ r.toGrid.triangles ∧ b.Inner
    · obtain ⟨hf, hb⟩ := h
      obtain ⟨t, ht, c, hc, hI⟩ := coarse_image S R hsw G hn hs hr G' hn' hs' hr' hf hb
      obtain ⟨G0, H0, a1, a2, a3, a4⟩ := S.c1_image hsw (u1 0) (u2 0) (u1' 0) (u2' 0) (node 0) ht hc
      obtain ⟨G1, H1, b1, b2, b3, b4⟩ := S.c1_image hsw (u1 1) (u2 1) (u1' 1) (u2' 1) (node 1) ht hc
      refine ⟨!![G0 0, G0 1; G1 0, G1 1], ![H0, H1], fun _ _ => ⟨?_, ?_, ?_, ?_⟩⟩
      · exact strain_of ((hI _ (c1I g' (U' 0))).1.trans a1) ((hI _ (c1I g' (U' 0))).1.trans b1)
      · exact strain_of ((hI (c1I g (U 0)) _).2.2.1.trans a2) ((hI (c1I g (U 0)) _).2.2.1.trans b2)
      · exact hyper_of ((hI _ (c1I g' (U' 0))).2.1.trans a3) ((hI _ (c1I g' (U' 0))).2.1.trans b3)
      · rw [hyper_of ((hI (c1I g (U 0)) _).2.2.2.trans a4) ((hI (c1I g (U 0)) _).2.2.2.trans b4)]
        congr 2
        funext i j k
        fin_cases i <;> rfl
    · exact ⟨0, 0, fun a b => absurd ⟨a, b⟩ h⟩
  choose F H hFH using key
  exact ⟨_, _, F, H, u4, u4', fun t ht b hb => hFH t b ht hb⟩

end

end

end Tve
