import Verif.Spec.Rest
import Verif.Props.Transition
import Verif.Props.HeatCapacity

/-!
# Bodies at rest
-/

namespace Tve
open Helpers

section
variable {g : Grid ℝ} {refined : Option (RefinedGrid ℝ)}

/-- the temperature at a point of a triangle is at least a lower bound of the nodal values -/
theorem temp_ge (W : g.WellFormed) {u : List ℝ} {T : Interp} (hT : P1Interpolation g u = .ok T) {m : ℝ} (hu : ∀ x ∈ u, m ≤ x)
    {t : Tri} (ht : t ∈ g.triangles) {c : Bary ℝ} (hc : c.Inside) : ∃ x, T.call t c = .ok x ∧ m ≤ x := by
  refine ⟨_, temp_call W hT t ht c, ?_⟩
  obtain ⟨hl, -⟩ := P1_of hT
  have hv := WF.valid W ht
  have hn : g.points.length = u.length := by rw [hl, W.vertices, List.length_range]
  have key : ∀ v, v < g.points.length → m ≤ u.getD v 0 := by
    intro v hv
    rw [hn] at hv
    simp only [List.getD_eq_getElem?_getD, hv, List.getElem?_eq_getElem, Option.getD_some]
    exact hu _ (List.getElem_mem _)
  obtain ⟨h0, h1, h2, h3⟩ := hc
  have h0 : c.l1 + c.l2 + c.l3 = 1 := h0
  obtain ⟨v1, v2, v3⟩ := hv
  have a1 := mul_le_mul_of_nonneg_left (key _ v1) h1
  have a2 := mul_le_mul_of_nonneg_left (key _ v2) h2
  have a3 := mul_le_mul_of_nonneg_left (key _ v3) h3
  have : m = c.l1 * m + c.l2 * m + c.l3 * m := by rw [← add_mul, ← add_mul, h0, one_mul]
  linarith

/-- constant nodal values give a constant temperature -/
theorem Energetic.const_field (E : Energetic g refined) {c : ℝ} {u : List ℝ} {T : Interp}
    (hT : P1Interpolation (energyGrid g refined) u = .ok T) (hu : ∀ x ∈ u, x = c) {t : Tri}
    (ht : t ∈ (energyGrid g refined).triangles) {b : Bary ℝ} (hin : b.Normalized) :
    T.call t b = .ok c ∧ T.gradient t b = .ok (vecOf ![0, 0]) := by
  obtain ⟨nx, ny, sc, L⟩ := E.lib
  obtain ⟨hl', hT'⟩ := P1_of hT
  have hc : u.getD t.1 0 = c ∧ u.getD t.2.1 0 = c ∧ u.getD t.2.2 0 = c := by
    obtain ⟨v1, v2, v3⟩ := WF.valid E.wf ht
    have hn : (energyGrid g refined).points.length = u.length := by rw [hl', E.wf.vertices, List.length_range]
    have key : ∀ v, v < (energyGrid g refined).points.length → u.getD v 0 = c := by
      intro v hv
      rw [hn] at hv
      simp only [List.getD_eq_getElem?_getD, hv, List.getElem?_eq_getElem, Option.getD_some]
      exact hu _ (List.getElem_mem _)
    exact ⟨key _ v1, key _ v2, key _ v3⟩
  refine ⟨?_, ?_⟩
  · rw [temp_call E.wf hT t ht b, hc.1, hc.2.1, hc.2.2, ← add_mul, ← add_mul]
    rw [Bary.Normalized] at hin
    rw [hin, one_mul]
  · rw [hT']
    show P1.gradient _ u t b = _
    rw [P1_gradient_eq E.wf hl' ht (L.nondegenerate ht)]
    have e : ∀ j : Fin 3, u.getD (t.get j) 0 = c := by
      intro j
      fin_cases j
      · exact hc.1
      · exact hc.2.1
      · exact hc.2.2
    simp only [e]
    congr 2
    have s1 : ∑ j, Bell.bb ((energyGrid g refined).corners t) j = 0 := by
      generalize (energyGrid g refined).corners t = P
      rw [Fin.sum_univ_three]
      show ((P 1).2 - (P 2).2) + ((P 2).2 - (P 0).2) + ((P 0).2 - (P 1).2) = 0
      ring
    have s2 : ∑ j, Bell.cc ((energyGrid g refined).corners t) j = 0 := by
      generalize (energyGrid g refined).corners t = P
      rw [Fin.sum_univ_three]
      show ((P 2).1 - (P 1).1) + ((P 0).1 - (P 2).1) + ((P 1).1 - (P 0).1) = 0
      ring
    rw [← Finset.sum_div, ← Finset.sum_mul, ← Finset.sum_div, ← Finset.sum_mul, s1, s2]
    simp

/-- strains at the points of the elastic energy also occur at points of the dissipation -/
theorem Energetic.same_points (E : Energetic g refined) {r r' : TriRule ℝ} (hr : energyRule refined = .ok r)
    (hr' : dissipationRule refined = .ok r') {b : Bary ℝ} (hb : b ∈ r.points) : ∃ b' ∈ r'.points, ∀ y D, deformOf g refined y = .ok D →
      ∀ t ∈ (energyGrid g refined).triangles, D.strain t b = D.strain t b' := by
  obtain ⟨r1, h1, R1⟩ := energyRule_good refined
  obtain ⟨r2, h2, R2⟩ := dissipationRule_good refined
  cases hr.symm.trans h1
  cases hr'.symm.trans h2
  cases E with
  | coarse G =>
    obtain ⟨b', hb'⟩ := List.exists_mem_of_ne_nil _ R2.ne
    refine ⟨b', hb', fun y D h t ht => ?_⟩
    rw [deformOf, bind_eq_ok] at h
    obtain ⟨A, -, h⟩ := h
    rw [bind_eq_ok] at h
    obtain ⟨B, -, h⟩ := h
    have := p1_strains G h
    rw [this t ht b (R1.inside b hb).1, this t ht b' (R2.inside b' hb').1]
    rfl
  | fine G hn hs hr0 =>
    cases hr.symm.trans hr'
    exact ⟨b, hb, fun _ _ _ _ _ => rfl⟩

/-- a rotation with no dissipation relative to the identity is the identity -/
theorem rotation_one {F : Matrix (Fin 2) (Fin 2) ℝ} (hF : IsRotation F) (hd : dissipationPotential (matOf (1 : Matrix (Fin 2) (Fin 2) ℝ)) (matOf F) = .ok 0) :
    F = 1 := by
  obtain ⟨W, hW, hW'⟩ := (C51_kernel 1 F (by simp)).1 hd
  rw [Matrix.mul_one] at hW'
  have h00 := congrFun (congrFun hW 0) 0
  have h11 := congrFun (congrFun hW 1) 1
  have h01 := congrFun (congrFun hW 0) 1
  simp only [Matrix.transpose_apply, Matrix.neg_apply] at h00 h11 h01
  have e00 := congrFun (congrFun hW' 0) 0
  have e11 := congrFun (congrFun hW' 1) 1
  have e01 := congrFun (congrFun hW' 0) 1
  have e10 := congrFun (congrFun hW' 1) 0
  simp [Matrix.sub_apply] at e00 e11 e01 e10
  have det := hF.2
  rw [Matrix.det_fin_two] at det
  have a : F 0 0 = 1 := by linarith
  have b : F 1 1 = 1 := by linarith
  have c : F 1 0 = - F 0 1 := by linarith
  rw [a, b, c] at det
  have d : F 0 1 = 0 := by nlinarith
  ext i j
  fin_cases i <;> fin_cases j <;> simp [a, b, c, d]

theorem quad_sub (G : Grid ℝ) (r : TriRule ℝ) (f f' : Tri → Bary ℝ → ℝ) :
    G.quad r (fun t b => f t b - f' t b) = G.quad r f - G.quad r f' := by
  have := quad_add G r (fun t b => f t b - f' t b) f'
  simp only [sub_add_cancel] at this
  linarith

/-- The undeformed state of a warm body has the smallest elastic energy, also together with the dissipation: a deformation with
no more energy is undeformed. -/
theorem undeformed_of_le (E : Energetic g refined) {y0 y θ : NdArray} {E0 E1 d c x : ℝ} (hc : 0 < c) (hx : 0 ≤ x) (h0 : Undeformed g refined y0)
    (hθ : ∀ x ∈ θ.data, transitionTemperature ≤ x) (e0 : IsElasticEnergy g refined y0 θ E0) (e1 : IsElasticEnergy g refined y θ E1)
    (hd : IsDissipation g refined y0 y d) (hle : E1 + x + c * d ≤ E0) : Undeformed g refined y ∧ x = 0 := by
  have ho := e1.oriented E
  obtain ⟨D0, r, hD0, hr, hF0⟩ := h0
  obtain ⟨D, r', hD, hr', hF⟩ := ho
  cases hr.symm.trans hr'
  obtain ⟨D0', T, r', W0, k1, hT, k2, hW0, rfl⟩ := e0
  cases hD0.symm.trans k1
  cases hr.symm.trans k2
  obtain ⟨D', T', r', W, k1, k3, k2, hW, rfl⟩ := e1
  cases hD.symm.trans k1
  cases hr.symm.trans k2
  cases hT.symm.trans k3
  obtain ⟨D0', D', rd, Wd, k1, k2, hrd, hWd, rfl⟩ := hd
  cases hD0.symm.trans k1
  cases hD.symm.trans k2
  obtain ⟨r', k1, R⟩ := energyRule_good refined
  cases hr.symm.trans k1
  obtain ⟨r', k1, Rd⟩ := dissipationRule_good refined
  cases hrd.symm.trans k1
  obtain ⟨S0, hS0⟩ := E.strains hD0
  obtain ⟨S, hS⟩ := E.strains hD
  have hel : ∀ t ∈ (energyGrid g refined).triangles, ∀ b ∈ r.points, 0 ≤ W t b - W0 t b ∧ (W t b - W0 t b = 0 → IsRotation (S t b)) := by
    intro t ht b hb
    obtain ⟨F0, x, f1, f2, f3⟩ := hW0 t ht b hb
    obtain ⟨F, x', f4, f5, f6⟩ := hW t ht b hb
    cases f2.symm.trans f5
    cases f1.symm.trans (hF0 t ht b hb)
    obtain ⟨F', f7, f8⟩ := hF t ht b hb
    have f9 := hS t ht b (R.inside b hb).1
    cases f4.symm.trans f9
    cases matOf_inj (Except.ok.inj (f9.symm.trans f7))
    obtain ⟨x', f10, f11⟩ := temp_ge E.wf hT hθ ht (R.inside b hb)
    cases f2.symm.trans f10
    obtain ⟨w, w1, g1, g2, g3, g4⟩ := C96_stable f11 (S t b) f8
    cases f6.symm.trans g1
    cases f3.symm.trans g2
    exact ⟨by linarith, fun h => g4.1 (by linarith)⟩
  have hdi : ∀ t ∈ (energyGrid g refined).triangles, ∀ b ∈ rd.points, 0 ≤ Wd t b := by
    intro t ht b hb
    obtain ⟨F0, F, f1, f2, f3⟩ := hWd t ht b hb
    cases f1.symm.trans (hS0 t ht b (Rd.inside b hb).1)
    cases f2.symm.trans (hS t ht b (Rd.inside b hb).1)
    obtain ⟨d, f4, f5, -⟩ := C51_quadratic (S0 t b) (S t b)
    cases f3.symm.trans f4
    exact f5
  have q1 := quad_nonneg R (G := energyGrid g refined) (F := fun t b => W t b - W0 t b) fun t ht b hb => (hel t ht b hb).1
  have q2 := mul_nonneg hc.le (quad_nonneg Rd (G := energyGrid g refined) hdi)
  have q3 := quad_sub (energyGrid g refined) r W W0
  refine ⟨⟨D, r, hD, hr, fun t ht b hb => ?_⟩, by linarith⟩
  obtain ⟨b', hb', hsame⟩ := E.same_points hr hrd hb
  obtain ⟨κ1, p1, p2⟩ := quad_term R E.area_pos ht hb
  obtain ⟨κ2, p3, p4⟩ := quad_term Rd E.area_pos ht hb'
  have p5 := p2 (fun t b => W t b - W0 t b) fun t ht b hb => (hel t ht b hb).1
  have p6 := p4 Wd hdi
  have z1 : W t b - W0 t b = 0 := le_antisymm (by
    by_contra hn
    push Not at hn
    have := mul_pos p1 hn
    linarith) (hel t ht b hb).1
  have q4 : (energyGrid g refined).quad rd Wd ≤ 0 := by
    by_contra hn
    push Not at hn
    have := mul_pos hc hn
    linarith
  have z2 : Wd t b' = 0 := le_antisymm (by
    by_contra hn
    push Not at hn
    have := mul_pos p3 hn
    linarith) (hdi t ht b' hb')
  obtain ⟨F0, F, f1, f2, f3⟩ := hWd t ht b' hb'
  rw [← hsame _ _ hD0 t ht, hF0 t ht b hb] at f1
  have f4 := hS t ht b (R.inside b hb).1
  rw [← hsame _ _ hD t ht, f4] at f2
  cases f1
  cases f2
  rw [z2] at f3
  rw [f4, rotation_one ((hel t ht b hb).2 z1) f3]

end

/-- functions of the vertices that are constant on every triangle are constant: the triangulation is connected -/
theorem LibraryGrid.connected {g : Grid ℝ} {nx ny : ℕ} {s : ℝ} (G : LibraryGrid g nx ny s) {α : Type} {f : Vertex → α}
    (h : ∀ t ∈ g.triangles, f t.1 = f t.2.1 ∧ f t.2.1 = f t.2.2) : ∃ c, ∀ v ∈ g.vertices, f v = c := by
  obtain ⟨P, dg, E, T, BV, BE, L⟩ := G.lattice
  set F : ℕ → ℕ → α := fun i j => f (lab P (i, j)) with hF
  have hx := L.hx
  have hy := L.hy
  rw [L.triangles] at h
  have key : ∀ i < nx, ∀ j < ny, F i j = F (i + 1) j ∧ F (i + 1) j = F (i + 1) (j + 1) ∧ F i (j + 1) = F i j := by
    intro i hi j hj
    have a := h _ (List.mem_map_of_mem ((L.memT ((i, j), (i + 1, j), (i + 1, j + 1))).2 ⟨i, j, by omega, by omega, .inl rfl⟩))
    have b := h _ (List.mem_map_of_mem ((L.memT ((i + 1, j + 1), (i, j + 1), (i, j))).2 ⟨i, j, by omega, by omega, .inr rfl⟩))
    exact ⟨a.1, a.2, b.2⟩
  have row : ∀ i ≤ nx, F i 0 = F 0 0 := by
    intro i
    induction i with
    | zero => intro _; rfl
    | succ i ih => intro hi; rw [← (key i (by omega) 0 (by omega)).1]; exact ih (by omega)
  have col : ∀ i ≤ nx, ∀ j ≤ ny, F i j = F i 0 := by
    intro i hi j
    induction j with
    | zero => intro _; rfl
    | succ j ih =>
      intro hj
      rcases hi.eq_or_lt with hi' | hi'
      · obtain ⟨i, rfl⟩ : ∃ i', i = i' + 1 := ⟨i - 1, by omega⟩
        rw [← (key i (by omega) j (by omega)).2.1]
        exact ih (by omega)
      · rw [(key i hi' j (by omega)).2.2]
        exact ih (by omega)
  refine ⟨F 0 0, fun v hv => ?_⟩
  rw [L.vertices, List.mem_range] at hv
  have hvP : lab P P[v] = v := by rw [lab]; exact L.nodupP.idxOf_getElem v hv
  obtain ⟨h1, h2⟩ := (L.memP P[v]).1 (List.getElem_mem hv)
  have e : f v = F P[v].1 P[v].2 := by rw [hF]; simp only [Prod.mk.eta]; rw [hvP]
  rw [e, col _ h1 _ h2, row _ h1]

/-- a piecewise affine deformation with strain 1 is a translation -/
theorem p1_undeformed {g : Grid ℝ} {nx ny : ℕ} {s : ℝ} (G : LibraryGrid g nx ny s) {y : NdArray} {n : ℕ} (hy : y.Has [n, 2])
    (hn : n = g.vertices.length) (h : Undeformed g none y) : ∃ c : ℝ × ℝ, ∀ v ∈ g.vertices, y.deformed v = g.xy v + c := by
  obtain ⟨D, r, hD, hr, hF⟩ := h
  obtain ⟨r', k1, R⟩ := energyRule_good (none : Option (RefinedGrid ℝ))
  cases hr.symm.trans k1
  rw [deformOf, bind_eq_ok] at hD
  obtain ⟨A, hA, hD⟩ := hD
  rw [bind_eq_ok] at hD
  obtain ⟨B, hB, hD⟩ := hD
  have hS := p1_strains G hD
  have hAB : ∀ v ∈ g.vertices, y.deformed v = (A.getD v 0, B.getD v 0) := by
    intro v hv
    have hv' : v < n := by
      rw [hn]
      have e : g.vertices = List.range g.points.length := G.wellFormed.vertices
      rw [e] at hv ⊢
      simpa using hv
    rw [NdArray.col_eq hy (by norm_num)] at hA hB
    cases hA
    cases hB
    rw [NdArray.deformed]
    simp [hy.1, List.getD_eq_getElem?_getD, hv']
  obtain ⟨b, hb⟩ := List.exists_mem_of_ne_nil _ R.ne
  have := G.connected (f := fun v => y.deformed v - g.xy v) fun t ht => by
    have W := G.wellFormed
    obtain ⟨v1, v2, v3⟩ := W.triangles t ht
    have e1 := matOf_inj (Except.ok.inj ((hS t ht b (R.inside b hb).1).symm.trans (hF t ht b hb)))
    have nd := G.nondegenerate ht
    have c0 : g.corners t 0 = g.xy t.1 := rfl
    have c1 : g.corners t 1 = g.xy t.2.1 := rfl
    have c2 : g.corners t 2 = g.xy t.2.2 := rfl
    have e00 := congrFun (congrFun e1 0) 0
    have e01 := congrFun (congrFun e1 0) 1
    have e10 := congrFun (congrFun e1 1) 0
    have e11 := congrFun (congrFun e1 1) 1
    simp only [p1Strain, ← Finset.sum_div, Fin.sum_univ_three] at e00 e01 e10 e11
    simp only [hAB _ v1, hAB _ v2, hAB _ v3]
    have hnz : Bell.twoD (g.corners t) ≠ 0 := nd
    have aff : ∀ (a0 a1 a2 p q : ℝ),
        (Bell.bb (g.corners t) 0 * a0 + Bell.bb (g.corners t) 1 * a1 + Bell.bb (g.corners t) 2 * a2) / Bell.twoD (g.corners t) = p →
        (Bell.cc (g.corners t) 0 * a0 + Bell.cc (g.corners t) 1 * a1 + Bell.cc (g.corners t) 2 * a2) / Bell.twoD (g.corners t) = q →
        a1 - a0 = p * ((g.xy t.2.1).1 - (g.xy t.1).1) + q * ((g.xy t.2.1).2 - (g.xy t.1).2) ∧
        a2 - a1 = p * ((g.xy t.2.2).1 - (g.xy t.2.1).1) + q * ((g.xy t.2.2).2 - (g.xy t.2.1).2) := by
      intro a0 a1 a2 p q hp hq
      have b0 : Bell.bb (g.corners t) 0 = (g.xy t.2.1).2 - (g.xy t.2.2).2 := rfl
      have b1 : Bell.bb (g.corners t) 1 = (g.xy t.2.2).2 - (g.xy t.1).2 := rfl
      have b2 : Bell.bb (g.corners t) 2 = (g.xy t.1).2 - (g.xy t.2.1).2 := rfl
      have k0 : Bell.cc (g.corners t) 0 = (g.xy t.2.2).1 - (g.xy t.2.1).1 := rfl
      have k1 : Bell.cc (g.corners t) 1 = (g.xy t.1).1 - (g.xy t.2.2).1 := rfl
      have k2 : Bell.cc (g.corners t) 2 = (g.xy t.2.1).1 - (g.xy t.1).1 := rfl
      have kd : Bell.twoD (g.corners t) = cross (g.xy t.1) (g.xy t.2.1) (g.xy t.2.2) := rfl
      rw [div_eq_iff hnz, b0, b1, b2] at hp
      rw [div_eq_iff hnz, k0, k1, k2] at hq
      constructor <;>
      · apply mul_right_cancel₀ hnz
        rw [add_mul, mul_right_comm p, mul_right_comm q, ← hp, ← hq, kd, cross]
        ring
    have x := aff (A.getD t.1 0) (A.getD t.2.1 0) (A.getD t.2.2 0) _ _ e00 e01
    have z := aff (B.getD t.1 0) (B.getD t.2.1 0) (B.getD t.2.2 0) _ _ e10 e11
    rw [Matrix.one_apply_eq, Matrix.one_apply_ne (by decide : (0 : Fin 2) ≠ 1), one_mul, zero_mul, one_mul, zero_mul, add_zero, add_zero] at x
    rw [Matrix.one_apply_eq, Matrix.one_apply_ne (by decide : (1 : Fin 2) ≠ 0), one_mul, zero_mul, one_mul, zero_mul, zero_add, zero_add] at z
    constructor
    · ext
      · simp only [Prod.fst_sub]; linarith [x.1]
      · simp only [Prod.snd_sub]; linarith [z.1]
    · ext
      · simp only [Prod.fst_sub]; linarith [x.2]
      · simp only [Prod.snd_sub]; linarith [z.2]
  obtain ⟨c, hc⟩ := this
  exact ⟨c, fun v hv => by rw [← hc v hv]; simp⟩

end Tve
