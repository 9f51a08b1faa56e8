import Verif.Lemmas.Energy
import Verif.Lemmas.Constraints

/-!
# The objective of the mechanical step
-/

namespace Tve

open Bell

/-- the grids a simulation computes with -/
inductive Energetic : Grid ℝ → Option (RefinedGrid ℝ) → Prop
  | coarse {g : Grid ℝ} {nx ny : ℕ} {s : ℝ} (G : LibraryGrid g nx ny s) : Energetic g none
  | fine {g : Grid ℝ} {nx ny n : ℕ} {s : ℝ} {d : RectDomain ℝ} {r : RefinedGrid ℝ} (G : LibraryGrid g nx ny s) (hn : 1 ≤ n)
      (hs : 1 / 10 ^ 15 ≤ s / n) (hr : d.refine g n = .ok r) : Energetic g (some r)

section
variable {g : Grid ℝ} {refined : Option (RefinedGrid ℝ)}

theorem Energetic.lib (E : Energetic g refined) : ∃ nx ny s, LibraryGrid (energyGrid g refined) nx ny s := by
  cases E with
  | coarse G => exact ⟨_, _, _, G⟩
  | fine G hn hs hr => exact ⟨_, _, _, LibraryGrid.refine G hn hs hr⟩

theorem Energetic.wf (E : Energetic g refined) : (energyGrid g refined).WellFormed := by
  obtain ⟨_, _, _, G⟩ := E.lib
  exact G.wellFormed

theorem Energetic.strains (E : Energetic g refined) {y : NdArray} {D : Deformation} (h : deformOf g refined y = .ok D) :
    ∃ S, D.Strains (energyGrid g refined) S := by
  cases E with
  | coarse G =>
    rw [deformOf] at h
    rw [bind_eq_ok] at h
    obtain ⟨A, -, h⟩ := h
    rw [bind_eq_ok] at h
    obtain ⟨B, -, h⟩ := h
    exact ⟨_, p1_strains G h⟩
  | fine G hn hs hr =>
    rw [deformOf] at h
    rw [bind_eq_ok] at h
    obtain ⟨A, -, h⟩ := h
    rw [bind_eq_ok] at h
    obtain ⟨B, -, h⟩ := h
    obtain ⟨S, H, h1, -⟩ := reg_strains G hn hs hr h
    exact ⟨S, h1⟩

/-! ### the elastic energy -/

/-- `m.total_elastic_energy` for arrays -/
noncomputable def elasticCode (g : Grid ℝ) (refined : Option (RefinedGrid ℝ)) (y θ : NdArray) : PyM ℝ := do
  let D ← deformOf g refined y
  let T ← P1Interpolation (energyGrid g refined) θ.data
  let rule ← energyRule refined
  let I ← Integrator.new rule (energyGrid g refined).triangles (energyGrid g refined).points
  I.call fun t c => do
    let strain ← D.strain t c
    let temp ← T.call t c
    Helpers.totalElasticPotential strain temp

theorem elasticCode_iff (W : (energyGrid g refined).WellFormed) {y θ : NdArray} {E : ℝ} :
    elasticCode g refined y θ = .ok E ↔ IsElasticEnergy g refined y θ E := by
  constructor
  · intro h
    rw [elasticCode, bind_eq_ok] at h
    obtain ⟨D, hD, h⟩ := h
    rw [bind_eq_ok] at h
    obtain ⟨T, hT, h⟩ := h
    obtain ⟨r, hr, hg⟩ := energyRule_good refined
    rw [hr, bind_ok, integrator_ok W, bind_ok] at h
    have each := call_ok_each hg.len (by simp) h
    classical
    let Wf : Tri → Bary ℝ → ℝ := fun t b =>
      if hx : t ∈ (energyGrid g refined).triangles ∧ b ∈ r.points then (each t hx.1 b hx.2).choose else 0
    have hW : ∀ t ∈ (energyGrid g refined).triangles, ∀ b ∈ r.points, (do
        let strain ← D.strain t b
        let temp ← T.call t b
        Helpers.totalElasticPotential strain temp) = .ok (Wf t b) := by
      intro t ht b hb
      have hx : t ∈ (energyGrid g refined).triangles ∧ b ∈ r.points := ⟨ht, hb⟩
      simp only [Wf, dif_pos hx]
      exact (each t ht b hb).choose_spec
    refine ⟨D, T, r, Wf, hD, hT, hr, ?_, ?_⟩
    · intro t ht b hb
      have := hW t ht b hb
      rw [bind_eq_ok] at this
      obtain ⟨F, hF, this⟩ := this
      rw [bind_eq_ok] at this
      obtain ⟨x, hx, this⟩ := this
      exact ⟨F, x, hF, hx, this⟩
    · rw [call_quad Wf hW] at h
      exact (Except.ok.inj h).symm
  · rintro ⟨D, T, r, Wf, hD, hT, hr, hW, rfl⟩
    rw [elasticCode, hD, bind_ok, hT, bind_ok, hr, bind_ok, integrator_ok W, bind_ok]
    apply call_quad
    intro t ht b hb
    obtain ⟨F, x, h1, h2, h3⟩ := hW t ht b hb
    rw [h1, bind_ok, h2, bind_ok, h3]

/-- the elastic energy is defined exactly for orientation preserving deformations -/
theorem IsElasticEnergy.oriented (G : Energetic g refined) {y θ : NdArray} {E : ℝ} (h : IsElasticEnergy g refined y θ E) :
    Oriented g refined y := by
  obtain ⟨D, T, r, W, hD, hT, hr, hW, rfl⟩ := h
  obtain ⟨S, hS⟩ := G.strains hD
  refine ⟨D, r, hD, hr, ?_⟩
  intro t ht b hb
  obtain ⟨F, x, h1, h2, h3⟩ := hW t ht b hb
  obtain ⟨r', hr', hg⟩ := energyRule_good refined
  cases hr.symm.trans hr'
  have e := hS t ht b (hg.inside b hb).1
  refine ⟨S t b, e, ?_⟩
  by_contra hn
  cases h1.symm.trans e
  rw [Helpers.totalElasticPotential, Helpers.aust_eq, bind_ok, Helpers.austPot_err (not_lt.1 hn)] at h3
  cases h3

theorem temp_call (W : g.WellFormed) {u : List ℝ} {T : Interp} (hT : P1Interpolation g u = .ok T) :
    ∀ t ∈ g.triangles, ∀ c, T.call t c = .ok (c.l1 * u.getD t.1 0 + c.l2 * u.getD t.2.1 0 + c.l3 * u.getD t.2.2 0) := by
  obtain ⟨hu, rfl⟩ := P1_of hT
  intro t ht c
  exact P1_call_eq W hu ht c

theorem Oriented.energy (W : (energyGrid g refined).WellFormed) {y θ : NdArray} (h : Oriented g refined y) {T : Interp}
    (hT : P1Interpolation (energyGrid g refined) θ.data = .ok T) : ∃ E, IsElasticEnergy g refined y θ E := by
  obtain ⟨D, r, hD, hr, hF⟩ := h
  have key : ∀ t ∈ (energyGrid g refined).triangles, ∀ b ∈ r.points, ∃ w, ∃ F x, D.strain t b = .ok F ∧ T.call t b = .ok x ∧
      Helpers.totalElasticPotential F x = .ok w := by
    intro t ht b hb
    obtain ⟨F, h1, h2⟩ := hF t ht b hb
    obtain ⟨Wf, a, wa, wm, -, -, -, h3, -⟩ := C53_convex_combination F h2
    exact ⟨_, _, _, h1, temp_call W hT t ht b, h3 _⟩
  classical
  choose! w hw using key
  exact ⟨_, D, T, r, w, hD, hT, hr, hw, rfl⟩

theorem IsElasticEnergy.unique {y θ : NdArray} {E E' : ℝ} (h : IsElasticEnergy g refined y θ E)
    (h' : IsElasticEnergy g refined y θ E') : E = E' := by
  obtain ⟨D, T, r, W, hD, hT, hr, hW, rfl⟩ := h
  obtain ⟨D', T', r', W', hD', hT', hr', hW', rfl⟩ := h'
  cases hD.symm.trans hD'
  cases hT.symm.trans hT'
  cases hr.symm.trans hr'
  apply quad_congr
  intro t ht b hb
  obtain ⟨F, x, h1, h2, h3⟩ := hW t ht b hb
  obtain ⟨F', x', h1', h2', h3'⟩ := hW' t ht b hb
  cases h1.symm.trans h1'
  cases h2.symm.trans h2'
  exact Except.ok.inj (h3.symm.trans h3')

/-! ### the dissipation -/

/-- `m.dissipation` for arrays -/
noncomputable def dissCode (g : Grid ℝ) (refined : Option (RefinedGrid ℝ)) (y0 y : NdArray) : PyM ℝ := do
  let D0 ← deformOf g refined y0
  let D ← deformOf g refined y
  let rule ← dissipationRule refined
  let I ← Integrator.new rule (energyGrid g refined).triangles (energyGrid g refined).points
  I.call fun t c => do
    let prevStrain ← D0.strain t c
    let strain ← D.strain t c
    Helpers.dissipationPotential prevStrain strain

theorem dissipationRule_good (refined : Option (RefinedGrid ℝ)) : ∃ r, dissipationRule refined = .ok r ∧ r.Good := by
  cases refined with
  | none => obtain ⟨r, h1, h2, -⟩ := centroid_good; exact ⟨r, h1, h2⟩
  | some f => exact dunavant5_good

theorem dissCode_ok (G : Energetic g refined) {y0 y : NdArray} {D0 D : Deformation} (h0 : deformOf g refined y0 = .ok D0)
    (h : deformOf g refined y = .ok D) :
    ∃ d, dissCode g refined y0 y = .ok d ∧ IsDissipation g refined y0 y d ∧ 0 ≤ d ∧ (y0 = y → d = 0) := by
  obtain ⟨S0, hS0⟩ := G.strains h0
  obtain ⟨S, hS⟩ := G.strains h
  obtain ⟨r, hr, hg⟩ := dissipationRule_good refined
  have key : ∀ t b, ∃ d, Helpers.dissipationPotential (matOf (S0 t b)) (matOf (S t b)) = .ok d ∧ 0 ≤ d ∧
      (S t b = S0 t b → d = 0) := fun t b => by
    obtain ⟨d, h1, h2, h3, -⟩ := C51_quadratic (S0 t b) (S t b)
    exact ⟨d, h1, h2, h3⟩
  choose d hd1 hd2 hd3 using key
  refine ⟨(energyGrid g refined).quad r d, ?_, ?_, ?_, ?_⟩
  · rw [dissCode, h0, bind_ok, h, bind_ok, hr, bind_ok, integrator_ok G.wf, bind_ok]
    apply call_quad
    intro t ht b hb
    have hn := (hg.inside b hb).1
    rw [hS0 t ht b hn, bind_ok, hS t ht b hn, bind_ok, hd1]
  · refine ⟨D0, D, r, d, h0, h, hr, ?_, rfl⟩
    intro t ht b hb
    have hn := (hg.inside b hb).1
    exact ⟨_, _, hS0 t ht b hn, hS t ht b hn, hd1 t b⟩
  · exact quad_nonneg hg fun t _ b _ => hd2 t b
  · rintro rfl
    cases h0.symm.trans h
    refine quad_zero hg fun t ht b hb => hd3 t b ?_
    have hn := (hg.inside b hb).1
    have e := Except.ok.inj ((hS t ht b hn).symm.trans (hS0 t ht b hn))
    ext i j
    have := congrArg (fun M : Mat ℝ => (M.data.getD i []).getD j 0) e
    fin_cases i <;> fin_cases j <;> simpa [matOf, List.ofFn_succ] using this

theorem IsDissipation.unique {y0 y : NdArray} {d d' : ℝ} (h : IsDissipation g refined y0 y d)
    (h' : IsDissipation g refined y0 y d') : d = d' := by
  obtain ⟨D0, D, r, W, hD0, hD, hr, hW, rfl⟩ := h
  obtain ⟨D0', D', r', W', hD0', hD', hr', hW', rfl⟩ := h'
  cases hD.symm.trans hD'
  cases hD0.symm.trans hD0'
  cases hr.symm.trans hr'
  apply quad_congr
  intro t ht b hb
  obtain ⟨F, x, h1, h2, h3⟩ := hW t ht b hb
  obtain ⟨F', x', h1', h2', h3'⟩ := hW' t ht b hb
  cases h1.symm.trans h1'
  cases h2.symm.trans h2'
  exact Except.ok.inj (h3.symm.trans h3')

/-! ### the hyper elastic energy -/

/-- `m.hyper_elastic_energy` for arrays -/
noncomputable def hyperCode (g : Grid ℝ) (r : RefinedGrid ℝ) (y : NdArray) : PyM ℝ := do
  let D ← deformOf g (some r) y
  let rule ← dunavant5 ℝ
  let I ← Integrator.new rule r.toGrid.triangles r.toGrid.points
  I.call fun t c => do
    let h ← D.hyperStrain t c
    return Helpers.hyperElasticPotential h

theorem hyperCode_ok {r : RefinedGrid ℝ} (G : Energetic g (some r)) {y : NdArray} {D : Deformation}
    (h : deformOf g (some r) y = .ok D) : ∃ e, hyperCode g r y = .ok e ∧ IsHyperEnergy g r y e ∧ 0 ≤ e := by
  have h' := h
  rw [deformOf] at h
  rw [bind_eq_ok] at h
  obtain ⟨A, -, h⟩ := h
  rw [bind_eq_ok] at h
  obtain ⟨B, -, h⟩ := h
  have W : r.toGrid.WellFormed := G.wf
  cases G with
  | fine G hn hs hr =>
    obtain ⟨S, H, -, hH⟩ := reg_strains G hn hs hr h
    obtain ⟨q, hq, hg⟩ := dunavant5_good
    refine ⟨r.toGrid.quad q fun t b => Helpers.hyperElasticPotential (tenOf (H t b)), ?_, ?_, ?_⟩
    · rw [hyperCode, h', bind_ok, hq, bind_ok, integrator_ok W, bind_ok]
      apply call_quad
      intro t ht b hb
      rw [hH t ht b (hg.inside b hb).1]
      rfl
    · exact ⟨D, q, _, h', hq, fun t ht b hb => ⟨_, hH t ht b (hg.inside b hb).1, rfl⟩, rfl⟩
    · exact quad_nonneg hg fun t _ b _ => (C70_value (H t b)).1

theorem IsHyperEnergy.unique {r : RefinedGrid ℝ} {y : NdArray} {h h' : ℝ} (a : IsHyperEnergy g r y h)
    (a' : IsHyperEnergy g r y h') : h = h' := by
  obtain ⟨D, q, W, hD, hr, hW, rfl⟩ := a
  obtain ⟨D', q', W', hD', hr', hW', rfl⟩ := a'
  cases hD.symm.trans hD'
  cases hr.symm.trans hr'
  apply quad_congr
  intro t ht b hb
  obtain ⟨F, h1, h2⟩ := hW t ht b hb
  obtain ⟨F', h1', h2'⟩ := hW' t ht b hb
  cases h1.symm.trans h1'
  rw [h2, h2']

end

/-! ### the work of the boundary traction -/

theorem edge_call {G : Grid ℝ} (W : G.WellFormed) {leg : LegGauss} {r : GaussRule ℝ} (hr : GaussRule.new leg 1 = .ok r)
    {es : List Edge} (hes : ∀ e ∈ es, e.1 < G.points.length ∧ e.2 < G.points.length) :
    ∃ I, BoundaryIntegrator.new leg 1 es G.points = .ok I ∧ ∀ (f : Edge → ℝ → PyM ℝ) (F : Edge → ℝ → ℝ),
      (∀ e ∈ es, ∀ t, f e t = .ok (F e t)) → I.call f = .ok (G.edgeQuad es r F) := by
  refine ⟨⟨es, r, es.map (edgeLen G.xy)⟩, ?_, ?_⟩
  · conv_lhs => rw [points_planar W]
    rw [BoundaryIntegrator.new, hr, bind_ok, pyMap_eq_ok (edgeLen G.xy) (fun e he => edgeLength_planar (hes e he))]; rfl
  · intro f F hf
    rw [BoundaryIntegrator.call]
    simp only
    rw [zip_map_self, pyMap_map, pyMap_eq_ok (fun e => edgeLen G.xy e * r.value (F e))]
    · rfl
    · intro e he
      rw [pyMap_eq_ok (fun bw : ℝ × ℝ => bw.2 * F e bw.1)]
      · rfl
      · intro bw _; rw [hf e he]; rfl

namespace P1MechModel
variable {m : P1MechModel} {n : ℕ}

theorem varValues_length {l : List VarData} : (varValues l).length = l.length := by simp [varValues]

theorem elastic_eq (w : m.WF n) : m.totalElasticEnergy =
    elasticCode m.grid none (P1Mech.pairs (varValues m.y1) (varValues m.y2)) (NdArray.of1 m.prevTheta) := by
  have hc := NdArray.col_pairs (varValues_length.trans w.y1) (varValues_length.trans w.y2) w.pos
  rw [elasticCode, deformOf, hc.1, bind_ok, hc.2, bind_ok]
  rfl

theorem diss_eq (w : m.WF n) : m.dissipation =
    dissCode m.grid none (P1Mech.pairs m.prevY1 m.prevY2) (P1Mech.pairs (varValues m.y1) (varValues m.y2)) := by
  have hc := NdArray.col_pairs (varValues_length.trans w.y1) (varValues_length.trans w.y2) w.pos
  have hc' := NdArray.col_pairs w.prevY1 w.prevY2 w.pos
  rw [dissCode, deformOf, hc'.1, bind_ok, hc'.2, bind_ok, deformOf, hc.1, bind_ok, hc.2, bind_ok]
  rfl

theorem boundary_ok (w : m.WF n) (U : m.grid.Usable n) {leg : LegGauss} {r : GaussRule ℝ} (hr : GaussRule.new leg 1 = .ok r)
    (hN : ∀ v, IsEndpoint v m.grid.neumann.edges → v ∈ m.grid.neumann.vertices) (T : Vertex → ℝ × ℝ)
    (hT : ∀ v ∈ m.grid.neumann.vertices, m.g1.get? v = some (T v).1 ∧ m.g2.get? v = some (T v).2) :
    m.boundaryTractionEnergy leg = .ok (m.grid.edgeQuad m.grid.neumann.edges r fun e s =>
      (s * (T e.1).1 + (1 - s) * (T e.2).1) * (s * (varValues m.y1).getD e.1 0 + (1 - s) * (varValues m.y1).getD e.2 0) +
      (s * (T e.1).2 + (1 - s) * (T e.2).2) * (s * (varValues m.y2).getD e.1 0 + (1 - s) * (varValues m.y2).getD e.2 0)) := by
  have h1 : P1Interpolation m.grid (varValues m.y1) = .ok ⟨m.grid, P1.call (varValues m.y1), P1.gradient m.grid (varValues m.y1), P1.hessian,
      P1.onEdge (varValues m.y1)⟩ := by
    obtain ⟨I, hI⟩ := P1_ok (g := m.grid) (u := varValues m.y1) (by rw [varValues_length, w.y1, w.vertices, List.length_range])
    obtain ⟨-, rfl⟩ := P1_of hI
    exact hI
  have h2 : P1Interpolation m.grid (varValues m.y2) = .ok ⟨m.grid, P1.call (varValues m.y2), P1.gradient m.grid (varValues m.y2), P1.hessian,
      P1.onEdge (varValues m.y2)⟩ := by
    obtain ⟨I, hI⟩ := P1_ok (g := m.grid) (u := varValues m.y2) (by rw [varValues_length, w.y2, w.vertices, List.length_range])
    obtain ⟨-, rfl⟩ := P1_of hI
    exact hI
  have g1 : P1BoundaryInterp.new m.grid.neumann m.g1 = .ok ⟨m.grid.neumann, m.g1⟩ := by
    rw [P1BoundaryInterp.new, if_neg]
    rw [not_not, ← List.length_map (f := Prod.fst), w.g1, w.nv, length_pySet U.nodup]
  have g2 : P1BoundaryInterp.new m.grid.neumann m.g2 = .ok ⟨m.grid.neumann, m.g2⟩ := by
    rw [P1BoundaryInterp.new, if_neg]
    rw [not_not, ← List.length_map (f := Prod.fst), w.g2, w.nv, length_pySet U.nodup]
  have hm : ∀ e ∈ m.grid.neumann.edges, e.1 ∈ m.grid.neumann.vertices ∧ e.2 ∈ m.grid.neumann.vertices := fun e he =>
    ⟨hN _ ⟨e, he, Or.inl rfl⟩, hN _ ⟨e, he, Or.inr rfl⟩⟩
  have hlt : ∀ v ∈ m.grid.neumann.vertices, v < n := fun v hv => lt_of_neumann U (mem_pySet.2 hv)
  obtain ⟨I, hI, hcall⟩ := edge_call U.wf hr (es := m.grid.neumann.edges) (fun e he => by
    rw [U.num]; exact ⟨hlt _ (hm e he).1, hlt _ (hm e he).2⟩)
  rw [boundaryTractionEnergy, deformation, h1, bind_ok, h2, bind_ok, pure_eq_ok, bind_ok, g1, bind_ok, g2, bind_ok, hI, bind_ok]
  apply hcall
  intro e he t
  obtain ⟨a1, a2⟩ := hT _ (hm e he).1
  obtain ⟨b1, b2⟩ := hT _ (hm e he).2
  have l1 := hlt _ (hm e he).1
  have l2 := hlt _ (hm e he).2
  have len1 : (varValues m.y1).length = n := varValues_length.trans w.y1
  have len2 : (varValues m.y2).length = n := varValues_length.trans w.y2
  have p1 : ∀ v < n, pyGet (varValues m.y1) v = .ok ((varValues m.y1).getD v 0) := fun v hv => pyGet_getD (by omega) 0
  have p2 : ∀ v < n, pyGet (varValues m.y2) v = .ok ((varValues m.y2).getD v 0) := fun v hv => pyGet_getD (by omega) 0
  simp only [P1BoundaryInterp.call, PyDict.get, a1, a2, b1, b2, bind_ok, pure_eq_ok, Deformation.onEdge, P1.onEdge,
    p1 _ l1, p1 _ l2, p2 _ l1, p2 _ l2, boundaryTractionPotential, Vec.dot, List.zipWith_cons_cons, List.zipWith_nil_left,
    List.sum_cons, List.sum_nil, add_zero]

end P1MechModel

namespace RegMechModel
variable {m : RegMechModel} {n k : ℕ}

theorem values_ok {l : List (List VarData)} (h : l.length = n ∧ ∀ x ∈ l, x.length = 6) :
    (varValues2 l).length = n ∧ ∀ x ∈ varValues2 l, x.length = 6 := by
  refine ⟨by simp [varValues2, h.1], ?_⟩
  intro x hx
  obtain ⟨y, hy, rfl⟩ := List.mem_map.1 hx
  simp [varValues, h.2 y hy]

theorem y_blocks (w : m.WF n k) :
    (RegMech.pairs (varValues2 m.y1) (varValues2 m.y2)).block 0 = .ok (varValues2 m.y1) ∧
    (RegMech.pairs (varValues2 m.y1) (varValues2 m.y2)).block 1 = .ok (varValues2 m.y2) :=
  NdArray.block_pairs (values_ok w.y1).1 (values_ok w.y2).1 (values_ok w.y1).2 (values_ok w.y2).2 w.pos

theorem elastic_eq (w : m.WF n k) : m.totalElasticEnergy =
    elasticCode m.grid (some m.refined) (RegMech.pairs (varValues2 m.y1) (varValues2 m.y2)) (NdArray.of1 m.prevTheta) := by
  have hc := y_blocks w
  rw [elasticCode, deformOf, hc.1, bind_ok, hc.2, bind_ok]
  rfl

theorem hyper_code (w : m.WF n k) : m.hyperElasticEnergy =
    hyperCode m.grid m.refined (RegMech.pairs (varValues2 m.y1) (varValues2 m.y2)) := by
  have hc := y_blocks w
  rw [hyperCode, deformOf, hc.1, bind_ok, hc.2, bind_ok]
  rfl

theorem diss_eq (w : m.WF n k) : m.dissipation =
    dissCode m.grid (some m.refined) (RegMech.pairs m.prevY1 m.prevY2)
      (RegMech.pairs (varValues2 m.y1) (varValues2 m.y2)) := by
  have hc := y_blocks w
  have hc' := NdArray.block_pairs w.prevY1.1 w.prevY2.1 w.prevY1.2 w.prevY2.2 w.pos
  rw [dissCode, deformOf, hc'.1, bind_ok, hc'.2, bind_ok, deformOf, hc.1, bind_ok, hc.2, bind_ok]
  rfl

end RegMechModel

/-! ### mechanical steps of simulations -/

/-- a mechanical step of a simulation -/
structure MechEnv (m : MechStep) (g : Grid ℝ) (refined : Option (RefinedGrid ℝ)) (params : SimParams) (traction : Traction) :
    Prop where
  wf : ∃ ys ts, m.WF ys ts
  grid : m.grid = g
  fine : m.problem.refined = refined
  fps : m.problem.fps = params.fps
  energetic : Energetic g refined
  usable : ∃ n, g.Usable n
  endpoints : ∀ v, IsEndpoint v g.neumann.edges → v ∈ g.neumann.vertices
  p1 : params.regularization = none → m.traction = some traction
  reg : ∀ κ, params.regularization = some κ → ∃ a, m = .reg a ∧ a.model.regularization = κ

/-- the traction in the model is the traction at the given time -/
def MechStep.TractionAt (m : MechStep) (time : ℝ) : Prop :=
  ∀ f, m.traction = some f → ∀ v ∈ m.grid.neumann.vertices, ∃ z l a b, m.grid.At v z ∧
    f time z.1 z.2 = .ok l ∧ l[0]? = some a ∧ l[1]? = some b ∧ m.tractionAt v = some (a, b)

section
variable {m : MechStep} {g : Grid ℝ} {refined : Option (RefinedGrid ℝ)} {params : SimParams} {traction : Traction}

theorem MechEnv.deform (M : MechEnv m g refined params traction) :
    (∃ D, deformOf g refined m.prevY = .ok D) ∧ (∃ D, deformOf g refined m.y = .ok D) ∧
    ∃ T, P1Interpolation (energyGrid g refined) m.prevTheta.data = .ok T := by
  obtain ⟨ys, ts, w⟩ := M.wf
  have hg := M.grid
  have hr := M.fine
  rcases m with s | s
  · obtain ⟨n, w, -, -⟩ := w
    have hg' : s.model.grid = g := hg
    subst hg'
    have hr' : refined = none := hr.symm
    subst hr'
    have len : ∀ {l : List ℝ}, l.length = n → l.length = s.model.grid.vertices.length := fun h => by
      rw [h, w.vertices, List.length_range]
    have key : ∀ A B : List ℝ, A.length = n → B.length = n → ∃ D, deformOf s.model.grid none (P1Mech.pairs A B) = .ok D := by
      intro A B hA hB
      have hc := NdArray.col_pairs hA hB w.pos
      obtain ⟨I1, h1⟩ := P1_ok (g := s.model.grid) (len hA)
      obtain ⟨I2, h2⟩ := P1_ok (g := s.model.grid) (len hB)
      exact ⟨⟨I1, I2⟩, by rw [deformOf, hc.1, bind_ok, hc.2, bind_ok, P1MechModel.deformation, h1, bind_ok, h2, bind_ok]; rfl⟩
    exact ⟨key _ _ w.prevY1 w.prevY2, key _ _ (P1MechModel.varValues_length.trans w.y1) (P1MechModel.varValues_length.trans w.y2),
      P1_ok (g := s.model.grid) (len w.prevTheta)⟩
  · obtain ⟨n, k, w, -, -⟩ := w
    have hg' : s.model.grid = g := hg
    subst hg'
    have hr' : refined = some s.model.refined := hr.symm
    subst hr'
    have key : ∀ A B : List (List ℝ), (A.length = n ∧ ∀ x ∈ A, x.length = 6) → (B.length = n ∧ ∀ x ∈ B, x.length = 6) →
        ∃ D, deformOf s.model.grid (some s.model.refined) (RegMech.pairs A B) = .ok D := by
      intro A B hA hB
      have hc := NdArray.block_pairs hA.1 hB.1 hA.2 hB.2 w.pos
      obtain ⟨I1, h1⟩ := C1_ok (g := s.model.grid) hA.2 (hA.1.trans w.vertices.symm)
      obtain ⟨I2, h2⟩ := C1_ok (g := s.model.grid) hB.2 (hB.1.trans w.vertices.symm)
      exact ⟨⟨RefinedInterpolation I1 s.model.refined, RefinedInterpolation I2 s.model.refined⟩, by
        rw [deformOf, hc.1, bind_ok, hc.2, bind_ok, RegMechModel.deformation, h1, bind_ok, h2, bind_ok]; rfl⟩
    exact ⟨key _ _ w.prevY1 w.prevY2, key _ _ (RegMechModel.values_ok w.y1) (RegMechModel.values_ok w.y2),
      P1_ok (g := s.model.refined.toGrid) (w.prevTheta.trans w.fine.symm)⟩

theorem IsBoundaryWork.unique {leg : LegGauss} (hN : ∀ v, IsEndpoint v g.neumann.edges → v ∈ g.neumann.vertices) {time : ℝ}
    {y : NdArray} {w w' : ℝ} (h : IsBoundaryWork leg g traction time y w) (h' : IsBoundaryWork leg g traction time y w') :
    w = w' := by
  obtain ⟨r, T, h1, h2, rfl⟩ := h
  obtain ⟨r', T', h1', h2', rfl⟩ := h'
  cases h1.symm.trans h1'
  have hT : ∀ v ∈ g.neumann.vertices, T v = T' v := by
    intro v hv
    obtain ⟨l, a1, a2, a3⟩ := h2 v hv
    obtain ⟨l', b1, b2, b3⟩ := h2' v hv
    cases a1.symm.trans b1
    exact Prod.ext (Option.some.inj (a2.symm.trans b2)) (Option.some.inj (a3.symm.trans b3))
  rw [Grid.edgeQuad, Grid.edgeQuad]
  congr 1
  refine List.map_congr_left fun e he => ?_
  simp only [hT _ (hN _ ⟨e, he, Or.inl rfl⟩), hT _ (hN _ ⟨e, he, Or.inr rfl⟩)]

theorem IsMechObjective.unique {leg : LegGauss} (hN : ∀ v, IsEndpoint v g.neumann.edges → v ∈ g.neumann.vertices)
    {time : ℝ} {y0 y θ0 : NdArray} {v v' : ℝ} (h : IsMechObjective leg params traction g refined time y0 y θ0 v)
    (h' : IsMechObjective leg params traction g refined time y0 y θ0 v') : v = v' := by
  obtain ⟨E, d, h1, h2, h3, h4⟩ := h
  obtain ⟨E', d', h1', h2', h3', h4'⟩ := h'
  cases h1.unique h1'
  cases h2.unique h2'
  rcases hr : params.regularization with _ | κ
  · obtain ⟨w, a1, rfl⟩ := h3 hr
    obtain ⟨w', b1, rfl⟩ := h3' hr
    rw [a1.unique hN b1]
  · obtain ⟨r, h, a1, a2, rfl⟩ := h4 κ hr
    obtain ⟨r', h', b1, b2, rfl⟩ := h4' κ hr
    cases a1.symm.trans b1
    rw [a2.unique b2]

/-- The objective in the model is the objective of the specification. -/
theorem MechEnv.objective_iff (M : MechEnv m g refined params traction) {leg : LegGauss} {q : GaussRule ℝ}
    (hq : GaussRule.new leg 1 = .ok q) {time : ℝ} (hT : m.TractionAt time) :
    (∀ v, m.problem.objective leg = .ok v ↔ IsMechObjective leg params traction g refined time m.prevY m.y m.prevTheta v) ∧
    ∃ f : ℝ → ℝ, m.problem.objective leg = (elasticCode g refined m.y m.prevTheta >>= fun E => .ok (f E)) := by
  obtain ⟨⟨D0, hD0⟩, ⟨D, hD⟩, T, hTθ⟩ := M.deform
  obtain ⟨d, hd1, hd2, -⟩ := dissCode_ok M.energetic hD0 hD
  obtain ⟨ys, ts, w⟩ := M.wf
  obtain ⟨n', U⟩ := M.usable
  have W := M.energetic.wf
  have hg := M.grid
  have hr := M.fine
  have hf := M.fps
  have hN := M.endpoints
  rcases m with s | s
  · obtain ⟨n, w, -, -⟩ := w
    have hg' : s.model.grid = g := hg
    have hn : n' = n := by
      have := congrArg List.length (hg' ▸ w.vertices)
      rw [U.vertices] at this
      simpa using this
    subst hn
    subst hg'
    have hr' : refined = none := hr.symm
    subst hr'
    have hnone : params.regularization = none := by
      rcases hκ : params.regularization with _ | κ
      · rfl
      · obtain ⟨a, ha, -⟩ := M.reg κ hκ; cases ha
    have htr : s.traction = traction := Option.some.inj (M.p1 hnone)
    have key : ∀ v ∈ s.model.grid.neumann.vertices, ∃ ab : ℝ × ℝ, (∃ l,
        traction time (s.model.grid.xy v).1 (s.model.grid.xy v).2 = .ok l ∧ l[0]? = some ab.1 ∧ l[1]? = some ab.2) ∧
        s.model.g1.get? v = some ab.1 ∧ s.model.g2.get? v = some ab.2 := by
      intro v hv
      obtain ⟨z, l, a, b, h1, h2, h3, h4, h5⟩ := hT s.traction rfl v hv
      have h1' : s.model.grid.At v z := h1
      rw [htr, ← xy_of_at h1'] at h2
      refine ⟨(a, b), ⟨l, h2, h3, h4⟩, ?_⟩
      have h5' : (match s.model.g1.get? v, s.model.g2.get? v with
        | some a, some b => some (a, b)
        | _, _ => none) = some (a, b) := h5
      rcases e1 : s.model.g1.get? v with _ | x
      · rw [e1] at h5'; cases h5'
      · rcases e2 : s.model.g2.get? v with _ | y
        · rw [e1, e2] at h5'; cases h5'
        · rw [e1, e2] at h5'
          cases h5'
          exact ⟨rfl, rfl⟩
    choose! Tr hTr using key
    have hb := P1MechModel.boundary_ok w.toWF U hq hN Tr fun v hv => (hTr v hv).2
    generalize hwe : s.model.grid.edgeQuad _ _ _ = bw at hb
    have hbw : IsBoundaryWork leg s.model.grid traction time (MechStep.p1 s).y bw := by
      refine ⟨q, Tr, hq, fun v hv => (hTr v hv).1, ?_⟩
      rw [← hwe]
      simp only [MechStep.y, P1Mech.y, deformed_pairs (P1MechModel.varValues_length.trans w.y1)
        (P1MechModel.varValues_length.trans w.y2) w.pos]
    have hobj : (MechStep.p1 s).problem.objective leg =
        (elasticCode s.model.grid none (MechStep.p1 s).y (MechStep.p1 s).prevTheta >>= fun E =>
          .ok (E - bw + params.fps * d)) := by
      show s.model.objective leg = _
      have hd' : s.model.dissipation = .ok d := by rw [P1MechModel.diss_eq w.toWF]; exact hd1
      have hf' : s.model.fps = params.fps := hf
      rw [P1MechModel.objective, P1MechModel.elastic_eq w.toWF, hb, hd', hf']
      rfl
    refine ⟨fun v => ?_, _, hobj⟩
    rw [hobj, bind_eq_ok]
    constructor
    · rintro ⟨E, h1, h2⟩
      refine ⟨E, d, (elasticCode_iff W).1 h1, hd2, fun _ => ⟨bw, hbw, (Except.ok.inj h2).symm⟩, ?_⟩
      intro κ hκ
      rw [hnone] at hκ; cases hκ
    · rintro ⟨E, d', h1, h2, h3, -⟩
      obtain ⟨w', h4, rfl⟩ := h3 hnone
      refine ⟨E, (elasticCode_iff W).2 h1, ?_⟩
      rw [h4.unique hN hbw, h2.unique hd2]
  · obtain ⟨n, k, w, -, -⟩ := w
    have hg' : s.model.grid = g := hg
    subst hg'
    have hr' : refined = some s.model.refined := hr.symm
    subst hr'
    obtain ⟨κ, hκ⟩ : ∃ κ, params.regularization = some κ := by
      rcases hκ : params.regularization with _ | κ
      · have := M.p1 hκ; cases this
      · exact ⟨κ, rfl⟩
    have hκ' : s.model.regularization = κ := by
      obtain ⟨a, ha, h⟩ := M.reg κ hκ
      cases ha; exact h
    obtain ⟨e, he1, he2, -⟩ := hyperCode_ok M.energetic hD
    have hobj : (MechStep.reg s).problem.objective leg =
        (elasticCode s.model.grid (some s.model.refined) (MechStep.reg s).y (MechStep.reg s).prevTheta >>= fun E =>
          .ok (E + κ * e + params.fps * d)) := by
      show s.model.objective = _
      have hd' : s.model.dissipation = .ok d := by rw [RegMechModel.diss_eq w.toWF]; exact hd1
      have he' : s.model.hyperElasticEnergy = .ok e := by rw [RegMechModel.hyper_code w.toWF]; exact he1
      have hf' : s.model.fps = params.fps := hf
      rw [RegMechModel.objective, RegMechModel.elastic_eq w.toWF, he', hd', hf', hκ']
      rfl
    refine ⟨fun v => ?_, _, hobj⟩
    rw [hobj, bind_eq_ok]
    constructor
    · rintro ⟨E, h1, h2⟩
      refine ⟨E, d, (elasticCode_iff W).1 h1, hd2, fun h => ?_, ?_⟩
      · rw [hκ] at h; cases h
      · intro κ' hκ'
        rw [hκ] at hκ'; cases hκ'
        exact ⟨_, e, rfl, he2, (Except.ok.inj h2).symm⟩
    · rintro ⟨E, d', h1, h2, -, h3⟩
      obtain ⟨r, e', h4, h5, rfl⟩ := h3 κ hκ
      cases h4
      refine ⟨E, (elasticCode_iff W).2 h1, ?_⟩
      rw [h5.unique he2, h2.unique hd2]

/-- The objective is defined exactly for orientation preserving deformations. -/
theorem MechEnv.objective_oriented (M : MechEnv m g refined params traction) {leg : LegGauss} {q : GaussRule ℝ}
    (hq : GaussRule.new leg 1 = .ok q) {time : ℝ} (hT : m.TractionAt time) :
    (∃ v, m.problem.objective leg = .ok v) ↔ Oriented g refined m.y := by
  obtain ⟨h1, f, h2⟩ := M.objective_iff hq hT
  constructor
  · rintro ⟨v, hv⟩
    obtain ⟨E, d, h3, -⟩ := (h1 v).1 hv
    exact h3.oriented M.energetic
  · intro h
    obtain ⟨-, -, T, hT⟩ := M.deform
    obtain ⟨E, hE⟩ := h.energy M.energetic.wf hT
    rw [h2, (elasticCode_iff M.energetic.wf).2 hE]
    exact ⟨_, rfl⟩

end

end Tve
