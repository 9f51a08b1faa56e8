import Verif.Lemmas.EnergySim
import Verif.Props.Usable

/-!
# C63, C68, C73: energies
-/

namespace Tve

section
variable {solver : Solver} {domain : RectDomain ℝ} {params : SimParams} {ext : ExtTemp} {traction : Traction} {s : Sim}
  {leg : LegGauss} {q : GaussRule ℝ}

/-! ### C63 -/

/-- **C63** (the objective). The objective of the mechanical problem solved between two recorded steps `a` and `b`, at the
starting guess and at the answer of the solver, is the objective of the specification: elastic energy at the new
deformation and the previous temperature, minus the work of the boundary traction at time `k / fps` (with regularization: plus
the weighted hyper elastic energy), plus `fps` times the dissipation. It is defined only for orientation preserving
deformations. -/
theorem C63_objective (hs : s.Healthy solver domain params ext traction) (hq : GaussRule.new leg 1 = .ok q) {k : ℕ}
    {a b : Step} (ha : s.steps[k]? = some a) (hb : s.steps[k + 1]? = some b) :
    ∃ p, s.calls[2 * k]? = some p ∧
      (∀ v, p.objective leg = .ok v ↔
        IsMechObjective leg params traction s.grid s.refined (k / params.fps) a.yData a.yData a.thetaData v) ∧
      (∀ v, (p.load (solver (s.calls.take (2 * k)) p)).objective leg = .ok v ↔
        IsMechObjective leg params traction s.grid s.refined (k / params.fps) a.yData b.yData a.thetaData v) ∧
      ((∃ v, (p.load (solver (s.calls.take (2 * k)) p)).objective leg = .ok v) ↔ Oriented s.grid s.refined b.yData) := by
  obtain ⟨m0, t0, c, H⟩ := hs.history
  obtain ⟨m, t, h1, h2, st1, st2, -, S⟩ := H.each k _ _ ha hb
  have w' := S.mechWF.load (solver (s.calls.take (2 * k)) m.problem)
  have M := c.mechEnv S.mechWF st1
  have M' : MechEnv (m.load (solver (s.calls.take (2 * k)) m.problem)) s.grid s.refined params traction :=
    c.mechEnv w'.1 (by rw [← st1]; cases m <;> rfl)
  have i0 := (M.objective_iff hq S.mech.tractionAt).1
  have i1 := (M'.objective_iff hq (S.mech.tractionAt.load (solver (s.calls.take (2 * k)) m.problem))).1
  have i2 := M'.objective_oriented hq (S.mech.tractionAt.load (solver (s.calls.take (2 * k)) m.problem))
  rw [S.mech.prevY, S.mech.y, S.mech.prevTheta] at i0
  rw [w'.2.1, w'.2.2.1, S.mech.prevY, S.mech.prevTheta, ← S.y, MechStep.load_problem] at i1
  rw [← S.y, MechStep.load_problem] at i2
  exact ⟨m.problem, h1, i0, i1, i2⟩

/-- **C63**. If the solver does not increase the objective, then without regularization elastic energy minus boundary work
(at the temperature and the traction of the step) plus `fps` times the dissipation after a step is at most elastic energy minus
boundary work before the step. In particular elastic energy minus boundary work decreases. -/
theorem C63_energy_decreases (hs : s.Healthy solver domain params ext traction) (hq : GaussRule.new leg 1 = .ok q)
    (hd : solver.Decreases leg) (hreg : params.regularization = none) {k : ℕ} {a b : Step} (ha : s.steps[k]? = some a)
    (hb : s.steps[k + 1]? = some b) :
    ∃ E0 E1 w0 w1 d, IsElasticEnergy s.grid s.refined a.yData a.thetaData E0 ∧
      IsElasticEnergy s.grid s.refined b.yData a.thetaData E1 ∧
      IsBoundaryWork leg s.grid traction (k / params.fps) a.yData w0 ∧
      IsBoundaryWork leg s.grid traction (k / params.fps) b.yData w1 ∧
      IsDissipation s.grid s.refined a.yData b.yData d ∧ 0 ≤ d ∧
      E1 - w1 + params.fps * d ≤ E0 - w0 ∧ E1 - w1 ≤ E0 - w0 := by
  obtain ⟨m0, t0, c, H⟩ := hs.history
  obtain ⟨m, t, h1, h2, st1, st2, -, S⟩ := H.each k _ _ ha hb
  have ho := (hs.reachable.oriented hq hd).2 a (List.mem_of_getElem? ha)
  obtain ⟨v0, v1, k0, k1, hle⟩ := c.solve hq hd S.mechWF st1 S.mech ho _ S.mechOk
  rw [← S.y] at k1
  obtain ⟨E0, d0, a1, a2, a3, -⟩ := k0
  obtain ⟨E1, d1, b1, b2, b3, -⟩ := k1
  obtain ⟨w0, a3', rfl⟩ := a3 hreg
  obtain ⟨w1, b3', rfl⟩ := b3 hreg
  have w' := S.mechWF.load (solver (s.calls.take (2 * k)) m.problem)
  have M' : MechEnv (m.load (solver (s.calls.take (2 * k)) m.problem)) s.grid s.refined params traction :=
    c.mechEnv w'.1 (by rw [← st1]; cases m <;> rfl)
  obtain ⟨⟨D0, hD0⟩, ⟨D, hD⟩, -⟩ := M'.deform
  rw [w'.2.1, S.mech.prevY] at hD0
  rw [← S.y] at hD
  obtain ⟨e0, -, e1, -, e2⟩ := dissCode_ok c.energetic hD0 hD0
  obtain ⟨f0, -, f1, f2, -⟩ := dissCode_ok c.energetic hD0 hD
  cases a2.unique e1
  cases b2.unique f1
  rw [e2 rfl] at hle
  have hf := c.setup.facts.2.2.1
  have := mul_nonneg hf f2
  exact ⟨E0, E1, w0, w1, d1, a1, b1, a3', b3', b2, f2, by linarith, by linarith⟩

/-- **C63** (with regularization). Elastic energy plus weighted hyper elastic energy plus `fps` times the dissipation after
a step is at most elastic plus weighted hyper elastic energy before the step. -/
theorem C63_energy_decreases_regularized (hs : s.Healthy solver domain params ext traction)
    (hq : GaussRule.new leg 1 = .ok q) (hd : solver.Decreases leg) {κ : ℝ} (hreg : params.regularization = some κ) {k : ℕ}
    {a b : Step} (ha : s.steps[k]? = some a) (hb : s.steps[k + 1]? = some b) :
    ∃ r, s.refined = some r ∧ ∃ E0 E1 h0 h1 d, IsElasticEnergy s.grid s.refined a.yData a.thetaData E0 ∧
      IsElasticEnergy s.grid s.refined b.yData a.thetaData E1 ∧
      IsHyperEnergy s.grid r a.yData h0 ∧ IsHyperEnergy s.grid r b.yData h1 ∧ 0 ≤ h1 ∧
      IsDissipation s.grid s.refined a.yData b.yData d ∧ 0 ≤ d ∧
      E1 + κ * h1 + params.fps * d ≤ E0 + κ * h0 ∧ E1 + κ * h1 ≤ E0 + κ * h0 := by
  obtain ⟨m0, t0, c, H⟩ := hs.history
  obtain ⟨m, t, h1, h2, st1, st2, -, S⟩ := H.each k _ _ ha hb
  have ho := (hs.reachable.oriented hq hd).2 a (List.mem_of_getElem? ha)
  obtain ⟨v0, v1, k0, k1, hle⟩ := c.solve hq hd S.mechWF st1 S.mech ho _ S.mechOk
  rw [← S.y] at k1
  obtain ⟨E0, d0, a1, a2, -, a3⟩ := k0
  obtain ⟨E1, d1, b1, b2, -, b3⟩ := k1
  obtain ⟨r, h0, a4, a3', rfl⟩ := a3 κ hreg
  obtain ⟨r', h1, b4, b3', rfl⟩ := b3 κ hreg
  cases a4.symm.trans b4
  have w' := S.mechWF.load (solver (s.calls.take (2 * k)) m.problem)
  have M' : MechEnv (m.load (solver (s.calls.take (2 * k)) m.problem)) s.grid s.refined params traction :=
    c.mechEnv w'.1 (by rw [← st1]; cases m <;> rfl)
  obtain ⟨⟨D0, hD0⟩, ⟨D, hD⟩, -⟩ := M'.deform
  rw [w'.2.1, S.mech.prevY] at hD0
  rw [← S.y] at hD
  obtain ⟨e0, -, e1, -, e2⟩ := dissCode_ok c.energetic hD0 hD0
  obtain ⟨f0, -, f1, f2, -⟩ := dissCode_ok c.energetic hD0 hD
  have en := c.energetic
  rw [a4] at en hD
  obtain ⟨x, -, x1, x2⟩ := hyperCode_ok en hD
  cases b3'.unique x1
  cases a2.unique e1
  cases b2.unique f1
  rw [e2 rfl] at hle
  have hf := c.setup.facts.2.2.1
  have := mul_nonneg hf f2
  exact ⟨r, a4, E0, E1, h0, h1, d1, a1, b1, a3', b3', x2, b2, f2, by linarith, by linarith⟩

/-- **C63** (no motion, no dissipation). -/
theorem C63_no_dissipation (hs : s.Reachable solver domain params ext traction) {st : Step} (hst : st ∈ s.steps) :
    IsDissipation s.grid s.refined st.yData st.yData 0 := by
  obtain ⟨m0, t0, c⟩ := hs.context
  obtain ⟨D, hD, -⟩ := c.deform_has (c.has st hst).1
  obtain ⟨e0, -, e1, -, e2⟩ := dissCode_ok c.energetic hD hD
  rw [e2 rfl] at e1
  exact e1

/-! ### C73 -/

/-- **C73**. If the solver does not increase the objective, every recorded deformation preserves the orientation at all
quadrature points of the elastic energy. -/
theorem C73_oriented (hs : s.Reachable solver domain params ext traction) (hq : GaussRule.new leg 1 = .ok q)
    (hd : solver.Decreases leg) : ∀ st ∈ s.steps, Oriented s.grid s.refined st.yData :=
  (hs.oriented hq hd).2

/-- **C73** (no triangle is turned over). Without regularization, every triangle of the grid is mapped by every recorded
deformation to a triangle with the same orientation and positive area. -/
theorem C73_triangles (hs : s.Reachable solver domain params ext traction) (hq : GaussRule.new leg 1 = .ok q)
    (hd : solver.Decreases leg) (hreg : params.regularization = none) :
    ∀ st ∈ s.steps, ∀ t ∈ s.grid.triangles, 0 < cross (s.grid.xy t.1) (s.grid.xy t.2.1) (s.grid.xy t.2.2) ∧
      0 < cross (st.yData.deformed t.1) (st.yData.deformed t.2.1) (st.yData.deformed t.2.2) := by
  obtain ⟨m0, t0, c⟩ := hs.context
  obtain ⟨it, hg⟩ := c.grid
  obtain ⟨G, hr, -⟩ := c.setup.grids hg c.refined
  intro st hst t ht
  have hpos : 0 < cross (s.grid.xy t.1) (s.grid.xy t.2.1) (s.grid.xy t.2.2) := by
    obtain ⟨x, y, z, h1, h2, h3, -, -, -, h4⟩ := (C22_structure G).2.2.2.2.2.2.2 t ht
    rwa [xy_of_at h1, xy_of_at h2, xy_of_at h3]
  refine ⟨hpos, ?_⟩
  obtain ⟨D, hD, hP⟩ := c.deform_has (c.has st hst).1
  obtain ⟨n, A, B, hn, hA, hB, hy, hD'⟩ := hP hreg
  obtain ⟨D', r, e1, e2, e3⟩ := C73_oriented hs hq hd st hst
  cases hD.symm.trans e1
  obtain ⟨r', e2', good⟩ := energyRule_good s.refined
  cases e2.symm.trans e2'
  obtain ⟨b, hb⟩ := List.exists_mem_of_ne_nil _ good.ne
  rw [hr hreg] at e3
  obtain ⟨F, h1, h2⟩ := e3 t ht b hb
  have h3 := p1_strains G hD' t ht b (good.inside b hb).1
  have h4 := matOf_inj (Except.ok.inj (h1.symm.trans h3))
  have h5 := p1Strain_det A B (G.nondegenerate ht) b
  rw [hy, deformed_pairs hA hB hn, deformed_pairs hA hB hn, deformed_pairs hA hB hn, ← h5, ← h4]
  exact mul_pos h2 hpos

/-! ### C68 -/

theorem potential_one {θ a : ℝ} (ha : Helpers.austenitePercentage θ = .ok a) :
    Helpers.totalElasticPotential (matOf (1 : Matrix (Fin 2) (Fin 2) ℝ)) θ = .ok ((1 - a) / 16) := by
  have h1 : (0 : ℝ) < (1 : Matrix (Fin 2) (Fin 2) ℝ).det := by simp
  rw [Helpers.totalElasticPotential, ha, bind_ok, Helpers.austPot_eq h1, bind_ok, bind_ok, Helpers.martPot_eq h1.ne', bind_ok]
  have e1 : Helpers.fsq (1 : Matrix (Fin 2) (Fin 2) ℝ) = 2 := by simp [Helpers.fsq]; norm_num
  have e2 : Helpers.wA (1 : Matrix (Fin 2) (Fin 2) ℝ) = 0 := by
    simp only [Helpers.wA, e1, Matrix.det_one, Real.log_one]; norm_num
  have e3 : Helpers.wM (1 : Matrix (Fin 2) (Fin 2) ℝ) = 1 / 16 := by
    simp only [Helpers.wM, e1, Matrix.det_one]; norm_num
  rw [e2, e3]
  show Except.ok _ = _
  congr 1
  ring

/-- **C68** (data). The first recorded step has every vertex at its place and the initial temperature everywhere; its
deformation is the identity on every triangle of the grid (with regularization: of the refined grid), with strain the
identity matrix and, with regularization, vanishing hyperstrain. -/
theorem C68_initial (hs : s.Reachable solver domain params ext traction) :
    ∃ st, s.steps[0]? = some st ∧ (∀ v ∈ s.grid.vertices, st.yData.deformed v = s.grid.xy v) ∧
      st.thetaData.data = List.replicate (energyGrid s.grid s.refined).vertices.length params.initialTemperature ∧
      ∃ D, deformOf s.grid s.refined st.yData = .ok D ∧
        ∀ t ∈ (energyGrid s.grid s.refined).triangles, ∀ c : Bary ℝ, c.Normalized →
          D.call t c = .ok (vec2 ((energyGrid s.grid s.refined).pointAt t c)) ∧
          D.strain t c = .ok (matOf (1 : Matrix (Fin 2) (Fin 2) ℝ)) ∧
          (params.regularization ≠ none → D.hyperStrain t c = .ok (tenOf (fun (_ _ _ : Fin 2) => (0 : ℝ)))) := by
  obtain ⟨m0, t0, c⟩ := hs.context
  obtain ⟨st, h1, h2, h3⟩ := c.first
  obtain ⟨it, hg⟩ := c.grid
  obtain ⟨Sh, ⟨n, U⟩, F⟩ := c.setup.simShape hg c.refined c.mech0
  obtain ⟨i1, i2, i3, i4⟩ := mechanicalStep_initial U F c.mech0
  obtain ⟨G, g1, g2⟩ := c.setup.grids hg c.refined
  obtain ⟨D, hD, hid, hh⟩ := c.initial
  refine ⟨st, h1, ?_, ?_, D, by rw [h2]; exact hD, fun t ht b hb => ⟨hid.value t ht b hb, hid.strain t ht b hb,
    fun h => hh h t ht b hb⟩⟩
  · intro v hv
    rw [U.vertices] at hv
    rw [h2]; exact i1 v (List.mem_range.1 hv)
  · rw [h3]
    by_cases hr : params.regularization = none
    · rw [(i3 hr).2, g1 hr]
      simp [energyGrid, U.length, NdArray.of1, SimParams.mechanicalStepParams]
    · obtain ⟨-, ⟨r, k, e1, e2, e3⟩, -⟩ := i4 hr
      rw [e3, e1]
      simp [energyGrid, e2.length, NdArray.of1, SimParams.mechanicalStepParams]

/-- **C68** (energy). The elastic energy of the first step is `(1 - austenite_percentage(theta0)) / 16` times the area of the
rectangle covered by the grid, up to the rounding of the weights of the quadrature rule with regularization; its hyper
elastic energy vanishes. -/
theorem C68_energy (hs : s.Reachable solver domain params ext traction) :
    ∃ st a E, s.steps[0]? = some st ∧ Helpers.austenitePercentage params.initialTemperature = .ok a ∧
      IsElasticEnergy s.grid s.refined st.yData st.thetaData E ∧
      (params.regularization = none →
        E = (1 - a) / 16 * ((cells domain.width params.scale * params.scale) * (cells domain.height params.scale * params.scale))) ∧
      |E - (1 - a) / 16 * ((cells domain.width params.scale * params.scale) * (cells domain.height params.scale * params.scale))| ≤
        1 / 10 ^ 14 * ((cells domain.width params.scale * params.scale) * (cells domain.height params.scale * params.scale)) ∧
      (params.regularization ≠ none → ∃ r, s.refined = some r ∧ IsHyperEnergy s.grid r st.yData 0) := by
  obtain ⟨st, h1, -, h3, D, hD, hid⟩ := C68_initial hs
  obtain ⟨m0, t0, c⟩ := hs.context
  obtain ⟨it, hg⟩ := c.grid
  obtain ⟨G, g1, g2⟩ := c.setup.grids hg c.refined
  have hs0 := c.setup.facts.2.2.2.1
  have hθ := c.setup.facts.1
  have W := c.energetic.wf
  have area : (energyGrid s.grid s.refined).area =
      (cells domain.width params.scale * params.scale) * (cells domain.height params.scale * params.scale) := by
    by_cases hr : params.regularization = none
    · rw [g1 hr]; exact library_total_area G
    · obtain ⟨n, r, p, k1, k2, k3, k4, k5, -⟩ := g2 hr
      rw [k3]
      exact (C27_total_area G k1 (c.setup.fine' k2).2 k4).trans (library_total_area G)
  obtain ⟨a, ha0, -, -, ha, -⟩ := C46_percentage
  obtain ⟨ha1, ha2⟩ := ha _ hθ
  obtain ⟨T, hT⟩ := P1_ok (g := energyGrid s.grid s.refined) (u := st.thetaData.data) (by rw [h3]; simp)
  obtain ⟨r, hr, good⟩ := energyRule_good s.refined
  have key : IsElasticEnergy s.grid s.refined st.yData st.thetaData
      ((energyGrid s.grid s.refined).quad r fun _ _ => (1 - a params.initialTemperature) / 16) := by
    refine ⟨D, T, r, _, hD, hT, hr, fun t ht b hb => ⟨_, params.initialTemperature, (hid t ht b (good.inside b hb).1).2.1, ?_,
      potential_one (ha0 _)⟩, rfl⟩
    rw [temp_call W hT t ht b]
    obtain ⟨l1, l2, l3⟩ := WF.valid W ht
    have hv : (energyGrid s.grid s.refined).vertices.length = (energyGrid s.grid s.refined).points.length := by
      rw [W.vertices]; simp
    have hn := (good.inside b hb).1
    rw [← hv] at l1 l2 l3
    rw [h3]
    simp only [List.getD_eq_getElem?_getD, List.getElem?_replicate, l1, l2, l3, if_true, Option.getD_some]
    rw [← add_mul, ← add_mul]
    have hn' : b.l1 + b.l2 + b.l3 = 1 := hn
    rw [hn', one_mul]
  rw [quad_const good.len, area] at key
  set R := (cells domain.width params.scale * params.scale) * (cells domain.height params.scale * params.scale) with hR
  have hRpos : 0 ≤ R := by positivity
  refine ⟨st, _, _, h1, ha0 _, key, fun hr' => ?_, ?_, fun hr' => ?_⟩
  · obtain ⟨r', e1, e2, e3⟩ := dunavant2_good
    rw [g1 hr'] at hr
    cases e1.symm.trans hr
    rw [e3, one_mul]
  · have e : r.weights.sum * ((1 - a params.initialTemperature) / 16) * R - (1 - a params.initialTemperature) / 16 * R =
        (r.weights.sum - 1) * ((1 - a params.initialTemperature) / 16) * R := by ring
    rw [e, abs_mul, abs_mul, abs_of_nonneg hRpos]
    apply mul_le_mul_of_nonneg_right _ hRpos
    have h2 : |(1 - a params.initialTemperature) / 16| ≤ 1 := by
      rw [abs_of_nonneg (by linarith)]; linarith
    calc _ ≤ 1 / 10 ^ 14 * 1 := mul_le_mul good.sum h2 (abs_nonneg _) (by positivity)
      _ = _ := mul_one _
  · obtain ⟨n, f, p, k1, k2, k3, -⟩ := g2 hr'
    obtain ⟨r', e1, e2⟩ := dunavant5_good
    rw [k3] at hD hid
    refine ⟨f, k3, D, r', fun _ _ => 0, hD, e1, fun t ht b hb => ⟨_, (hid t ht b (e2.inside b hb).1).2.2 hr', ?_⟩, ?_⟩
    · exact ((C70_value (fun (_ _ _ : Fin 2) => (0 : ℝ))).2.1.2 (by simp)).symm
    · rw [quad_zero e2]; simp

end

/-! ### the hypotheses are satisfiable -/

/-- a simulation in which all hypotheses of C63 and C73 hold, with and without regularization: Gauss-Legendre nodes of
degree one are the single point 0 with weight 2 -/
theorem example_energy (it : SetIter) {params : SimParams} (hp : params = exampleParams ∨ params = exampleParamsReg) :
    ∃ (leg : LegGauss) (q : GaussRule ℝ) (s : Sim) (a b : Step),
      s.Healthy staySolver exampleDomain params (fun t => .ok (t ^ 2)) (fun t x y => .ok [t + x, y]) ∧
      s.Reachable staySolver exampleDomain params (fun t => .ok (t ^ 2)) (fun t x y => .ok [t + x, y]) ∧
      GaussRule.new leg 1 = .ok q ∧ staySolver.Decreases leg ∧ s.steps[2]? = some a ∧ s.steps[3]? = some b ∧
      Oriented s.grid s.refined a.yData ∧ Oriented s.grid s.refined b.yData := by
  obtain ⟨s, h1, h2, h3⟩ := example_run it hp (n := 2) (by norm_num)
  have hl : s.steps.length = 4 := by omega
  have hq := gauss_new_ok (lg := fun _ => .ok ([0], [2])) (n := 1) (P := [0]) (W := [2]) rfl
  have ho := C73_oriented h2 hq (stay_contracts.2.2.2.2.2 _)
  exact ⟨fun _ => .ok ([0], [2]), _, s, s.steps[2], s.steps[3], h1, h2, hq,
    stay_contracts.2.2.2.2.2 _, List.getElem?_eq_getElem _, List.getElem?_eq_getElem _, ho _ (List.getElem_mem _),
    ho _ (List.getElem_mem _)⟩

end Tve
