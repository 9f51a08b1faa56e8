import Verif.Lemmas.HeatBalance
import Verif.Props.Energy

/-!
# C69: the thermal objective and the heat balance
-/

namespace Tve

section
variable {solver : Solver} {domain : RectDomain ℝ} {params : SimParams} {ext : ExtTemp} {traction : Traction} {s : Sim}
  {leg : LegGauss} {q : GaussRule ℝ}

/-- **C69** (the objective). The objective of the thermal problem solved between two recorded steps `a` and `b`, at the starting
guess and at the answer of the solver, is the objective of the specification: diffusion minus heat production times
temperature, plus the boundary term with the external temperature at time `k / fps` (without regularization), plus `fps` times
the thermal dissipation. It is defined exactly if both deformations preserve the orientation. -/
theorem C69_objective (hs : s.Healthy solver domain params ext traction) (hq : GaussRule.new leg 1 = .ok q) {k : ℕ}
    {a b : Step} (ha : s.steps[k]? = some a) (hb : s.steps[k + 1]? = some b) :
    ∃ p, s.calls[2 * k + 1]? = some p ∧
      (∀ v, p.objective leg = .ok v ↔
        IsThermObjective leg params ext s.grid s.refined (k / params.fps) a.yData b.yData a.thetaData a.thetaData v) ∧
      (∀ v, (p.load (solver (s.calls.take (2 * k + 1)) p)).objective leg = .ok v ↔
        IsThermObjective leg params ext s.grid s.refined (k / params.fps) a.yData b.yData a.thetaData b.thetaData v) ∧
      ((∃ v, p.objective leg = .ok v) ↔ Oriented s.grid s.refined a.yData ∧ Oriented s.grid s.refined b.yData) := by
  obtain ⟨m0, t0, c, H⟩ := hs.history
  obtain ⟨m, t, h1, h2, st1, st2, -, S⟩ := H.each k _ _ ha hb
  have htake : s.calls.take (2 * k + 1) = s.calls.take (2 * k) ++ [m.problem] := by
    rw [List.take_add_one, h1]; rfl
  rw [htake]
  set o := solver (s.calls.take (2 * k) ++ [m.problem]) t.problem with ho
  have w' := S.thermWF.load o
  have M := c.thermEnv S.thermWF st2
  have M' : ThermEnv (t.load o) s.grid s.refined params ext := c.thermEnv w'.1 (by rw [← st2]; cases t <;> rfl)
  have i0 := fun v => M.objective_iff hq S.therm.extAt v
  have i1 := fun v => M'.objective_iff hq (S.therm.extAt.load o) v
  have i2 := M.objective_oriented hq S.therm.extAt
  have e := S.theta
  rw [S.therm.prevY, S.therm.y, S.therm.prevTheta, S.therm.theta] at i0
  rw [w'.2.1, w'.2.2.1, w'.2.2.2.1, S.therm.prevY, S.therm.y, S.therm.prevTheta, ← e, ThermStep.load_problem] at i1
  rw [S.therm.prevY, S.therm.y] at i2
  exact ⟨t.problem, h2, i0, i1, i2⟩

/-- **C69** (the derivative). Between two recorded steps `a` and `b`, for all nodal temperatures `θ` and all perturbations `η`: the
objective at `θ + τ η` is a differentiable function of `τ`, and its derivative at `0` is the weak heat balance at
`θ` with test function `η`: change of the internal energy times `fps`, minus dissipation rate and adiabatic coupling, plus
conduction, plus exchange with the environment. Partial: the conductivity is twice `heat_conductivity_reference`, see
`C69_conduction_false`. -/
theorem C69_derivative_partial (hs : s.Healthy solver domain params ext traction) (hq : GaussRule.new leg 1 = .ok q) {k : ℕ}
    {a b : Step} (ha : s.steps[k]? = some a) (hb : s.steps[k + 1]? = some b)
    (oa : Oriented s.grid s.refined a.yData) (ob : Oriented s.grid s.refined b.yData) :
    ∃ p, s.calls[2 * k + 1]? = some p ∧ p.unknowns.length = (energyGrid s.grid s.refined).vertices.length ∧
      ∀ (θ η : ℕ → ℝ), ∃ (J : ℝ → ℝ) (R : ℝ),
        (∀ (τ : ℝ) (o : Outcome), o.theta = (fun i => θ i + τ * η i) → (p.load o).objective leg = .ok (J τ)) ∧
        HasDerivAt J R 0 ∧
        IsHeatBalance 2 leg params ext s.grid s.refined (k / params.fps) a.yData b.yData a.thetaData
          (NdArray.of1 ((energyGrid s.grid s.refined).vertices.map θ))
          (NdArray.of1 ((energyGrid s.grid s.refined).vertices.map η)) R := by
  obtain ⟨m0, t0, c, H⟩ := hs.history
  obtain ⟨m, t, h1, h2, st1, st2, -, S⟩ := H.each k _ _ ha hb
  have M := c.thermEnv S.thermWF st2
  obtain ⟨nx, ny, sc, L⟩ := M.energetic.lib
  have hv := (C22_structure L).2.2.2.1
  have hn : (energyGrid s.grid s.refined).vertices.length = (nx + 1) * (ny + 1) := by rw [hv, List.length_range]
  refine ⟨t.problem, h2, M.lengths.2.2, fun θ η => ?_⟩
  have hl : ∀ θ : ℕ → ℝ, (energyGrid s.grid s.refined).vertices.map θ = nodalList ((nx + 1) * (ny + 1)) θ := fun θ => by
    rw [hv]; rfl
  have hext : params.regularization = none → ∃ e, ext (k / params.fps) = .ok e := fun hr => by
    obtain ⟨x, -, hx, -⟩ := S.therm.ext ext (M.p1 hr)
    exact ⟨x, hx⟩
  have hθ0 : a.thetaData.data.length = (nx + 1) * (ny + 1) := by
    rw [← S.therm.prevTheta, M.lengths.1, hn]
  obtain ⟨J, R, j1, j2, j3⟩ := thermObjective_deriv M.energetic oa ob hn hθ0 hq hext θ η
  rw [hl, hl]
  refine ⟨J, R, fun τ o ho => ?_, j2, j3⟩
  have w' := S.thermWF.load o
  have M' : ThermEnv (t.load o) s.grid s.refined params ext := c.thermEnv w'.1 (by rw [← st2]; cases t <;> rfl)
  have i1 := M'.objective_iff hq (S.therm.extAt.load o) (J τ)
  rw [w'.2.1, w'.2.2.1, w'.2.2.2.1, S.therm.prevY, S.therm.y, S.therm.prevTheta, ThermStep.load_problem] at i1
  rw [i1]
  have hlen := M.lengths.2.2
  have hth : (t.load o).theta.data = nodalList ((nx + 1) * (ny + 1)) fun i => θ i + τ * η i := by
    rw [w'.2.2.2.2.1, ← ho, ← hn, ← hlen, nodalList]
    rcases t with t | t
    · show t.model.theta.mapIdx _ = (List.range t.model.theta.length).map _
      rw [List.mapIdx_eq_zipIdx_map, List.range_eq_range', ← List.zipIdx_map_snd, List.map_map]; rfl
    · show t.model.theta.mapIdx _ = (List.range t.model.theta.length).map _
      rw [List.mapIdx_eq_zipIdx_map, List.range_eq_range', ← List.zipIdx_map_snd, List.map_map]; rfl
  have := j1 τ
  unfold IsThermObjective at this ⊢
  rw [hth]
  exact this

/-- **C69** (conduction). In every simulation the derivative of the objective is not the heat balance with the conductivity
`heat_conductivity_reference`: there is a temperature `θ` for which the balance fails in direction `θ`. The objective
contains the diffusion term without the factor one half, so that its derivative has conduction twice. -/
theorem C69_conduction_false (hs : s.Healthy solver domain params ext traction) (hq : GaussRule.new leg 1 = .ok q) {k : ℕ}
    {a b : Step} (ha : s.steps[k]? = some a) (hb : s.steps[k + 1]? = some b)
    (oa : Oriented s.grid s.refined a.yData) (ob : Oriented s.grid s.refined b.yData) :
    ∃ p, s.calls[2 * k + 1]? = some p ∧ ∃ (θ : ℕ → ℝ) (J : ℝ → ℝ) (R : ℝ),
        (∀ (τ : ℝ) (o : Outcome), o.theta = (fun i => θ i + τ * θ i) → (p.load o).objective leg = .ok (J τ)) ∧
        HasDerivAt J R 0 ∧
        ¬ IsHeatBalance 1 leg params ext s.grid s.refined (k / params.fps) a.yData b.yData a.thetaData
          (NdArray.of1 ((energyGrid s.grid s.refined).vertices.map θ))
          (NdArray.of1 ((energyGrid s.grid s.refined).vertices.map θ)) R := by
  obtain ⟨p, h1, -, h2⟩ := C69_derivative_partial hs hq ha hb oa ob
  refine ⟨p, h1, fun v => ((energyGrid s.grid s.refined).xy v).1, ?_⟩
  obtain ⟨J, R, j1, j2, j3⟩ := h2 (fun v => ((energyGrid s.grid s.refined).xy v).1) (fun v => ((energyGrid s.grid s.refined).xy v).1)
  refine ⟨J, R, j1, j2, fun h => ?_⟩
  obtain ⟨m0, t0, c, H⟩ := hs.history
  have E := c.energetic
  obtain ⟨nx, ny, sc, L⟩ := E.lib
  have hv := (C22_structure L).2.2.2.1
  obtain ⟨r, K, x, z, G, H, g1, g2, g3, g4, g5⟩ := h.gap j3
  have hl : (energyGrid s.grid s.refined).vertices.map (fun v => ((energyGrid s.grid s.refined).xy v).1) =
      nodalList ((nx + 1) * (ny + 1)) fun v => ((energyGrid s.grid s.refined).xy v).1 := by
    rw [nodalList, ← hv]
  have := conduction_pos E g1 g2 (n := (nx + 1) * (ny + 1)) (by rw [hv, List.length_range]) (hl ▸ g3) (hl ▸ g4)
  linarith

/-- **C69** (minimizers). If the temperature found by the solver minimizes the objective locally in direction of a perturbation
`η`, then it satisfies the weak heat balance with test function `η`. Partial: with twice the conductivity, see
`C69_conduction_false`. -/
theorem C69_minimizer_partial (hs : s.Healthy solver domain params ext traction) (hq : GaussRule.new leg 1 = .ok q) {k : ℕ}
    {a b : Step} (ha : s.steps[k]? = some a) (hb : s.steps[k + 1]? = some b)
    (oa : Oriented s.grid s.refined a.yData) (ob : Oriented s.grid s.refined b.yData) {p : Problem}
    (hp : s.calls[2 * k + 1]? = some p) {η : ℕ → ℝ} {δ : ℝ} (hδ : 0 < δ)
    (hmin : ∀ o o' v v', o = solver (s.calls.take (2 * k + 1)) p →
      (∃ τ, |τ| < δ ∧ o'.theta = fun i => o.theta i + τ * η i) → (p.load o).objective leg = .ok v →
      (p.load o').objective leg = .ok v' → v ≤ v') :
    IsHeatBalance 2 leg params ext s.grid s.refined (k / params.fps) a.yData b.yData a.thetaData b.thetaData
      (NdArray.of1 ((energyGrid s.grid s.refined).vertices.map η)) 0 := by
  obtain ⟨p', h1, h1', h2⟩ := C69_derivative_partial hs hq ha hb oa ob
  cases h1.symm.trans hp
  set o := solver (s.calls.take (2 * k + 1)) p with ho
  obtain ⟨J, R, j1, j2, j3⟩ := h2 o.theta η
  have hR : R = 0 := by
    refine IsLocalMin.hasDerivAt_eq_zero ?_ j2
    rw [IsLocalMin, IsMinFilter, Metric.eventually_nhds_iff]
    refine ⟨δ, hδ, fun τ hτ => ?_⟩
    rw [Real.dist_0_eq_abs] at hτ
    refine hmin o ⟨o.y1, o.y2, fun i => o.theta i + τ * η i, none⟩ _ _ rfl ⟨τ, hτ, rfl⟩ (j1 0 o ?_) (j1 τ _ rfl)
    funext i; simp
  rw [hR] at j3
  have e : (energyGrid s.grid s.refined).vertices.map o.theta = b.thetaData.data := by
    obtain ⟨m0, t0, c, H⟩ := hs.history
    obtain ⟨m, t, k1, k2, st1, st2, -, S⟩ := H.each k _ _ ha hb
    cases hp.symm.trans k2
    have htake : s.calls.take (2 * k + 1) = s.calls.take (2 * k) ++ [m.problem] := by
      rw [List.take_add_one, k1]; rfl
    rw [htake] at ho
    have w' := S.thermWF.load o
    rw [S.theta, ← ho, w'.2.2.2.2.1]
    have M := c.thermEnv S.thermWF st2
    obtain ⟨nx, ny, sc, L⟩ := M.energetic.lib
    have hv := (C22_structure L).2.2.2.1
    have hn : (energyGrid s.grid s.refined).vertices.length = (nx + 1) * (ny + 1) := by rw [hv, List.length_range]
    have hlen := M.lengths.2.2
    rw [hv, ← hn, ← hlen]
    rcases t with t | t
    · show (List.range t.model.theta.length).map _ = t.model.theta.mapIdx _
      rw [List.mapIdx_eq_zipIdx_map, List.range_eq_range', ← List.zipIdx_map_snd, List.map_map]; rfl
    · show (List.range t.model.theta.length).map _ = t.model.theta.mapIdx _
      rw [List.mapIdx_eq_zipIdx_map, List.range_eq_range', ← List.zipIdx_map_snd, List.map_map]; rfl
  unfold IsHeatBalance at j3 ⊢
  rw [← e]
  exact j3

end

/-- a simulation in which the hypotheses of C69 hold and in which the derivative of the objective is not the heat balance, with
and without regularization -/
example (it : SetIter) {params : SimParams} (hp : params = exampleParams ∨ params = exampleParamsReg) :
    ∃ (leg : LegGauss) (s : Sim) (a b : Step) (p : Problem) (θ : ℕ → ℝ) (J : ℝ → ℝ) (R : ℝ), s.steps[2]? = some a ∧
      s.steps[3]? = some b ∧ s.calls[5]? = some p ∧
      (∀ (τ : ℝ) (o : Outcome), o.theta = (fun i => θ i + τ * θ i) → (p.load o).objective leg = .ok (J τ)) ∧
      HasDerivAt J R 0 ∧
      ¬ IsHeatBalance 1 leg params (fun t => .ok (t ^ 2)) s.grid s.refined (2 / params.fps) a.yData b.yData a.thetaData
        (NdArray.of1 ((energyGrid s.grid s.refined).vertices.map θ))
        (NdArray.of1 ((energyGrid s.grid s.refined).vertices.map θ)) R := by
  obtain ⟨leg, q, s, a, b, h1, h2, h3, h4, h5, h6, h7, h8⟩ := example_energy it hp
  obtain ⟨p, k1, θ, J, R, k2, k3, k4⟩ := C69_conduction_false h1 h3 h5 h6 h7 h8
  exact ⟨leg, s, a, b, p, θ, J, R, h5, h6, k1, k2, k3, by exact_mod_cast k4⟩

end Tve
