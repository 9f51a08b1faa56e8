import Verif.Lemmas.Attempts
import Verif.Props.FirstLaw
import Verif.Props.Force
import Verif.Props.Descent

/-!
# C111: the laws of motion and heat after failures
-/

namespace Tve
open Filter Topology

section
variable {solver : Solver} {domain : RectDomain ℝ} {params : SimParams} {ext : ExtTemp} {traction : Traction} {s : Sim}
  {leg : LegGauss} {q : GaussRule ℝ} {m0 m : MechStep} {t0 t : ThermStep} {b : Step} {time : ℝ} {i : ℕ} {y0 θ0 : NdArray}

/-! ### steps made from given problems (compare the proofs of C63, C92, C69, C98 and C84) -/

theorem Sim.MadeFrom.hasY (S : Sim.MadeFrom solver m0 t0 s.calls b time i m t y0 θ0) : y0.Has m0.yShape := by
  rw [← S.mech.prevY]; exact S.mechWF.prevY

theorem made_mech_objective (hq : GaussRule.new leg 1 = .ok q) (c : s.Context domain params ext traction m0 t0)
    (S : Sim.MadeFrom solver m0 t0 s.calls b time i m t y0 θ0) :
    (∀ v, m.problem.objective leg = .ok v ↔ IsMechObjective leg params traction s.grid s.refined time y0 y0 θ0 v) ∧
    (∀ v, (m.problem.load (solver (s.calls.take i) m.problem)).objective leg = .ok v ↔
      IsMechObjective leg params traction s.grid s.refined time y0 b.yData θ0 v) ∧
    ((∃ v, (m.problem.load (solver (s.calls.take i) m.problem)).objective leg = .ok v) ↔ Oriented s.grid s.refined b.yData) := by
  have st1 := S.mechStatic
  have st2 := S.thermStatic
  have w' := S.mechWF.load (solver (s.calls.take (i)) m.problem)
  have M := c.mechEnv S.mechWF st1
  have M' : MechEnv (m.load (solver (s.calls.take (i)) m.problem)) s.grid s.refined params traction :=
    c.mechEnv w'.1 (by rw [← st1]; cases m <;> rfl)
  have i0 := (M.objective_iff hq S.mech.tractionAt).1
  have i1 := (M'.objective_iff hq (S.mech.tractionAt.load (solver (s.calls.take (i)) m.problem))).1
  have i2 := M'.objective_oriented hq (S.mech.tractionAt.load (solver (s.calls.take (i)) m.problem))
  rw [S.mech.prevY, S.mech.y, S.mech.prevTheta] at i0
  rw [w'.2.1, w'.2.2.1, S.mech.prevY, S.mech.prevTheta, ← S.y, MechStep.load_problem] at i1
  rw [← S.y, MechStep.load_problem] at i2
  exact ⟨i0, i1, i2⟩

theorem made_derivative (hq : GaussRule.new leg 1 = .ok q) (c : s.Context domain params ext traction m0 t0)
    (S : Sim.MadeFrom solver m0 t0 s.calls b time i m t y0 θ0) :
    (∀ y : NdArray, y.Has y0.shape → ∃ o, m.problem.answer o = y.data) ∧
      ∀ y z : NdArray, y.Has y0.shape → z.Has y0.shape → Oriented s.grid s.refined y →
      ∃ (J : ℝ → ℝ) (R : ℝ),
        (∀ᶠ τ in 𝓝 (0 : ℝ), ∀ o, m.problem.answer o = (y.along z τ).data → (m.problem.load o).objective leg = .ok (J τ)) ∧
        HasDerivAt J R 0 ∧
        IsForceBalance leg params traction s.grid s.refined time y0 y θ0 z R := by
  have st1 := S.mechStatic
  have st2 := S.thermStatic
  have w := S.mechWF
  have hsh : y0.shape = deformShape s.grid s.refined := by
    rw [← c.yShape_eq]; exact S.hasY.1
  rw [c.yShape_eq] at w
  rw [hsh]
  have hM : ∀ o, MechEnv (m.load o) s.grid s.refined params traction := fun o =>
    c.mechEnv (w.load o).1 (by rw [← st1]; cases m <;> rfl)
  have hobj : ∀ o v, (m.problem.load o).objective leg = .ok v ↔
      IsMechObjective leg params traction s.grid s.refined (time) y0 (m.load o).y θ0 v := by
    intro o v
    have w' := w.load o
    have i1 := ((hM o).objective_iff hq (S.mech.tractionAt.load o)).1 v
    rwa [w'.2.1, w'.2.2.1, MechStep.load_problem, S.mech.prevY, S.mech.prevTheta] at i1
  have hans : ∀ o (y : NdArray), y.Has (deformShape s.grid s.refined) → m.problem.answer o = y.data → (m.load o).y = y := by
    intro o y hy ho
    have w' := w.load o
    have e1 := w'.1.y.1
    have e2 := w'.2.2.2.1
    rw [ho] at e2
    have hy1 := hy.1
    generalize (m.load o).y = Y at e1 e2
    cases Y; cases y
    simp_all
  refine ⟨fun y hy => ?_, fun y z hy hz hor => ?_⟩
  · obtain ⟨o, ho⟩ := w.exists_outcome hy
    exact ⟨o, by rw [← (w.load o).2.2.2.1, ho]⟩
  · obtain ⟨o, ho⟩ := w.exists_outcome hy
    have hdef := ((hM o).objective_oriented hq (S.mech.tractionAt.load o)).2 (by rw [ho]; exact hor)
    rw [MechStep.load_problem] at hdef
    obtain ⟨v, hv⟩ := hdef
    rw [hobj, ho] at hv
    obtain ⟨J, R, j1, j2, j3⟩ := mechObjective_deriv c.energetic hy hz hv
    refine ⟨J, R, ?_, j2, j3⟩
    filter_upwards [j1] with τ hτ o ho
    rw [hobj, hans o _ (along_has hy hz τ) ho]
    exact hτ

theorem made_equilibrium (hq : GaussRule.new leg 1 = .ok q) (c : s.Context domain params ext traction m0 t0)
    (S : Sim.MadeFrom solver m0 t0 s.calls b time i m t y0 θ0)
    (hopt : m.problem.IsOptimal leg (solver (s.calls.take i) m.problem)) (hbY : b.yData.Has m0.yShape)
    {z : NdArray} (hz : z.Has y0.shape) (hD : z.VanishesOnDirichlet s.grid)
    (hr : ∀ (i : ℕ) (u v w : ℝ), y0.data[i]? = some u → b.yData.data[i]? = some v → z.data[i]? = some w → w ≠ 0 →
      |v - u| < params.searchRadius) :
    IsForceBalance leg params traction s.grid s.refined time y0 b.yData θ0 z 0 := by
  obtain ⟨h2, h3⟩ := made_derivative hq c S
  obtain ⟨-, k2, k3⟩ := made_mech_objective hq c S
  have fx := S.mechFixed
  have hor : Oriented s.grid s.refined b.yData := k3.1 (by obtain ⟨-, v, hv, -⟩ := hopt; exact ⟨v, hv⟩)
  have st1 := S.mechStatic
  have st2 := S.thermStatic
  have hab : y0.shape = m0.yShape := S.hasY.1
  have haY := S.hasY
  rw [hab] at h3 hz
  obtain ⟨J, R, j1, j2, j3⟩ := h3 b.yData z hbY hz hor
  set o := solver (s.calls.take (i)) m.problem with ho
  obtain ⟨hadm, v, hv, hmin⟩ := hopt
  obtain ⟨it, hg⟩ := c.grid
  obtain ⟨Sh, ⟨n, U⟩, F⟩ := c.setup.simShape hg c.refined c.mech0
  obtain ⟨a1, a2, a3, a4, a5, a6, a7⟩ := mechanicalStep_facts U F c.mech0
  have hrad : m.searchRadius = params.searchRadius := (MechStep.static_searchRadius st1).trans a3
  have w := S.mechWF
  have hM : ∀ o, MechEnv (m.load o) s.grid s.refined params traction := fun o =>
    c.mechEnv (w.load o).1 (by rw [← st1]; cases m <;> rfl)
  have hcon : ∀ o, (m.problem.load o).ConstraintsHold ↔ (s.refined ≠ none → DirichletId s.grid (m.load o).y) := by
    intro o
    rw [← MechStep.load_problem]
    exact (hM o).constraints_iff
  have hnt : ¬ m.problem.IsTherm := by cases m <;> simp [MechStep.problem, Problem.IsTherm]
  have hby : m.problem.answer o = b.yData.data := by rw [← (w.load o).2.2.2.1, ← S.y]
  -- the line stays admissible
  have hbox : ∀ᶠ τ in 𝓝 (0 : ℝ), List.Forall₂ (fun (v : VarData) x => v.lb ≤ x ∧ x ≤ v.ub ∧ (v.fixed = true → x = v.value))
      m.problem.unknowns (b.yData.along z τ).data := by
    have e1 := hadm.1
    rw [hby] at e1
    have e2 := S.mech.around
    have lz := has_length hbY hz
    have lu : m.problem.unknowns.length = b.yData.data.length := e1.length_eq
    rw [List.forall₂_iff_get] at e1 e2
    have key : ∀ i : Fin m.problem.unknowns.length, ∀ᶠ τ in 𝓝 (0 : ℝ), ∀ x, (b.yData.along z τ).data[(i : ℕ)]? = some x →
        (m.problem.unknowns[i].lb ≤ x ∧ x ≤ m.problem.unknowns[i].ub ∧
          (m.problem.unknowns[i].fixed = true → x = m.problem.unknowns[i].value)) := by
      intro i
      have i1 : (i : ℕ) < b.yData.data.length := lu ▸ i.2
      have i2 : (i : ℕ) < z.data.length := lz ▸ i1
      have i3 : (i : ℕ) < y0.data.length := by rw [has_length haY hbY]; exact i1
      have f1 := e1.2 i i.2 i1
      have f2 := e2.2 i i.2 i3
      simp only [List.get_eq_getElem] at f1 f2
      have hget : ∀ τ, (b.yData.along z τ).data[(i : ℕ)]? = some (b.yData.data[(i : ℕ)] + τ * z.data[(i : ℕ)]) := by
        intro τ
        simp only [NdArray.along, List.getElem?_zipWith]
        rw [List.getElem?_eq_getElem i1, List.getElem?_eq_getElem i2]
      by_cases hw : z.data[(i : ℕ)] = 0
      · refine Filter.Eventually.of_forall fun τ x hx => ?_
        rw [hget, hw] at hx
        cases hx
        simpa using f1
      · have hlt := hr i _ _ _ (List.getElem?_eq_getElem i3) (List.getElem?_eq_getElem i1) (List.getElem?_eq_getElem i2) hw
        obtain ⟨f3, f4, f5⟩ := f2
        rw [hrad] at f4 f5
        have hcont : Filter.Tendsto (fun τ : ℝ => b.yData.data[(i : ℕ)] + τ * z.data[(i : ℕ)]) (𝓝 0) (𝓝 (b.yData.data[(i : ℕ)])) := by
          have : Continuous fun τ : ℝ => b.yData.data[(i : ℕ)] + τ * z.data[(i : ℕ)] := by fun_prop
          simpa using this.tendsto 0
        rw [abs_lt] at hlt
        have g1 := hcont.eventually (lt_mem_nhds (show y0.data[(i : ℕ)] - params.searchRadius < b.yData.data[(i : ℕ)] by linarith))
        have g2 := hcont.eventually (gt_mem_nhds (show b.yData.data[(i : ℕ)] < y0.data[(i : ℕ)] + params.searchRadius by linarith))
        filter_upwards [g1, g2] with τ t1 t2 x hx
        rw [hget] at hx
        cases hx
        have f4' : m.problem.unknowns[i].lb = y0.data[(i : ℕ)] - params.searchRadius := f4
        have f5' : m.problem.unknowns[i].ub = y0.data[(i : ℕ)] + params.searchRadius := f5
        refine ⟨by rw [f4']; exact t1.le, by rw [f5']; exact t2.le, fun hfix => absurd ?_ hw⟩
        have hflag : (m0.unknowns.map VarData.fixed)[(i : ℕ)]? = some true := by
          rw [← fx, List.getElem?_map]
          show Option.map VarData.fixed m.problem.unknowns[(i : ℕ)]? = _
          rw [List.getElem?_eq_getElem i.2]
          exact congrArg some hfix
        have hm := mechanicalStep_flags U F c.mech0 hflag
        have : z.data.getD (i : ℕ) 0 = 0 := by
          by_cases hreg : params.regularization = none
          · have hsh := (a6 hreg).2.2.1
            rw [hsh] at hm hz
            exact vanishes_getD2 hz (hD.1 _ hm.1)
          · obtain ⟨-, -, r, k, -, -, hsh, -⟩ := a7 hreg
            rw [hsh] at hm hz
            exact vanishes_getD3 hz (hm.2 rfl) (hD.1 _ hm.1)
        rwa [List.getD_eq_getElem?_getD, List.getElem?_eq_getElem i2] at this
    filter_upwards [Filter.eventually_all.2 key] with τ hτ
    rw [List.forall₂_iff_get]
    have hl : (b.yData.along z τ).data.length = b.yData.data.length := by
      simp [NdArray.along, lz]
    refine ⟨lu.trans hl.symm, fun i q1 q2 => ?_⟩
    have := hτ ⟨i, q1⟩ _ (List.getElem?_eq_getElem q2)
    exact this
  have hDir : ∀ τ, ∀ o', m.problem.answer o' = (b.yData.along z τ).data → (m.problem.load o').ConstraintsHold := by
    intro τ o' ho'
    rw [hcon]
    intro hne
    have hreg : params.regularization ≠ none := fun h0 => hne ((c.setup.grids hg c.refined).2.1 h0)
    obtain ⟨-, -, r, k, -, -, hsh, -⟩ := a7 hreg
    rw [hsh] at hz hbY
    have e : (m.load o').y = b.yData.along z τ := by
      have w' := w.load o'
      have e1 := w'.1.y.1
      have e2 := w'.2.2.2.1
      rw [ho'] at e2
      have e3 : (b.yData.along z τ).shape = m0.yShape := by rw [hsh]; exact hbY.1
      generalize (m.load o').y = Y at e1 e2
      generalize b.yData.along z τ = Y' at e2 e3
      cases Y; cases Y'
      simp_all
    rw [e]
    refine dirichletId_along U (fun v hv => ((C14_dirichlet_vertices c.setup.facts.2.2.2.1 c.setup.width c.setup.height hg).2.2 v).2 hv)
      hbY hz hD τ ?_
    have := (hcon o).1 hadm.2.2 hne
    rwa [← S.y] at this
  have hR : R = 0 := by
    refine IsLocalMin.hasDerivAt_eq_zero ?_ j2
    have h0 := j1.self_of_nhds
    have e0 : (b.yData.along z 0).data = b.yData.data := by
      have lz := has_length hbY hz
      apply List.ext_getElem
      · simp [NdArray.along, lz]
      · intro i q1 q2
        simp [NdArray.along]
    rw [e0] at h0
    have hJ0 : v = J 0 := Except.ok.inj (hv.symm.trans (h0 o hby))
    filter_upwards [j1, hbox] with τ t1 t2
    obtain ⟨o', ho'⟩ := h2 (b.yData.along z τ) (by rw [hab]; exact along_has hbY hz τ)
    rw [← hJ0]
    exact hmin o' _ ⟨by rw [ho']; exact t2, fun h => absurd h hnt, hDir τ o' ho'⟩ (t1 o' ho')
  rw [hR] at j3
  exact j3

theorem made_resultant (hq : GaussRule.new leg 1 = .ok q) (c : s.Context domain params ext traction m0 t0)
    (S : Sim.MadeFrom solver m0 t0 s.calls b time i m t y0 θ0)
    (hreg : params.regularization = none) (hfix : domain.fix.options = [])
    (hopt : m.problem.IsOptimal leg (solver (s.calls.take i) m.problem)) (hbY : b.yData.Has m0.yShape)
    (hr : ∀ (i : ℕ) (u v : ℝ), y0.data[i]? = some u → b.yData.data[i]? = some v → |v - u| < params.searchRadius) :
    IsTotalTraction leg s.grid traction time (0, 0) := by
  obtain ⟨it, hg⟩ := c.grid
  obtain ⟨Sh, ⟨n, U⟩, F⟩ := c.setup.simShape hg c.refined c.mech0
  have hnone : s.refined = none := (c.setup.grids hg c.refined).2.1 hreg
  have E := c.energetic
  have hsh : y0.shape = [n, 2] := by
    rw [S.hasY.1, c.yShape_eq, hnone, deformShape, U.length]
  have hN := (C15_neumann_vertices_partial c.setup.facts.2.2.2.1 c.setup.width c.setup.height hg).2.2.1
  have hD : ∀ v, v ∉ s.grid.dirichlet.vertices := by
    intro v hv
    obtain ⟨_, _, f, hf, -⟩ := ((C14_dirichlet_vertices c.setup.facts.2.2.2.1 c.setup.width c.setup.height hg).2.1 v).1 hv
    rw [hfix] at hf
    cases hf
  rw [hnone] at E
  have key : ∀ d : ℝ × ℝ, ∃ z : NdArray, (∀ v < n, z.deformed v = d) ∧ IsBoundaryWork leg s.grid traction (time) z 0 := by
    intro d
    obtain ⟨z, z1, z2, z3⟩ := constant_displacement E U d
    have := made_equilibrium hq c S hopt hbY (z := z) (by rw [hsh]; exact z1)
      ⟨fun v hv => absurd hv (hD v), fun h => by rw [z1.1] at h; simp at h⟩
      fun i u v w e1 e2 _ _ => hr i u v e1 e2
    rw [hnone] at this
    obtain ⟨e, f, ⟨r1, -, G, S', -, -, hr1, -, hG, -, -, rfl⟩, ⟨r2, -, -, G2, V, hr2, -, -, hG2, -, rfl⟩, h1, -⟩ := this
    obtain ⟨w, hw, hw'⟩ := h1 hreg
    have q1 : (energyGrid s.grid none).quad r1 (fun t b => ∑ i, ∑ j, S' t b i j * G t b i j) = 0 := by
      obtain ⟨r', e, hg⟩ := energyRule_good none
      cases hr1.symm.trans e
      exact quad_zero hg fun t ht b hb => by rw [z3 _ _ (Or.inl hr1) hG t ht b hb]; simp
    have q2 : (energyGrid s.grid none).quad r2 (fun t b => ∑ i, ∑ j, V t b i j * G2 t b i j) = 0 := by
      obtain ⟨r', e, hg⟩ := dissipationRule_good none
      cases hr2.symm.trans e
      exact quad_zero hg fun t ht b hb => by rw [z3 _ _ (Or.inr hr2) hG2 t ht b hb]; simp
    rw [q1, q2] at hw'
    have hw0 : w = 0 := by linarith
    exact ⟨z, z2, hw0 ▸ hw⟩
  obtain ⟨z1, d1, b1⟩ := key (1, 0)
  obtain ⟨z2, d2, b2⟩ := key (0, 1)
  have b1' := b1
  obtain ⟨r, T, hr', hT, e1⟩ := b1'
  have e2 := b2.unique hN ⟨r, T, hr', hT, rfl⟩
  have hv : ∀ e ∈ s.grid.neumann.edges, e.1 < n ∧ e.2 < n := by
    intro e he
    have hm := U.wf.edges e (U.wf.neumann.2 e he)
    exact ⟨List.mem_range.1 (U.vertices ▸ hm.1), List.mem_range.1 (U.vertices ▸ hm.2)⟩
  refine ⟨r, T, hr', hT, e1.trans ?_, e2.trans ?_⟩
  · unfold Grid.edgeQuad
    refine congrArg List.sum (List.map_congr_left fun e he => ?_)
    obtain ⟨v1, v2⟩ := hv e he
    congr 2
    funext s
    simp only [d1 _ v1, d1 _ v2]
    ring
  · unfold Grid.edgeQuad
    refine congrArg List.sum (List.map_congr_left fun e he => ?_)
    obtain ⟨v1, v2⟩ := hv e he
    congr 2
    funext s
    simp only [d2 _ v1, d2 _ v2]
    ring

theorem made_therm_objective (hq : GaussRule.new leg 1 = .ok q) (c : s.Context domain params ext traction m0 t0)
    (S : Sim.MadeFrom solver m0 t0 s.calls b time i m t y0 θ0) :
    (∀ v, t.problem.objective leg = .ok v ↔
      IsThermObjective leg params ext s.grid s.refined time y0 b.yData θ0 θ0 v) ∧
    (∀ v, (t.problem.load (solver (s.calls.take (i + 1)) t.problem)).objective leg = .ok v ↔
      IsThermObjective leg params ext s.grid s.refined time y0 b.yData θ0 b.thetaData v) ∧
    ((∃ v, t.problem.objective leg = .ok v) ↔ Oriented s.grid s.refined y0 ∧ Oriented s.grid s.refined b.yData) := by
  have st1 := S.mechStatic
  have st2 := S.thermStatic
  set o := solver (s.calls.take (i + 1)) t.problem with ho
  have w' := S.thermWF.load o
  have M := c.thermEnv S.thermWF st2
  have M' : ThermEnv (t.load o) s.grid s.refined params ext := c.thermEnv w'.1 (by rw [← st2]; cases t <;> rfl)
  have i0 := fun v => M.objective_iff hq S.therm.extAt v
  have i1 := fun v => M'.objective_iff hq (S.therm.extAt.load o) v
  have i2 := M.objective_oriented hq S.therm.extAt
  have e := S.theta
  rw [S.therm.prevY, S.therm.y, S.therm.prevTheta, S.therm.theta] at i0
  rw [w'.2.1, w'.2.2.1, w'.2.2.2.1, S.therm.prevY, S.therm.y, S.therm.prevTheta, ← e, ThermStep.load_problem] at i1
  rw [S.therm.prevY, S.therm.y] at i2
  exact ⟨i0, i1, i2⟩

theorem made_heat_derivative (hq : GaussRule.new leg 1 = .ok q) (c : s.Context domain params ext traction m0 t0)
    (S : Sim.MadeFrom solver m0 t0 s.calls b time i m t y0 θ0)
    (oa : Oriented s.grid s.refined y0) (ob : Oriented s.grid s.refined b.yData) :
    t.problem.unknowns.length = (energyGrid s.grid s.refined).vertices.length ∧
      ∀ (θ η : ℕ → ℝ), ∃ (J : ℝ → ℝ) (R : ℝ),
        (∀ (τ : ℝ) (o : Outcome), o.theta = (fun i => θ i + τ * η i) → (t.problem.load o).objective leg = .ok (J τ)) ∧
        HasDerivAt J R 0 ∧
        IsHeatBalance 2 leg params ext s.grid s.refined time y0 b.yData θ0
          (NdArray.of1 ((energyGrid s.grid s.refined).vertices.map θ))
          (NdArray.of1 ((energyGrid s.grid s.refined).vertices.map η)) R := by
  have st1 := S.mechStatic
  have st2 := S.thermStatic
  have M := c.thermEnv S.thermWF st2
  obtain ⟨nx, ny, sc, L⟩ := M.energetic.lib
  have hv := (C22_structure L).2.2.2.1
  have hn : (energyGrid s.grid s.refined).vertices.length = (nx + 1) * (ny + 1) := by rw [hv, List.length_range]
  refine ⟨M.lengths.2.2, fun θ η => ?_⟩
  have hl : ∀ θ : ℕ → ℝ, (energyGrid s.grid s.refined).vertices.map θ = nodalList ((nx + 1) * (ny + 1)) θ := fun θ => by
    rw [hv]; rfl
  have hext : params.regularization = none → ∃ e, ext (time) = .ok e := fun hr => by
    obtain ⟨x, -, hx, -⟩ := S.therm.ext ext (M.p1 hr)
    exact ⟨x, hx⟩
  have hθ0 : θ0.data.length = (nx + 1) * (ny + 1) := by
    rw [← S.therm.prevTheta, M.lengths.1, hn]
  obtain ⟨J, R, j1, j2, j3⟩ := thermObjective_deriv M.energetic oa ob hn hθ0 hq hext θ η
  rw [hl, hl]
  refine ⟨J, R, fun τ o ho => ?_, j2, j3⟩
  have w' := S.thermWF.load o
  have M' : ThermEnv (t.load o) s.grid s.refined params ext := c.thermEnv w'.1 (by rw [← st2]; cases t <;> rfl)
  have i1 := M'.objective_iff hq (S.therm.extAt.load o) (J τ)
  rw [w'.2.1, w'.2.2.1, w'.2.2.2.1, S.therm.prevY, S.therm.y, S.therm.prevTheta, ThermStep.load_problem] at i1
  rw [i1]
  have hlen := M.lengths.2.2
  have hth : (t.load o).theta.data = nodalList ((nx + 1) * (ny + 1)) fun i => θ i + τ * η i := by
    rw [w'.2.2.2.2.1, ← ho, ← hn, ← hlen, nodalList]
    rcases t with t | t
    · show t.model.theta.mapIdx _ = (List.range t.model.theta.length).map _
      rw [List.mapIdx_eq_zipIdx_map, List.range_eq_range', ← List.zipIdx_map_snd, List.map_map]; rfl
    · show t.model.theta.mapIdx _ = (List.range t.model.theta.length).map _
      rw [List.mapIdx_eq_zipIdx_map, List.range_eq_range', ← List.zipIdx_map_snd, List.map_map]; rfl
  have := j1 τ
  unfold IsThermObjective at this ⊢
  rw [hth]
  exact this

theorem made_therm_value (hq : GaussRule.new leg 1 = .ok q) (c : s.Context domain params ext traction m0 t0)
    (S : Sim.MadeFrom solver m0 t0 s.calls b time i m t y0 θ0)
    (oa : Oriented s.grid s.refined y0) (ob : Oriented s.grid s.refined b.yData) :
    ∃ n, (energyGrid s.grid s.refined).vertices.length = n ∧ t.problem.unknowns.length = n ∧ t.problem.IsTherm ∧
      ∃ V : (ℕ → ℝ) → ℝ, (∀ o, (t.problem.load o).objective leg = .ok (V o.theta)) ∧
      ∀ θ η : ℕ → ℝ, ∃ R, HasDerivAt (fun τ => V fun i => θ i + τ * η i) R 0 ∧
        IsHeatBalance 2 leg params ext s.grid s.refined time y0 b.yData θ0 (NdArray.of1 (nodalList n θ)) (NdArray.of1 (nodalList n η)) R := by
  obtain ⟨h2, h3⟩ := made_heat_derivative hq c S oa ob
  have hth := t.problem_isTherm
  obtain ⟨nx, ny, sc, L⟩ := c.energetic.lib
  have hv := (C22_structure L).2.2.2.1
  refine ⟨_, rfl, h2, hth, ?_⟩
  have hl : ∀ θ : ℕ → ℝ, (energyGrid s.grid s.refined).vertices.map θ =
      nodalList (energyGrid s.grid s.refined).vertices.length θ := fun θ => by
    rw [hv, List.length_range]; rfl
  have hV : ∀ θ : ℕ → ℝ, ∃ v, ∀ o : Outcome, o.theta = θ → (t.problem.load o).objective leg = .ok v := by
    intro θ
    obtain ⟨J, R, j1, -⟩ := h3 θ (fun _ => 0)
    exact ⟨J 0, fun o ho => j1 0 o (by rw [ho]; funext i; simp)⟩
  choose V hV using hV
  refine ⟨V, fun o => hV _ o rfl, fun θ η => ?_⟩
  obtain ⟨J, R, j1, j2, j3⟩ := h3 θ η
  rw [hl, hl] at j3
  refine ⟨R, ?_, j3⟩
  have : (fun τ => V fun i => θ i + τ * η i) = J := by
    funext τ
    exact Except.ok.inj ((hV _ ⟨fun _ _ => 0, fun _ _ => 0, fun i => θ i + τ * η i, none⟩ rfl).symm.trans (j1 τ _ rfl))
  rw [this]
  exact j2

theorem made_therm_unknowns (c : s.Context domain params ext traction m0 t0)
    (S : Sim.MadeFrom solver m0 t0 s.calls b time i m t y0 θ0) :
    b.thetaData.data = t.problem.answer (solver (s.calls.take (i + 1)) t.problem) ∧
    List.Forall₂ (fun v x => v.lb = x - params.searchRadius ∧ v.ub = x + params.searchRadius ∧ v.fixed = false)
      t.problem.unknowns θ0.data := by
  have st1 := S.mechStatic
  have st2 := S.thermStatic
  have hr := S.therm.around
  rw [ThermStep.static_searchRadius st2, c.searchRadius.2] at hr
  have hfree : ∀ v ∈ t.unknowns, v.fixed = false := by
    have w := S.thermWF
    cases t with
    | p1 t => obtain ⟨n, w, -⟩ := w; exact w.free
    | reg t => obtain ⟨n, k, w, -⟩ := w; exact w.free
  refine ⟨?_, ?_⟩
  · rw [S.theta, (S.thermWF.load _).2.2.2.2.1]
  · have hu : t.problem.unknowns = t.unknowns := by cases t <;> rfl
    rw [hu]
    rw [List.forall₂_iff_get] at hr ⊢
    refine ⟨hr.1, fun i hi hi' => ?_⟩
    obtain ⟨-, k2, k3⟩ := hr.2 i hi hi'
    exact ⟨k2, k3, hfree _ (List.getElem_mem _)⟩

theorem made_optimal_direction (hq : GaussRule.new leg 1 = .ok q) (c : s.Context domain params ext traction m0 t0)
    (S : Sim.MadeFrom solver m0 t0 s.calls b time i m t y0 θ0)
    (oa : Oriented s.grid s.refined y0) (ob : Oriented s.grid s.refined b.yData)
    (hopt : t.problem.IsOptimal leg (solver (s.calls.take (i + 1)) t.problem)) :
    ∃ (V : (ℕ → ℝ) → ℝ) (θ : ℕ → ℝ),
      (∀ η : ℕ → ℝ, ∃ R, HasDerivAt (fun τ => V fun i => θ i + τ * η i) R 0 ∧
        IsHeatBalance 2 leg params ext s.grid s.refined time y0 b.yData θ0 b.thetaData
          (NdArray.of1 ((energyGrid s.grid s.refined).vertices.map η)) R) ∧
      ∀ η R, AllowedDirection params.searchRadius θ0.data b.thetaData.data η →
        HasDerivAt (fun τ => V fun i => θ i + τ * η i) R 0 → 0 ≤ R := by
  obtain ⟨n, hn, hu, hth, V, hV, hder⟩ := made_therm_value hq c S oa ob
  obtain ⟨hb0, hbd⟩ := made_therm_unknowns c S
  obtain ⟨nx, ny, sc, L⟩ := c.energetic.lib
  have hv := (C22_structure L).2.2.2.1
  set sol := solver (s.calls.take (i + 1)) t.problem with hsol
  rw [therm_answer hth, hu] at hb0
  refine ⟨V, sol.theta, fun η => ?_, fun η R hη r1 => ?_⟩
  · obtain ⟨R, r1, r2⟩ := hder sol.theta η
    refine ⟨R, r1, ?_⟩
    have hl : (energyGrid s.grid s.refined).vertices.map η = nodalList n η := by
      rw [← hn, hv, List.length_range]; rfl
    have : b.thetaData.data = (NdArray.of1 (nodalList n sol.theta)).data := hb0
    rw [hl]
    rw [IsHeatBalance] at r2 ⊢
    rw [this]
    exact r2
  · obtain ⟨hadm, v, hv1, hv2⟩ := hopt
    have hadm' := (therm_admits hth sol).1 hadm
    rw [List.forall₂_iff_get] at hbd
    have key : ∃ δ > 0, ∀ i < n, ∀ τ, 0 ≤ τ → τ ≤ δ → ∀ hi : i < t.problem.unknowns.length, t.problem.unknowns[i].lb ≤ sol.theta i + τ * η i ∧
        sol.theta i + τ * η i ≤ t.problem.unknowns[i].ub ∧ 0 ≤ sol.theta i + τ * η i := by
      refine exists_common fun i hi => ?_
      have hi' : i < t.problem.unknowns.length := hu ▸ hi
      obtain ⟨a1, a2, -, a4⟩ := hadm' i hi'
      obtain ⟨b1, b2, -⟩ := hbd.2 i hi' (hbd.1 ▸ hi')
      simp only [List.get_eq_getElem] at b1 b2
      obtain ⟨c1, c2⟩ := hη i (θ0.data[i]'(hbd.1 ▸ hi')) (sol.theta i) (List.getElem?_eq_getElem _) (by
        rw [hb0, nodalList, List.getElem?_map, List.getElem?_range hi]; rfl)
      rw [b1] at a1
      rw [b2] at a2
      obtain ⟨δ, d0, d1⟩ := small_step a1 a2 a4 c1 c2
      exact ⟨δ, d0, fun τ t0 t1 _ => by rw [b1, b2]; exact d1 τ t0 t1⟩
    obtain ⟨δ, d0, d1⟩ := key
    refine deriv_nonneg_of_min r1 d0 fun τ t0 t1 => ?_
    have e0 : (fun i => sol.theta i + 0 * η i) = sol.theta := by funext i; simp
    rw [e0]
    cases (hV sol).symm.trans hv1
    refine hv2 ⟨sol.y1, sol.y2, fun i => sol.theta i + τ * η i, none⟩ _ ?_ (hV _)
    rw [therm_admits hth]
    intro i hi
    obtain ⟨k1, k2, k3⟩ := d1 i (hu ▸ hi) τ t0 t1 hi
    refine ⟨k1, k2, fun hf => ?_, k3⟩
    have := (hbd.2 i hi (hbd.1 ▸ hi)).2.2
    rw [List.get_eq_getElem, hf] at this
    cases this

theorem made_variational (hq : GaussRule.new leg 1 = .ok q) (c : s.Context domain params ext traction m0 t0)
    (S : Sim.MadeFrom solver m0 t0 s.calls b time i m t y0 θ0)
    (oa : Oriented s.grid s.refined y0) (ob : Oriented s.grid s.refined b.yData)
    (hopt : t.problem.IsOptimal leg (solver (s.calls.take (i + 1)) t.problem)) {η : ℕ → ℝ} (hη : AllowedDirection params.searchRadius θ0.data b.thetaData.data η) :
    ∃ R, 0 ≤ R ∧ IsHeatBalance 2 leg params ext s.grid s.refined time y0 b.yData θ0 b.thetaData
      (NdArray.of1 ((energyGrid s.grid s.refined).vertices.map η)) R := by
  obtain ⟨V, θ, h1, h2⟩ := made_optimal_direction hq c S oa ob hopt
  obtain ⟨R, r1, r2⟩ := h1 η
  exact ⟨R, h2 η R hη r1, r2⟩

theorem made_weak (hq : GaussRule.new leg 1 = .ok q) (c : s.Context domain params ext traction m0 t0)
    (S : Sim.MadeFrom solver m0 t0 s.calls b time i m t y0 θ0)
    (oa : Oriented s.grid s.refined y0) (ob : Oriented s.grid s.refined b.yData)
    (hopt : t.problem.IsOptimal leg (solver (s.calls.take (i + 1)) t.problem)) {η : ℕ → ℝ}
    (hη : ∀ i u v, θ0.data[i]? = some u → b.thetaData.data[i]? = some v → η i ≠ 0 → 0 < v ∧ |v - u| < params.searchRadius) :
    IsHeatBalance 2 leg params ext s.grid s.refined time y0 b.yData θ0 b.thetaData
      (NdArray.of1 ((energyGrid s.grid s.refined).vertices.map η)) 0 := by
  obtain ⟨V, θ, h1, h2⟩ := made_optimal_direction hq c S oa ob hopt
  obtain ⟨R, r1, r2⟩ := h1 η
  have k1 := h2 η R (fun i u v hu hv => by
    refine ⟨fun h => ?_, fun h => ?_⟩
    · have := abs_lt.1 (hη i u v hu hv h.ne').2
      linarith
    · have := hη i u v hu hv h.ne
      exact ⟨this.1, by linarith [(abs_lt.1 this.2).1]⟩) r1
  have k2 := h2 (fun i => -η i) (-R) (fun i u v hu hv => by
    refine ⟨fun h => ?_, fun h => ?_⟩
    · have := abs_lt.1 (hη i u v hu hv (fun h0 => by simp [h0] at h)).2
      linarith
    · have := hη i u v hu hv (fun h0 => by simp [h0] at h)
      exact ⟨this.1, by linarith [(abs_lt.1 this.2).1]⟩) (by
    have r3 := HasDerivAt.comp (h := fun x : ℝ => -x) 0 (by simpa using r1) (hasDerivAt_neg 0)
    rw [mul_neg_one] at r3
    refine r3.congr_of_eventuallyEq (Filter.Eventually.of_forall fun x => ?_)
    simp)
  have : R = 0 := by linarith
  rwa [this] at r2

theorem Sim.Context.grids (c : s.Context domain params ext traction m0 t0) : params.regularization = none → s.refined = none := by
  obtain ⟨it, hg⟩ := c.grid
  exact (c.setup.grids hg c.refined).2.1

theorem made_first_law (hq : GaussRule.new leg 1 = .ok q) (c : s.Context domain params ext traction m0 t0)
    (S : Sim.MadeFrom solver m0 t0 s.calls b time i m t y0 θ0)
    (oa : Oriented s.grid s.refined y0) (ob : Oriented s.grid s.refined b.yData)
    (hopt : t.problem.IsOptimal leg (solver (s.calls.take (i + 1)) t.problem))
    (hin : List.Forall₂ (fun u v => 0 < v ∧ |v - u| < params.searchRadius) θ0.data b.thetaData.data) :
    ∃ U0 U Q B, IsInternalEnergy s.grid s.refined y0 θ0 U0 ∧
      IsInternalEnergy s.grid s.refined b.yData b.thetaData U ∧
      IsHeatProduction params.fps s.grid s.refined y0 b.yData θ0 Q ∧
      IsHeatLoss leg params ext s.grid time b.thetaData B ∧ params.fps * (U - U0) = Q - B := by
  rw [List.forall₂_iff_get] at hin
  have h := made_weak hq c S oa ob hopt (η := fun _ => 1) (fun i u v hu hv _ => by
    obtain ⟨h1, rfl⟩ := List.getElem?_eq_some_iff.1 hu
    obtain ⟨h2, rfl⟩ := List.getElem?_eq_some_iff.1 hv
    exact hin.2 i h1 h2)
  obtain ⟨U0, U, Q, B, h1, h2, h3, h4, h5⟩ := h.total c.energetic c.grids
  exact ⟨U0, U, Q, B, h1, h2, h3, h4, by rw [h5, add_zero]⟩

theorem made_at_least (hq : GaussRule.new leg 1 = .ok q) (c : s.Context domain params ext traction m0 t0)
    (S : Sim.MadeFrom solver m0 t0 s.calls b time i m t y0 θ0)
    (oa : Oriented s.grid s.refined y0) (ob : Oriented s.grid s.refined b.yData)
    (hopt : t.problem.IsOptimal leg (solver (s.calls.take (i + 1)) t.problem))
    (hin : List.Forall₂ (fun u v => v < u + params.searchRadius) θ0.data b.thetaData.data) :
    ∃ U0 U Q B, IsInternalEnergy s.grid s.refined y0 θ0 U0 ∧
      IsInternalEnergy s.grid s.refined b.yData b.thetaData U ∧
      IsHeatProduction params.fps s.grid s.refined y0 b.yData θ0 Q ∧
      IsHeatLoss leg params ext s.grid time b.thetaData B ∧ Q - B ≤ params.fps * (U - U0) := by
  rw [List.forall₂_iff_get] at hin
  obtain ⟨R, r0, h⟩ := made_variational hq c S oa ob hopt (η := fun _ => 1) (fun i u v hu hv => by
    obtain ⟨h1, rfl⟩ := List.getElem?_eq_some_iff.1 hu
    obtain ⟨h2, rfl⟩ := List.getElem?_eq_some_iff.1 hv
    exact ⟨fun _ => hin.2 i h1 h2, fun h => absurd h (by norm_num)⟩)
  obtain ⟨U0, U, Q, B, h1, h2, h3, h4, h5⟩ := h.total c.energetic c.grids
  exact ⟨U0, U, Q, B, h1, h2, h3, h4, by rw [h5]; linarith⟩

theorem Sim.Context.fps_pos (c : s.Context domain params ext traction m0 t0) : 0 < params.fps := by
  obtain ⟨a, b, f, d, e, g, h⟩ := c.setup.valid
  have h0 : 0 ≤ params.fps := by
    unfold SimParams.new at h
    split_ifs at h with h1 h2 h3 h4 h5 h6 h7 h8 <;> cases h <;> exact not_lt.1 h3
  exact lt_of_le_of_ne h0 (Ne.symm c.fps)

theorem made_unique (hq : GaussRule.new leg 1 = .ok q) (c : s.Context domain params ext traction m0 t0)
    (S : Sim.MadeFrom solver m0 t0 s.calls b time i m t y0 θ0)
    (hw : ∀ w ∈ q.weights, 0 ≤ w) (oa : Oriented s.grid s.refined y0) (hm : ModerateStrain s.grid s.refined b.yData)
    {o o' : Outcome} (ho : t.problem.IsOptimal leg o) (ho' : t.problem.IsOptimal leg o') :
    t.problem.answer o = t.problem.answer o' := by
  obtain ⟨n, hn, hu, hth, V, hV, hd⟩ := made_therm_value hq c S oa hm.oriented
  set η : ℕ → ℝ := fun i => o'.theta i - o.theta i with hη
  have min : ∀ {o : Outcome}, t.problem.IsOptimal leg o → ∀ o', t.problem.Admits o' → V o.theta ≤ V o'.theta := by
    rintro o ⟨-, v, h1, h2⟩ o' h3
    cases (hV o).symm.trans h1
    exact h2 o' _ h3 (hV o')
  have hmid : ∀ τ : ℝ, 0 ≤ τ → τ ≤ 1 → t.problem.Admits ⟨fun _ _ => 0, fun _ _ => 0, fun i => o.theta i + τ * η i, none⟩ :=
    fun τ h0 h1 => therm_admits_between hth ho.1 ho'.1 h0 h1 fun i => rfl
  obtain ⟨R, r1, r2⟩ := hd o.theta η
  obtain ⟨R', r1', r2'⟩ := hd (fun i => o.theta i + 1 * η i) η
  have e1 : (fun i => o.theta i + 1 * η i) = o'.theta := by funext i; simp only [hη]; ring
  have hR : 0 ≤ R := deriv_nonneg_of_min r1 one_pos fun τ h0 h1 => by
    have := min ho _ (hmid τ h0 h1)
    simpa using this
  have hR' : 0 ≤ -R' := by
    have r3 : HasDerivAt (fun τ => V fun i => (o.theta i + 1 * η i) + -τ * η i) (-R') 0 := by
      have := HasDerivAt.comp (h := fun τ : ℝ => -τ) (0 : ℝ) (by simpa using r1') (hasDerivAt_neg (0 : ℝ))
      simpa [Function.comp_def] using this
    refine deriv_nonneg_of_min r3 one_pos fun τ h0 h1 => ?_
    have := min ho' _ (hmid (1 - τ) (by linarith) (by linarith))
    have e2 : (fun i => o.theta i + 1 * η i + -τ * η i) = fun i => o.theta i + (1 - τ) * η i := by funext i; ring
    rw [e2]
    simp only [neg_zero, zero_mul, add_zero]
    rw [e1]
    exact this
  have hp0 := (therm_admits hth o).1 ho.1
  have hp1 := (therm_admits hth o').1 ho'.1
  have key := IsHeatBalance.strictMono c.energetic (κ := 2) (by norm_num) c.fps_pos hq hw hm hn one_pos
    (fun i hi => (hp0 i (hu ▸ hi)).2.2.2)
    (fun i hi => by
      have := (hp1 i (hu ▸ hi)).2.2.2
      rw [← e1] at this; exact this) r2 r2' (by linarith)
  rw [therm_answer hth, therm_answer hth, hu, nodalList, nodalList]
  refine List.map_congr_left fun i hi => ?_
  have := key i (List.mem_range.1 hi)
  simp only [hη] at this
  linarith

/-! ### all simulations -/

variable {a : Step}

theorem Sim.MadeFrom.recorded (S : Sim.MadeFrom solver m0 t0 s.calls b time i m t y0 θ0)
    (hk : solver.KeepsTemperature → θ0 = a.thetaData) (hp : y0 = a.yData ∨ s.AnsweredBefore solver i y0) :
    s.RecordedFrom solver a b i m.problem t.problem ∧ m.problem.prevY = y0 ∧ m.problem.prevTheta = θ0 := by
  have e1 : m.problem.prevY = y0 := by rw [MechStep.problem_prevY, S.mech.prevY]
  have e2 : m.problem.prevTheta = θ0 := by rw [MechStep.problem_prevTheta, S.mech.prevTheta]
  refine ⟨⟨S.mechCall, S.thermCall, m.problem_isMech, t.problem_isTherm, S.mechOk, S.thermOk, ?_, ?_, ?_, ?_, ?_, ?_, ?_, ?_⟩,
    e1, e2⟩
  · rw [MechStep.problem_y, e1, S.mech.y]
  · rw [ThermStep.problem_prevY, e1, S.therm.prevY]
  · rw [ThermStep.problem_prevTheta, e2, S.therm.prevTheta]
  · rw [ThermStep.problem_y]; exact S.therm.y
  · rw [S.y]; exact (S.mechWF.load _).2.2.2.1
  · rw [S.theta]; exact (S.thermWF.load _).2.2.2.2.1
  · rw [e2]; exact hk
  · rw [e1]; exact hp

/-- **C111** (the objectives). In every simulation, also if calls of `run` have failed, every recorded step after the first records the
answers to a mechanical and a thermal problem whose objectives, at the starting points and at the answers, are those of the
specification (with the traction and the external temperature at the time `k / fps`), at the previous deformation and temperature of the
mechanical problem. The thermal objective is defined exactly if the previous and the new deformation preserve the orientation. -/
theorem C111_objective (hs : s.Reachable solver domain params ext traction) (hq : GaussRule.new leg 1 = .ok q) {k : ℕ}
    (ha : s.steps[k]? = some a) (hb : s.steps[k + 1]? = some b) :
    ∃ i p q, s.RecordedFrom solver a b i p q ∧
      (∀ v, p.objective leg = .ok v ↔
        IsMechObjective leg params traction s.grid s.refined (k / params.fps) p.prevY p.prevY p.prevTheta v) ∧
      (∀ v, (p.load (solver (s.calls.take i) p)).objective leg = .ok v ↔
        IsMechObjective leg params traction s.grid s.refined (k / params.fps) p.prevY b.yData p.prevTheta v) ∧
      (∀ v, q.objective leg = .ok v ↔
        IsThermObjective leg params ext s.grid s.refined (k / params.fps) p.prevY b.yData p.prevTheta p.prevTheta v) ∧
      (∀ v, (q.load (solver (s.calls.take (i + 1)) q)).objective leg = .ok v ↔
        IsThermObjective leg params ext s.grid s.refined (k / params.fps) p.prevY b.yData p.prevTheta b.thetaData v) ∧
      ((∃ v, (p.load (solver (s.calls.take i) p)).objective leg = .ok v) ↔ Oriented s.grid s.refined b.yData) ∧
      ((∃ v, q.objective leg = .ok v) ↔ Oriented s.grid s.refined p.prevY ∧ Oriented s.grid s.refined b.yData) := by
  obtain ⟨m0, t0, c, -, -, H⟩ := hs.attempts
  obtain ⟨i, m, t, y0, θ0, S, hk, hp⟩ := H k a b ha hb
  obtain ⟨R, rfl, rfl⟩ := S.recorded hk hp
  obtain ⟨f1, f2, f3⟩ := made_mech_objective hq c S
  obtain ⟨g1, g2, g3⟩ := made_therm_objective hq c S
  exact ⟨i, _, _, R, f1, f2, g1, g2, f3, g3⟩

/-- **C111** (balance of forces). In every simulation, also if calls of `run` have failed: if the answer to the mechanical problem a step
was made from is optimal, then the recorded deformation is in equilibrium relative to the previous deformation of that problem, for all
virtual displacements that vanish on the Dirichlet part of the boundary and in all entries that moved by the search radius. -/
theorem C111_forces (hs : s.Reachable solver domain params ext traction) (hq : GaussRule.new leg 1 = .ok q) {k : ℕ}
    (ha : s.steps[k]? = some a) (hb : s.steps[k + 1]? = some b) :
    ∃ i p q, s.RecordedFrom solver a b i p q ∧ (p.IsOptimal leg (solver (s.calls.take i) p) →
      (∀ z : NdArray, z.Has b.yData.shape → z.VanishesOnDirichlet s.grid →
        (∀ (j : ℕ) (u v w : ℝ), p.prevY.data[j]? = some u → b.yData.data[j]? = some v → z.data[j]? = some w → w ≠ 0 →
          |v - u| < params.searchRadius) →
        IsForceBalance leg params traction s.grid s.refined (k / params.fps) p.prevY b.yData p.prevTheta z 0) ∧
      (params.regularization = none → domain.fix.options = [] →
        (∀ (j : ℕ) (u v : ℝ), p.prevY.data[j]? = some u → b.yData.data[j]? = some v → |v - u| < params.searchRadius) →
        IsTotalTraction leg s.grid traction (k / params.fps) (0, 0))) := by
  obtain ⟨m0, t0, c, -, -, H⟩ := hs.attempts
  obtain ⟨i, m, t, y0, θ0, S, hk, hp⟩ := H k a b ha hb
  obtain ⟨R, rfl, rfl⟩ := S.recorded hk hp
  have hbY := (c.has b (List.mem_of_getElem? hb)).1
  refine ⟨i, _, _, R, fun hopt => ⟨fun z hz hD hr => ?_, fun hreg hfix hr => ?_⟩⟩
  · rw [hbY.1, ← S.hasY.1] at hz
    exact made_equilibrium hq c S hopt hbY hz hD hr
  · exact made_resultant hq c S hreg hfix hopt hbY hr

/-- an optimal answer to a thermal problem shows that the deformations preserve the orientation -/
theorem made_oriented (hq : GaussRule.new leg 1 = .ok q) (c : s.Context domain params ext traction m0 t0)
    (S : Sim.MadeFrom solver m0 t0 s.calls b time i m t y0 θ0)
    (hopt : t.problem.IsOptimal leg (solver (s.calls.take (i + 1)) t.problem)) : Oriented s.grid s.refined y0 ∧ Oriented s.grid s.refined b.yData := by
  obtain ⟨-, v, hv, -⟩ := hopt
  exact (((made_therm_objective hq c S).2.1 v).1 hv).oriented

/-- **C111** (balance of heat). In every simulation, also if calls of `run` have failed: if the answer to the thermal problem a step was
made from is optimal, then no admissible change of the recorded temperature has a negative heat balance, and the balance is zero for all
test functions that vanish where the temperature has reached zero or changed by the search radius. -/
theorem C111_heat (hs : s.Reachable solver domain params ext traction) (hq : GaussRule.new leg 1 = .ok q) {k : ℕ}
    (ha : s.steps[k]? = some a) (hb : s.steps[k + 1]? = some b) :
    ∃ i p q, s.RecordedFrom solver a b i p q ∧ (q.IsOptimal leg (solver (s.calls.take (i + 1)) q) →
      (∀ η, AllowedDirection params.searchRadius p.prevTheta.data b.thetaData.data η → ∃ R, 0 ≤ R ∧
        IsHeatBalance 2 leg params ext s.grid s.refined (k / params.fps) p.prevY b.yData p.prevTheta b.thetaData
          (NdArray.of1 ((energyGrid s.grid s.refined).vertices.map η)) R) ∧
      (∀ η : ℕ → ℝ, (∀ j u v, p.prevTheta.data[j]? = some u → b.thetaData.data[j]? = some v → η j ≠ 0 →
          0 < v ∧ |v - u| < params.searchRadius) →
        IsHeatBalance 2 leg params ext s.grid s.refined (k / params.fps) p.prevY b.yData p.prevTheta b.thetaData
          (NdArray.of1 ((energyGrid s.grid s.refined).vertices.map η)) 0)) := by
  obtain ⟨m0, t0, c, -, -, H⟩ := hs.attempts
  obtain ⟨i, m, t, y0, θ0, S, hk, hp⟩ := H k a b ha hb
  obtain ⟨R, rfl, rfl⟩ := S.recorded hk hp
  refine ⟨i, _, _, R, fun hopt => ?_⟩
  obtain ⟨oa, ob⟩ := made_oriented hq c S hopt
  exact ⟨fun η hη => made_variational hq c S oa ob hopt hη, fun η hη => made_weak hq c S oa ob hopt hη⟩

/-- **C111** (first law). In every simulation, also if calls of `run` have failed: if the answer to the thermal problem a step was made
from is optimal and no temperature has reached zero or changed by the search radius, then the internal energy of the recorded step minus
that of the previous deformation and temperature of the problem is, per time, the heat produced by the motion between these two
deformations minus the heat lost through the boundary; if no temperature has risen by the search radius it is at least that. -/
theorem C111_first_law (hs : s.Reachable solver domain params ext traction) (hq : GaussRule.new leg 1 = .ok q) {k : ℕ}
    (ha : s.steps[k]? = some a) (hb : s.steps[k + 1]? = some b) :
    ∃ i p q, s.RecordedFrom solver a b i p q ∧ (q.IsOptimal leg (solver (s.calls.take (i + 1)) q) →
      (List.Forall₂ (fun u v => v < u + params.searchRadius) p.prevTheta.data b.thetaData.data →
        ∃ U0 U Q B, IsInternalEnergy s.grid s.refined p.prevY p.prevTheta U0 ∧
          IsInternalEnergy s.grid s.refined b.yData b.thetaData U ∧
          IsHeatProduction params.fps s.grid s.refined p.prevY b.yData p.prevTheta Q ∧
          IsHeatLoss leg params ext s.grid (k / params.fps) b.thetaData B ∧ Q - B ≤ params.fps * (U - U0)) ∧
      (List.Forall₂ (fun u v => 0 < v ∧ |v - u| < params.searchRadius) p.prevTheta.data b.thetaData.data →
        ∃ U0 U Q B, IsInternalEnergy s.grid s.refined p.prevY p.prevTheta U0 ∧
          IsInternalEnergy s.grid s.refined b.yData b.thetaData U ∧
          IsHeatProduction params.fps s.grid s.refined p.prevY b.yData p.prevTheta Q ∧
          IsHeatLoss leg params ext s.grid (k / params.fps) b.thetaData B ∧ params.fps * (U - U0) = Q - B)) := by
  obtain ⟨m0, t0, c, -, -, H⟩ := hs.attempts
  obtain ⟨i, m, t, y0, θ0, S, hk, hp⟩ := H k a b ha hb
  obtain ⟨R, rfl, rfl⟩ := S.recorded hk hp
  refine ⟨i, _, _, R, fun hopt => ?_⟩
  obtain ⟨oa, ob⟩ := made_oriented hq c S hopt
  exact ⟨fun hin => made_at_least hq c S oa ob hopt hin, fun hin => made_first_law hq c S oa ob hopt hin⟩

/-- **C111** (uniqueness of temperature). In every simulation, also if calls of `run` have failed: if the strains of the recorded
deformation are moderate, all optimal answers to the thermal problem the step was made from have the same temperatures (the Gauss
weights of the boundary integrals are not negative). -/
theorem C111_unique (hs : s.Reachable solver domain params ext traction) (hq : GaussRule.new leg 1 = .ok q)
    (hw : ∀ w ∈ q.weights, 0 ≤ w) {k : ℕ} (ha : s.steps[k]? = some a) (hb : s.steps[k + 1]? = some b)
    (hm : ModerateStrain s.grid s.refined b.yData) :
    ∃ i p q, s.RecordedFrom solver a b i p q ∧ ∀ o o', q.IsOptimal leg o → q.IsOptimal leg o' → q.answer o = q.answer o' := by
  obtain ⟨m0, t0, c, -, -, H⟩ := hs.attempts
  obtain ⟨i, m, t, y0, θ0, S, hk, hp⟩ := H k a b ha hb
  obtain ⟨R, rfl, rfl⟩ := S.recorded hk hp
  refine ⟨i, _, _, R, fun o o' ho ho' => ?_⟩
  obtain ⟨-, v, hv, -⟩ := id ho
  have w' := S.thermWF.load o
  have M' : ThermEnv (t.load o) s.grid s.refined params ext :=
    c.thermEnv w'.1 (by rw [← S.thermStatic]; cases t <;> rfl)
  have i1 := (M'.objective_iff hq (S.therm.extAt.load o) v).1 (by rw [ThermStep.load_problem]; exact hv)
  rw [w'.2.1, S.therm.prevY] at i1
  exact made_unique hq c S hw i1.oriented.1 hm ho ho'

end

/-! ### example -/

/-- The simulation of the example of C106, in which `run(1)` raises since a thermal solve fails and `run(2)` then records two steps: the
step recorded after the failure records optimal answers, so that the laws of C111 hold for it. -/
example (it : SetIter) {params : SimParams} (hp : params = exampleParams ∨ params = exampleParamsReg) :
    ∃ (leg : LegGauss) (q : GaussRule ℝ) (solver : Solver) (s s' s'' : Sim) (e : PyErr) (a b : Step),
    GaussRule.new leg 1 = .ok q ∧ (∀ w ∈ q.weights, 0 ≤ w) ∧ solver.KeepsTemperature ∧
    s.run solver 1 = (.error e, s') ∧ s'.run solver 2 = (.ok (), s'') ∧ s''.steps[1]? = some a ∧ s''.steps[2]? = some b ∧
    s''.Reachable solver exampleDomain params (fun t => .ok (t ^ 2)) (fun t x y => .ok [t + x, y]) ∧
    (∃ i p q, s''.RecordedFrom solver a b i p q ∧ q.IsOptimal leg (solver (s''.calls.take (i + 1)) q) ∧
      (List.Forall₂ (fun u v => v < u + params.searchRadius) p.prevTheta.data b.thetaData.data →
        ∃ U0 U Q B, IsInternalEnergy s''.grid s''.refined p.prevY p.prevTheta U0 ∧
          IsInternalEnergy s''.grid s''.refined b.yData b.thetaData U ∧
          IsHeatProduction params.fps s''.grid s''.refined p.prevY b.yData p.prevTheta Q ∧
          IsHeatLoss leg params (fun t => .ok (t ^ 2)) s''.grid (1 / params.fps) b.thetaData B ∧ Q - B ≤ params.fps * (U - U0))) ∧
    ∃ i p q, s''.RecordedFrom solver a b i p q ∧ p.IsOptimal leg (solver (s''.calls.take i) p) ∧
      ∀ z : NdArray, z.Has b.yData.shape → z.VanishesOnDirichlet s''.grid →
        (∀ (j : ℕ) (u v w : ℝ), p.prevY.data[j]? = some u → b.yData.data[j]? = some v → z.data[j]? = some w → w ≠ 0 →
          |v - u| < params.searchRadius) →
        IsForceBalance leg params (fun t x y => .ok [t + x, y]) s''.grid s''.refined (1 / params.fps) p.prevY b.yData p.prevTheta
          z 0 := by
  obtain ⟨leg, q, F, s, s', s'', e, hq, hw, hkeep, -, -, hrun, h4, hs'', hlen'', hopt⟩ := failing_run it hp
  have ha : s''.steps[1]? = some s''.steps[1] := List.getElem?_eq_getElem (by omega)
  have hb : s''.steps[1 + 1]? = some s''.steps[1 + 1] := List.getElem?_eq_getElem (by omega)
  obtain ⟨i, p, r, R, h⟩ := C111_first_law hs'' hq ha hb
  obtain ⟨i', p', r', R', h'⟩ := C111_forces hs'' hq ha hb
  rw [Nat.cast_one] at h h'
  have o1 := hopt r (List.mem_of_getElem? R.thermCall) _ R.thermOk
  have o2 := hopt p' (List.mem_of_getElem? R'.mechCall) _ R'.mechOk
  exact ⟨leg, q, F, s, s', s'', e, _, _, hq, hw, hkeep, hrun, h4, ha, hb, hs'', ⟨i, p, r, R, o1, (h o1).1⟩,
    i', p', r', R', o2, (h' o2).1⟩

end Tve
