import Verif.Props.Witness
import Verif.Props.Energy
import Verif.Props.Thermal
import Verif.Props.Retry

/-!
# More concrete cases for the theorems about simulations

Continues `Props/Witness.lean`: for each theorem about simulations without an example of its own, a concrete case that meets
its hypotheses.
-/

namespace Tve

variable {params : SimParams} {leg : LegGauss} {q : GaussRule ℝ} {solver : Solver} {s : Sim}

/-- the grids and steps from which the simulation of the example was created -/
theorem Witness.parts (W : Witness params leg q solver s) : ∃ (nx ny : ℕ) (m : MechStep) (t : ThermStep), LibraryGrid s.grid nx ny params.scale ∧ RefinedOk s.refined ∧
    mechanicalStep s.grid params.mechanicalStepParams s.refined exampleTraction = .ok m ∧ m.Reachable ∧ t.Reachable ∧
    (∃ st ∈ s.steps, st.yData.Has m.yShape ∧ st.thetaData.Has m.thetaShape) ∧ t.yShape = m.yShape ∧
    t.thetaShape = m.thetaShape := by
  obtain ⟨m0, t0, c, -⟩ := W.healthy.history
  obtain ⟨it, hg⟩ := c.grid
  have G : LibraryGrid s.grid _ _ params.scale := LibraryGrid.grid c.setup.facts.2.2.2.1 c.setup.width c.setup.height hg
  obtain ⟨st, hst⟩ := List.exists_mem_of_length_pos (l := s.steps) (by rw [W.steps]; norm_num)
  obtain ⟨nx, ny, k, ph, pn, -, -, -, -, E, -⟩ := step_grids W.healthy.reachable hst
  have F : RefinedOk s.refined := fun r hr => ⟨_, _, _, by rw [hr] at E; exact E⟩
  have R := MechStep.Reachable.new G F c.mech0
  obtain ⟨y, hy, ht⟩ := c.therm0
  obtain ⟨h1, -, h2⟩ := C56_mech_shapes R
  have T := ThermStep.Reachable.new G F h1.2 hy h2.2 ht
  obtain ⟨-, ⟨n, U⟩, F'⟩ := c.setup.simShape hg c.refined c.mech0
  have sh := (thermalStep_cases U F' h1.2 hy h2.2 ht).1.shapes
  exact ⟨_, _, m0, t0, G, F, c.mech0, R, T, ⟨st, hst, c.has st hst⟩, by rw [← sh.1, h1.1], by rw [← sh.2, h2.1]⟩

/-- C56, thermal steps: the arrays of a recorded step are accepted, and are what is read afterwards; arrays of another shape
are rejected -/
example (W : Witness params leg q solver s) : ∃ t : ThermStep, t.Reachable ∧ (∃ st ∈ s.steps, ∃ t1 t2 t3,
    t.updatePrevY st.yData = (.ok (), t1) ∧ t1.prevY = st.yData ∧
    t.updateY st.yData = (.ok (), t2) ∧ t2.y = st.yData ∧
    t.updatePrevTheta st.thetaData = (.ok (), t3) ∧ t3.theta = st.thetaData) ∧
    t.updateY ⟨[7], [0, 0, 0, 0, 0, 0, 0]⟩ = (.error .valueError, t) := by
  obtain ⟨nx, ny, m, t, -, -, -, -, T, ⟨st, hst, hy, hθ⟩, e1, e2⟩ := W.parts
  rw [← e1] at hy
  rw [← e2] at hθ
  obtain ⟨t1, a1, a2, -⟩ := C56_therm_prev_y T hy
  obtain ⟨t2, b1, b2, -⟩ := C56_therm_y T hy
  obtain ⟨t3, c1, -, c2, -⟩ := C56_therm_prev_theta T hθ fun x hx => C59_nonneg W.healthy.reachable W.dom hst hx
  refine ⟨t, T, ⟨st, hst, t1, t2, t3, a1, a2, b1, b2, c1, c2⟩, ((C56_therm_rejected T).1 ?_).2⟩
  cases t <;> simp [ThermStep.yShape]

/-- C57: the variables of vertex `0` (lower left corner) are fixed, those of vertex `5` (upper right corner) are free -/
example (W : Witness exampleParams leg q solver s) : ∃ m : P1Mech, m.model.y1[0]?.map VarData.fixed = some true ∧
    m.model.y2[0]?.map VarData.fixed = some true ∧ m.model.y1[5]?.map VarData.fixed = some false := by
  obtain ⟨nx, ny, m, t, G, F, hm, -⟩ := W.parts
  obtain ⟨hv, -, -, a5, d0, -⟩ := W.grid (.inl rfl)
  have d5 : 5 ∉ s.grid.dirichlet.vertices := by
    obtain ⟨m0, t0, c, -⟩ := W.healthy.history
    obtain ⟨it, hg⟩ := c.grid
    intro h
    obtain ⟨z, hz, f, hf, hs⟩ := ((C14_dirichlet_vertices c.setup.facts.2.2.2.1 c.setup.width c.setup.height hg).2.1 5).1 h
    obtain rfl := At.unique hz a5
    have ho : exampleDomain.fix.options = [.lower] := rfl
    rw [ho, List.mem_singleton] at hf
    subst hf
    exact one_ne_zero hs
  have h (v : Vertex) (hv : v ∈ s.grid.vertices) := C57_fixed_variables G F hm hv
  rcases m with m | m
  · obtain ⟨h1, h2⟩ := (h 0 (by rw [hv]; decide)).1 m rfl
    obtain ⟨h3, -⟩ := (h 5 (by rw [hv]; decide)).1 m rfl
    exact ⟨m, by rw [h1, decide_eq_true d0], by rw [h2, decide_eq_true d0], by rw [h3, decide_eq_false d5]⟩
  · unfold mechanicalStep at hm
    rw [show (SimParams.mechanicalStepParams exampleParams).regularization = none from rfl] at hm
    obtain ⟨m', -, h'⟩ := bind_eq_ok.1 hm
    cases h'

/-- C58: between the steps 1 and 5 no datum moves by more than `4/8` -/
example (W : Witness params leg q solver s) (hp : params = exampleParams ∨ params = exampleParamsReg) :
    ∃ a b, s.steps[1]? = some a ∧ s.steps[5]? = some b ∧
      List.Forall₂ (fun x z => |z - x| ≤ 4 * (1 / 8)) a.yData.data b.yData.data := by
  have h1 : 1 < s.steps.length := by rw [W.steps]; norm_num
  have h2 : 5 < s.steps.length := by rw [W.steps]; norm_num
  have h := (C58_steps W.healthy W.bounds (i := 1) (k := 4) (List.getElem?_eq_getElem h1) (List.getElem?_eq_getElem h2)).1
  have hr : params.searchRadius = 1 / 8 := by rcases hp with rfl | rfl <;> rfl
  rw [hr] at h
  exact ⟨_, _, List.getElem?_eq_getElem h1, List.getElem?_eq_getElem h2, by exact_mod_cast h⟩

/-- C59: the temperatures of the first step can be assigned to the steps again -/
example (W : Witness params leg q solver s) : ∃ st ∈ s.steps, ∃ m, s.mech.updatePrevTheta st.thetaData = (.ok (), m) := by
  obtain ⟨st, hst⟩ := List.exists_mem_of_length_pos (l := s.steps) (by rw [W.steps]; norm_num)
  obtain ⟨⟨m, h, -⟩, -⟩ := C59_update W.healthy.reachable W.dom hst
  exact ⟨st, hst, m, h⟩

/-- C63, without regularization: in the step from 2 to 3 energy minus work of the traction at time `2/3` does not grow -/
example (W : Witness exampleParams leg q solver s) : ∃ a b E0 E1 w0 w1, s.steps[2]? = some a ∧ s.steps[3]? = some b ∧
    IsElasticEnergy s.grid s.refined a.yData a.thetaData E0 ∧ IsElasticEnergy s.grid s.refined b.yData a.thetaData E1 ∧
    IsBoundaryWork leg s.grid exampleTraction (2 / 3) a.yData w0 ∧
    IsBoundaryWork leg s.grid exampleTraction (2 / 3) b.yData w1 ∧ E1 - w1 ≤ E0 - w0 := by
  have h1 : 2 < s.steps.length := by rw [W.steps]; norm_num
  have h2 : 3 < s.steps.length := by rw [W.steps]; norm_num
  obtain ⟨E0, E1, w0, w1, d, a1, a2, a3, a4, -, -, -, a5⟩ := C63_energy_decreases W.healthy W.rule W.decreases rfl
    (List.getElem?_eq_getElem h1) (List.getElem?_eq_getElem h2)
  exact ⟨_, _, E0, E1, w0, w1, List.getElem?_eq_getElem h1, List.getElem?_eq_getElem h2, a1, a2,
    by simpa [exampleParams] using a3, by simpa [exampleParams] using a4, a5⟩

/-- C63, with regularization `1/10` -/
example (W : Witness exampleParamsReg leg q solver s) : ∃ a b r E0 E1 h0 h1, s.steps[2]? = some a ∧ s.steps[3]? = some b ∧
    s.refined = some r ∧ IsElasticEnergy s.grid s.refined a.yData a.thetaData E0 ∧
    IsElasticEnergy s.grid s.refined b.yData a.thetaData E1 ∧ IsHyperEnergy s.grid r a.yData h0 ∧
    IsHyperEnergy s.grid r b.yData h1 ∧ E1 + 1 / 10 * h1 ≤ E0 + 1 / 10 * h0 := by
  have h1 : 2 < s.steps.length := by rw [W.steps]; norm_num
  have h2 : 3 < s.steps.length := by rw [W.steps]; norm_num
  obtain ⟨r, hr, E0, E1, k0, k1, d, a1, a2, a3, a4, -, -, -, -, a5⟩ := C63_energy_decreases_regularized W.healthy W.rule
    W.decreases (κ := 1 / 10) rfl (List.getElem?_eq_getElem h1) (List.getElem?_eq_getElem h2)
  exact ⟨_, _, r, E0, E1, k0, k1, List.getElem?_eq_getElem h1, List.getElem?_eq_getElem h2, hr, a1, a2, a3, a4, a5⟩

/-- C64: the initial problem of the regularized simulation fulfils its constraints -/
example (W : Witness exampleParamsReg leg q solver s) : ∃ m : MechStep, m.Reachable ∧ m.problem.ConstraintsHold := by
  obtain ⟨nx, ny, m, t, G, F, hm, R, -⟩ := W.parts
  exact ⟨m, R, C64_initial G F hm⟩

/-- C66: running for 0 or -3 steps is rejected and changes nothing; running for two more steps keeps the six steps -/
example (W : Witness params leg q solver s) : s.run solver 0 = (.error .valueError, s) ∧
    s.run solver (-3) = (.error .valueError, s) ∧ s.steps <+: (s.run solver 2).2.steps :=
  ⟨C66_invalid (by norm_num) s, C66_invalid (by norm_num) s, C66_prefix W.healthy.reachable 2⟩

/-- C67: with a solver that fails in its fourth call, a run of one or of three steps raises and keeps the two recorded steps -/
example (it : SetIter) : ∃ (s s' s'' : Sim) (e e' : PyErr), s.steps.length = 2 ∧
    s.run (failSolver 0) 1 = (.error e, s') ∧ s'.steps = s.steps ∧
    s.run (failSolver 0) 3 = (.error e', s'') ∧ s''.record = s.record := by
  obtain ⟨s, s', e, p, q, last, hnew, h1, -⟩ := failSolver_run 0 it
  have R : s.Reachable (failSolver 0) exampleDomain exampleParams _ _ := .new exampleSetup hnew
  obtain ⟨h2, h3⟩ := C67_failed_step R h1
  have hc := C66_compose (solver := failSolver 0) (a := 1) (b := 2) (by norm_num) (by norm_num) s
  rw [h1] at hc
  refine ⟨s, s', s', e, e, C60_new exampleSetup hnew, h1, h2, hc, h3⟩

/-- C68: at the beginning the upper right corner is at `(1/2, 1)` and all temperatures are `1` -/
example (W : Witness params leg q solver s) (hp : params = exampleParams ∨ params = exampleParamsReg) :
    ∃ st, s.steps[0]? = some st ∧ st.yData.deformed 5 = (1 / 2, 1) ∧ ∀ x ∈ st.thetaData.data, x = 1 := by
  obtain ⟨hv, -, -, a5, -⟩ := W.grid hp
  obtain ⟨st, h1, h2, h3, -⟩ := C68_initial W.healthy.reachable
  refine ⟨st, h1, ?_, fun x hx => ?_⟩
  · rw [h2 5 (by rw [hv]; decide)]
    exact xy_of_at a5
  · rw [h3] at hx
    rw [List.eq_of_mem_replicate hx]
    rcases hp with rfl | rfl <;> rfl

/-- C69: the temperature found in step 3 fulfils the weak heat equation (with the conductivity doubled) in the direction of every
`η`, if the bounds and the sign condition do not hinder -/
example (W : Witness params leg q solver s) : ∃ a b p, s.steps[2]? = some a ∧ s.steps[3]? = some b ∧
    s.calls[5]? = some p ∧ Oriented s.grid s.refined a.yData ∧ Oriented s.grid s.refined b.yData ∧
    ∃ v, p.objective leg = .ok v := by
  have h1 : 2 < s.steps.length := by rw [W.steps]; norm_num
  have h2 : 3 < s.steps.length := by rw [W.steps]; norm_num
  obtain ⟨p, a1, -, -, a2⟩ := C69_objective W.healthy W.rule (List.getElem?_eq_getElem h1) (List.getElem?_eq_getElem h2)
  have o := C73_oriented W.healthy.reachable W.rule W.decreases
  have o1 := o _ (List.getElem_mem h1)
  have o2 := o _ (List.getElem_mem h2)
  exact ⟨_, _, p, List.getElem?_eq_getElem h1, List.getElem?_eq_getElem h2, a1, o1, o2, a2.2 ⟨o1, o2⟩⟩

/-- C73: in all steps all four triangles of the example keep their orientation -/
example (W : Witness exampleParams leg q solver s) : ∀ st ∈ s.steps, ∀ t ∈ s.grid.triangles,
    0 < cross (st.yData.deformed t.1) (st.yData.deformed t.2.1) (st.yData.deformed t.2.2) :=
  fun st hst t ht => (C73_triangles W.healthy.reachable W.rule W.decreases rfl st hst t ht).2

/-- C72: position, strain and second derivatives recorded at the upper right corner are those of the evaluated deformation -/
example (W : Witness exampleParamsReg leg q solver s) : ∀ st ∈ s.steps,
    st.y.call (1 / 2) 1 = .ok (vecOf fun i : Fin 2 => st.yData.at3 2 6 5 i 0) ∧
    st.y.strain (1 / 2) 1 = .ok (matOf (Matrix.of fun i j : Fin 2 => st.yData.at3 2 6 5 i (1 + j))) := by
  intro st hst
  obtain ⟨-, -, -, a5, -⟩ := W.grid (.inr rfl)
  have h := C72_derivatives_partial W.healthy.reachable (by simp [exampleParamsReg]) (by norm_num [exampleParamsReg]) hst a5
  exact ⟨h.1, h.2.1⟩

/-- C74: the animation has six frames; deformed curves can be drawn, since the scale `1/2` divides the sides `1/2` and `1` -/
example (W : Witness params leg q solver s) (hp : params = exampleParams ∨ params = exampleParamsReg) :
    (∃ fs, s.saveAnimation = .ok fs ∧ fs.length = 6) ∧
    ∀ st ∈ s.steps, ∃ ds, st.plotDeformationCurves exampleDomain 10 2 none = .ok ds ∧ ds.length = 8 := by
  constructor
  · obtain ⟨fs, h1, h2, -⟩ := C74_animation W.healthy.reachable
    exact ⟨fs, h1, by rw [h2, W.steps]⟩
  · intro st hst
    have hs : params.scale = 1 / 2 := by rcases hp with rfl | rfl <;> rfl
    obtain ⟨cs, ds, h1, h2, h3, -⟩ := C74_curves_partial W.healthy.reachable hst (n := 10) (by norm_num) 2 none
      ⟨1, by rw [hs]; norm_num [exampleDomain]⟩ ⟨2, by rw [hs]; norm_num [exampleDomain]⟩
    obtain ⟨cs', h4, h5, -⟩ := C21_curves exampleDomain (n := 10) (by norm_num) 2 none
    rw [h4] at h1
    cases h1
    exact ⟨ds, h2, by rw [h3, h5]; rfl⟩

/-- C78: all ten problems posed to the solver have optimal solutions -/
example (W : Witness params leg q solver s) : ∀ p ∈ s.calls, ∃ o, p.IsOptimal leg o :=
  fun _ hp => (C78_exists W.healthy.reachable W.rule W.constraints W.decreases hp).2

end Tve
