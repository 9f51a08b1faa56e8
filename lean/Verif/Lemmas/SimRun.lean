import Verif.Lemmas.SimStep

/-!
# Helper lemmas about one step of a simulation
-/

namespace Tve

/-! ### the part of a step that never changes -/

/-- the step without all data that updates and solving change -/
def MechStep.static (m : MechStep) : MechStep := m.eraseY.eraseTheta.eraseTraction

/-- the step without all data that updates and solving change -/
def ThermStep.static (m : ThermStep) : ThermStep := m.erasePrevY.eraseY.eraseTheta.eraseExt

namespace MechStep
variable {m m' : MechStep}

theorem static_of_eraseY (h : m.eraseY = m'.eraseY) : m.static = m'.static := by rw [static, h]; rfl

theorem static_of_eraseTheta (h : m.eraseTheta = m'.eraseTheta) : m.static = m'.static := by
  have : ∀ x : MechStep, x.static = x.eraseTheta.eraseY.eraseTraction := fun x => by cases x <;> rfl
  rw [this, this, h]

theorem static_of_eraseTraction (h : m.eraseTraction = m'.eraseTraction) : m.static = m'.static := by
  have : ∀ x : MechStep, x.static = x.eraseTraction.eraseTheta.eraseY := fun x => by cases x <;> rfl
  rw [this, this, h]

theorem static_grid (h : m.static = m'.static) : m.grid = m'.grid := by
  have := congrArg MechStep.grid h
  cases m <;> cases m' <;> exact this

theorem static_searchRadius (h : m.static = m'.static) : m.searchRadius = m'.searchRadius := by
  have := congrArg MechStep.searchRadius h
  cases m <;> cases m' <;> exact this

theorem static_traction (h : m.static = m'.static) : m.traction = m'.traction := by
  have := congrArg MechStep.traction h
  cases m <;> cases m' <;> exact this

theorem static_fps (h : m.static = m'.static) : m.problem.fps = m'.problem.fps := by
  have := congrArg (fun x => Problem.fps (MechStep.problem x)) h
  cases m <;> cases m' <;> exact this

theorem static_refined (h : m.static = m'.static) : m.problem.refined = m'.problem.refined := by
  have := congrArg (fun x => Problem.refined (MechStep.problem x)) h
  cases m <;> cases m' <;> exact this

theorem problem_grid (m : MechStep) : m.problem.grid = m.grid := by cases m <;> rfl
theorem problem_prevY (m : MechStep) : m.problem.prevY = m.prevY := by cases m <;> rfl
theorem problem_y (m : MechStep) : m.problem.y = m.y := by cases m <;> rfl
theorem problem_prevTheta (m : MechStep) : m.problem.prevTheta = m.prevTheta := by cases m <;> rfl
theorem problem_tractionAt (m : MechStep) (v : Vertex) : m.problem.tractionAt v = m.tractionAt v := by cases m <;> rfl
theorem problem_isMech (m : MechStep) : m.problem.IsMech := by cases m <;> trivial

end MechStep

namespace ThermStep
variable {m m' : ThermStep}

theorem static_of_erasePrevY (h : m.erasePrevY = m'.erasePrevY) : m.static = m'.static := by rw [static, h]; rfl

theorem static_of_eraseY (h : m.eraseY = m'.eraseY) : m.static = m'.static := by
  have : ∀ x : ThermStep, x.static = x.eraseY.erasePrevY.eraseTheta.eraseExt := fun x => by cases x <;> rfl
  rw [this, this, h]

theorem static_of_eraseTheta (h : m.eraseTheta = m'.eraseTheta) : m.static = m'.static := by
  have : ∀ x : ThermStep, x.static = x.eraseTheta.erasePrevY.eraseY.eraseExt := fun x => by cases x <;> rfl
  rw [this, this, h]

theorem static_of_eraseExt (h : m.eraseExt = m'.eraseExt) : m.static = m'.static := by
  have : ∀ x : ThermStep, x.static = x.eraseExt.erasePrevY.eraseY.eraseTheta := fun x => by cases x <;> rfl
  rw [this, this, h]

theorem static_searchRadius (h : m.static = m'.static) : m.searchRadius = m'.searchRadius := by
  have := congrArg ThermStep.searchRadius h
  cases m <;> cases m' <;> exact this

theorem static_ext (h : m.static = m'.static) : m.ext = m'.ext := by
  have := congrArg ThermStep.ext h
  cases m <;> cases m' <;> exact this

theorem static_fps (h : m.static = m'.static) : m.problem.fps = m'.problem.fps := by
  have := congrArg (fun x => Problem.fps (ThermStep.problem x)) h
  cases m <;> cases m' <;> exact this

theorem static_grid (h : m.static = m'.static) : m.problem.grid = m'.problem.grid := by
  have := congrArg (fun x => Problem.grid (ThermStep.problem x)) h
  cases m <;> cases m' <;> exact this

theorem static_refined (h : m.static = m'.static) : m.problem.refined = m'.problem.refined := by
  have := congrArg (fun x => Problem.refined (ThermStep.problem x)) h
  cases m <;> cases m' <;> exact this

theorem problem_prevY (m : ThermStep) : m.problem.prevY = m.prevY := by cases m <;> rfl
theorem problem_y (m : ThermStep) : m.problem.y = m.y := by cases m <;> rfl
theorem problem_prevTheta (m : ThermStep) : m.problem.prevTheta = m.prevTheta := by cases m <;> rfl
theorem problem_extTemp (m : ThermStep) : m.problem.extTemp = m.extTemp := by cases m <;> rfl
theorem problem_isTherm (m : ThermStep) : m.problem.IsTherm := by cases m <;> trivial

end ThermStep

/-! ### steps prepared for solving -/

/-- the mechanical step is ready to compute the deformation that follows `Y`, `θ` -/
structure MechReady (m : MechStep) (Y θ : NdArray) (time : ℝ) : Prop where
  prevY : m.prevY = Y
  y : m.y = Y
  prevTheta : m.prevTheta = θ
  around : List.Forall₂ (fun v x => v.Around x m.searchRadius) m.unknowns Y.data
  traction : ∀ f, m.traction = some f → ∀ v ∈ m.grid.neumann.vertices, ∃ z l a b, m.grid.At v z ∧
    f time z.1 z.2 = .ok l ∧ l[0]? = some a ∧ l[1]? = some b ∧ m.tractionAt v = some (a, b)

/-- the thermal step is ready to compute the temperature that follows `θ`, for the deformations `y0`, `y1` -/
structure ThermReady (m : ThermStep) (y0 y1 θ : NdArray) (time : ℝ) : Prop where
  prevY : m.prevY = y0
  y : m.y = y1
  prevTheta : m.prevTheta = θ
  theta : m.theta = θ
  nonneg : ∀ x ∈ θ.data, 0 ≤ x
  around : List.Forall₂ (fun v x => v.Around x m.searchRadius) m.unknowns θ.data
  ext : ∀ f, m.ext = some f → ∃ x, 0 ≤ x ∧ f time = .ok x ∧ m.extTemp = some x

namespace Sim
variable {s : Sim} {ys ts : List ℕ}

theorem updateMech_any (hm : s.mech.WF ys ts) (ht : s.therm.WF ys ts) :
    ∃ m res, updateMechanicalStep s = (res, { s with mech := m }) ∧ m.WF ys ts ∧ m.static = s.mech.static ∧
      m.unknowns.map VarData.fixed = s.mech.unknowns.map VarData.fixed ∧
      (res = .ok () → MechReady m s.therm.y s.therm.theta s.record.currentTime) := by
  obtain ⟨m1, e1, w1, a1, a2, a3, a4, a5⟩ := hm.updatePrevY_ok ht.y
  have st1 := MechStep.static_of_eraseY a5
  have r1 : m1.searchRadius = s.mech.searchRadius := MechStep.static_searchRadius st1
  rw [← r1] at a3
  have q1 : onMech (MechStep.updatePrevY s.therm.y) s = (.ok (), { s with mech := m1 }) := by
    rw [onMech, PyS.onAttr_apply, e1]
  by_cases h0 : ∀ x ∈ s.therm.theta.data, 0 ≤ x
  · obtain ⟨m2, e2, w2, b1, b2⟩ := w1.updatePrevTheta_ok ht.theta h0
    have st2 := MechStep.static_of_eraseTheta b2
    have q2 : onMech (MechStep.updatePrevTheta s.therm.theta) { s with mech := m1 } =
        (.ok (), { s with mech := m2 }) := by rw [onMech, PyS.onAttr_apply, e2]
    have st3 := MechStep.static_of_eraseTraction (w2.updateBoundaryTraction_any s.record.currentTime).2
    have w3 := (w2.updateBoundaryTraction_any s.record.currentTime).1
    have er := (w2.updateBoundaryTraction_any s.record.currentTime).2
    have tr := fun f hf hok => w2.traction_of_ok (time := s.record.currentTime) (f := f) hf hok
    rcases e3 : m2.updateBoundaryTraction s.record.currentTime with ⟨res, m3⟩
    rw [e3] at st3 w3 er tr
    simp only at st3 w3 er tr
    refine ⟨m3, res, ?_, w3, st3.trans (st2.trans st1), ?_, ?_⟩
    · rw [updateMechanicalStep, PyS.get_bind, PyS.bind_of_ok q1, PyS.get_bind, PyS.bind_of_ok q2, PyS.get_bind, onMech,
        PyS.onAttr_apply]
      simp only [e3]
    · have h3 := congrArg MechStep.unknowns er
      have h2 := congrArg MechStep.unknowns b2
      simp only [MechStep.unknowns_eraseTraction, MechStep.unknowns_eraseTheta] at h3 h2
      rw [h3, h2, a4]
    · rintro rfl
      have p3 := congrArg MechStep.prevY er
      have p2 := congrArg MechStep.prevY b2
      have y3 := congrArg MechStep.y er
      have y2 := congrArg MechStep.y b2
      have t3 := congrArg MechStep.prevTheta er
      have u3 := congrArg MechStep.unknowns er
      have u2 := congrArg MechStep.unknowns b2
      simp only [MechStep.unknowns_eraseTraction, MechStep.unknowns_eraseTheta, MechStep.prevY_eraseTraction,
        MechStep.prevY_eraseTheta, MechStep.y_eraseTraction, MechStep.y_eraseTheta,
        MechStep.prevTheta_eraseTraction] at p3 p2 y3 y2 t3 u3 u2
      have r3 : m3.searchRadius = m1.searchRadius := MechStep.static_searchRadius (st3.trans st2)
      refine ⟨p3.trans (p2.trans a1), y3.trans (y2.trans a2), t3.trans b1, ?_, ?_⟩
      · rw [u3, u2, r3]; exact a3
      · intro f hf v hv
        rw [MechStep.static_traction st3] at hf
        rw [MechStep.static_grid st3] at hv
        obtain ⟨z, a, b, h1, h2, h3⟩ := tr f hf rfl v hv
        exact ⟨z, [a, b], a, b, by rw [MechStep.static_grid st3]; exact h1, h2, rfl, rfl, h3⟩
  · push Not at h0
    obtain ⟨m2, e2, w2, b2⟩ := w1.updatePrevTheta_neg ht.theta h0
    have st2 := MechStep.static_of_eraseTheta b2
    have q2 : onMech (MechStep.updatePrevTheta s.therm.theta) { s with mech := m1 } =
        (.error .valueError, { s with mech := m2 }) := by rw [onMech, PyS.onAttr_apply, e2]
    refine ⟨m2, .error .valueError, ?_, w2, st2.trans st1, ?_, fun h => by cases h⟩
    · rw [updateMechanicalStep, PyS.get_bind, PyS.bind_of_ok q1, PyS.get_bind, PyS.bind_of_err q2]
    · have h2 := congrArg MechStep.unknowns b2
      simp only [MechStep.unknowns_eraseTheta] at h2
      rw [h2, a4]

theorem updateTherm_any (hm : s.mech.WF ys ts) (ht : s.therm.WF ys ts) :
    ∃ t res, updateThermalStep s = (res, { s with therm := t }) ∧ t.WF ys ts ∧ t.static = s.therm.static ∧
      (t.y = s.therm.y ∨ t.y = s.mech.y) ∧
      (res = .ok () → ThermReady t s.mech.prevY s.mech.y s.mech.prevTheta s.record.currentTime) := by
  obtain ⟨m1, e1, w1, a1, a2⟩ := ht.updatePrevY_ok hm.prevY
  have st1 := ThermStep.static_of_erasePrevY a2
  have y1 := congrArg ThermStep.y a2
  simp only [ThermStep.y_erasePrevY] at y1
  have q1 : onTherm (ThermStep.updatePrevY s.mech.prevY) s = (.ok (), { s with therm := m1 }) := by
    rw [onTherm, PyS.onAttr_apply, e1]
  by_cases h0 : ∀ x ∈ s.mech.prevTheta.data, 0 ≤ x
  · obtain ⟨m2, e2, w2, b1, b2, b3, b4, b5⟩ := w1.updatePrevTheta_ok hm.prevTheta h0
    have st2 := ThermStep.static_of_eraseTheta b5
    rw [← ThermStep.static_searchRadius st2] at b3
    have q2 : onTherm (ThermStep.updatePrevTheta s.mech.prevTheta) { s with therm := m1 } =
        (.ok (), { s with therm := m2 }) := by rw [onTherm, PyS.onAttr_apply, e2]
    obtain ⟨m3, e3, w3, c1, c2⟩ := w2.updateY_ok hm.y
    have st3 := ThermStep.static_of_eraseY c2
    have q3 : onTherm (ThermStep.updateY s.mech.y) { s with therm := m2 } =
        (.ok (), { s with therm := m3 }) := by rw [onTherm, PyS.onAttr_apply, e3]
    have er := (w3.updateExternalTemperature_any s.record.currentTime).2
    have w4 := (w3.updateExternalTemperature_any s.record.currentTime).1
    have st4 := ThermStep.static_of_eraseExt er
    have tr := fun f hf hok => ThermStep.ext_of_ok (m := m3) (time := s.record.currentTime) (f := f) hf hok
    rcases e4 : m3.updateExternalTemperature s.record.currentTime with ⟨res, m4⟩
    rw [e4] at st4 w4 er tr
    simp only at st4 w4 er tr
    have y4 := congrArg ThermStep.y er
    simp only [ThermStep.y_eraseExt] at y4
    refine ⟨m4, res, ?_, w4, st4.trans (st3.trans (st2.trans st1)), Or.inr (y4.trans c1), ?_⟩
    · rw [updateThermalStep, PyS.get_bind, PyS.bind_of_ok q1, PyS.get_bind, PyS.bind_of_ok q2, PyS.get_bind,
        PyS.bind_of_ok q3, PyS.get_bind, onTherm, PyS.onAttr_apply]
      simp only [e4]
    · rintro rfl
      have p4 := congrArg ThermStep.prevY er
      have p3 := congrArg ThermStep.prevY c2
      have p2 := congrArg ThermStep.prevY b5
      have t4 := congrArg ThermStep.prevTheta er
      have t3 := congrArg ThermStep.prevTheta c2
      have v4 := congrArg ThermStep.theta er
      have v3 := congrArg ThermStep.theta c2
      have u4 := congrArg ThermStep.unknowns er
      have u3 := congrArg ThermStep.unknowns c2
      simp only [ThermStep.prevY_eraseExt, ThermStep.prevY_eraseY, ThermStep.prevY_eraseTheta,
        ThermStep.prevTheta_eraseExt, ThermStep.prevTheta_eraseY, ThermStep.theta_eraseExt, ThermStep.theta_eraseY,
        ThermStep.unknowns_eraseExt, ThermStep.unknowns_eraseY] at p4 p3 p2 t4 t3 v4 v3 u4 u3
      refine ⟨p4.trans (p3.trans (p2.trans a1)), y4.trans c1, t4.trans (t3.trans b1), v4.trans (v3.trans b2), h0, ?_, ?_⟩
      · rw [u4, u3, ThermStep.static_searchRadius (st4.trans st3)]; exact b3
      · intro f hf
        rw [ThermStep.static_ext st4] at hf
        exact tr f hf rfl
  · push Not at h0
    have e2 := w1.updatePrevTheta_neg hm.prevTheta h0
    obtain ⟨w2, b2⟩ := w1.updatePrevTheta_any s.mech.prevTheta
    rcases hu : m1.updatePrevTheta s.mech.prevTheta with ⟨res, m2⟩
    rw [hu] at e2 w2 b2
    simp only at e2 w2 b2
    subst e2
    have st2 := ThermStep.static_of_eraseTheta b2
    have q2 : onTherm (ThermStep.updatePrevTheta s.mech.prevTheta) { s with therm := m1 } =
        (.error .valueError, { s with therm := m2 }) := by rw [onTherm, PyS.onAttr_apply, hu]
    refine ⟨m2, .error .valueError, ?_, w2, st2.trans st1, Or.inl ?_, fun h => by cases h⟩
    · rw [updateThermalStep, PyS.get_bind, PyS.bind_of_ok q1, PyS.get_bind, PyS.bind_of_err q2]
    · have h2 := congrArg ThermStep.y b2
      simp only [ThermStep.y_eraseTheta] at h2
      exact h2.trans y1

/-- shape invariant of a simulation -/
structure WF (s : Sim) (ys ts : List ℕ) : Prop where
  mech : s.mech.WF ys ts
  therm : s.therm.WF ys ts
  shape : SimShape s.domain s.params s.grid s.refined ys ts

theorem solveMech_apply (solver : Solver) (s : Sim) : solveMech solver s =
    ((solver s.calls s.mech.problem).result,
      { s with mech := s.mech.load (solver s.calls s.mech.problem), calls := s.calls ++ [s.mech.problem] }) := rfl

theorem solveTherm_apply (solver : Solver) (s : Sim) : solveTherm solver s =
    ((solver s.calls s.therm.problem).result,
      { s with therm := s.therm.load (solver s.calls s.therm.problem), calls := s.calls ++ [s.therm.problem] }) := rfl

/-- what a successful step does -/
structure SingleStep (solver : Solver) (ys ts : List ℕ) (s : Sim) (m : MechStep) (t : ThermStep) (step : Step) (r : Record)
    (s' : Sim) : Prop where
  mechWF : m.WF ys ts
  thermWF : t.WF ys ts
  mechStatic : m.static = s.mech.static
  mechFixed : m.unknowns.map VarData.fixed = s.mech.unknowns.map VarData.fixed
  mechReady : MechReady m s.therm.y s.therm.theta s.record.currentTime
  mechOk : (solver s.calls m.problem).err = none
  thermStatic : t.static = s.therm.static
  thermReady : ThermReady t s.therm.y (m.load (solver s.calls m.problem)).y s.therm.theta s.record.currentTime
  thermOk : (solver (s.calls ++ [m.problem]) t.problem).err = none
  eq : s' = ⟨s.domain, s.params, s.grid, s.refined, m.load (solver s.calls m.problem),
    t.load (solver (s.calls ++ [m.problem]) t.problem), r, s.calls ++ [m.problem, t.problem]⟩
  made : makeStep s.domain s.params s.grid s.refined s'.therm.y s'.therm.theta = .ok step
  stepY : step.yData = s'.therm.y
  stepTheta : step.thetaData = s'.therm.theta
  steps : r.steps = s.record.steps ++ [step]
  tau : r.tau = s.record.tau
  time : r.currentTime = s.record.currentTime + s.record.tau
  maxTemp : ∃ M, NdArray.npMax step.thetaData.data = .ok M ∧ r.maxTemp = Max.max s.record.maxTemp M
  xlims : ∃ xs, step.yData.slice 0 = .ok xs ∧ updateLims s.record.xlims xs = .ok r.xlims
  ylims : ∃ xs, step.yData.slice 1 = .ok xs ∧ updateLims s.record.ylims xs = .ok r.ylims

/-- what a failing step leaves behind -/
structure FailedStep (solver : Solver) (ys ts : List ℕ) (s s' : Sim) : Prop where
  record : s'.record = s.record
  domain : s'.domain = s.domain
  params : s'.params = s.params
  grid : s'.grid = s.grid
  refined : s'.refined = s.refined
  mechStatic : s'.mech.static = s.mech.static
  mechFixed : s'.mech.unknowns.map VarData.fixed = s.mech.unknowns.map VarData.fixed
  thermStatic : s'.therm.static = s.therm.static
  /-- the deformation of the thermal step is the old one or the result of a successful mechanical solve -/
  y : s'.therm.y = s.therm.y ∨ ∃ m : MechStep, m.WF ys ts ∧ m.static = s.mech.static ∧
    m.unknowns.map VarData.fixed = s.mech.unknowns.map VarData.fixed ∧
    MechReady m s.therm.y s.therm.theta s.record.currentTime ∧ (solver s.calls m.problem).err = none ∧
    s'.therm.y = (m.load (solver s.calls m.problem)).y

theorem Outcome.result_ok {o : Outcome} (h : o.err = none) : o.result = .ok () := by rw [Outcome.result, h]
theorem Outcome.result_err {o : Outcome} {e : PyErr} (h : o.err = some e) : o.result = .error e := by
  rw [Outcome.result, h]

theorem runSingle_any (solver : Solver) (h : s.WF ys ts) :
    (∃ m t step r s', runSingleStep solver s = (.ok (), s') ∧ s'.WF ys ts ∧ SingleStep solver ys ts s m t step r s') ∨
    (∃ e s', runSingleStep solver s = (.error e, s') ∧ s'.WF ys ts ∧ FailedStep solver ys ts s s') := by
  obtain ⟨m, res, e1, w1, st1, fx1, rd1⟩ := updateMech_any h.mech h.therm
  rcases res with e | u
  · right
    refine ⟨e, { s with mech := m }, by rw [runSingleStep, PyS.bind_of_err e1], ⟨w1, h.therm, h.shape⟩,
      ⟨rfl, rfl, rfl, rfl, rfl, st1, fx1, rfl, Or.inl rfl⟩⟩
  have rd := rd1 rfl
  set o1 := solver s.calls m.problem with ho1
  have w2 := w1.load o1
  have st2 : (m.load o1).static = s.mech.static := (MechStep.static_of_eraseY w2.2.2.2.2.2).trans st1
  have e2 : solveMech solver { s with mech := m } =
      (o1.result, { s with mech := m.load o1, calls := s.calls ++ [m.problem] }) := rfl
  rcases hr1 : o1.err with _ | e
  swap
  · right
    rw [Outcome.result_err hr1] at e2
    refine ⟨e, { s with mech := m.load o1, calls := s.calls ++ [m.problem] },
      by rw [runSingleStep, PyS.bind_of_ok e1, PyS.bind_of_err e2], ⟨w2.1, h.therm, h.shape⟩,
      ⟨rfl, rfl, rfl, rfl, rfl, st2, w2.2.2.2.2.1.trans fx1, rfl, Or.inl rfl⟩⟩
  rw [Outcome.result_ok hr1] at e2
  obtain ⟨t, res, e3, w3, st3, hy3, rd3⟩ := updateTherm_any
    (s := { s with mech := m.load o1, calls := s.calls ++ [m.problem] }) w2.1 h.therm
  simp only at hy3 st3 rd3 e3
  have hy3' : t.y = s.therm.y ∨ ∃ m : MechStep, m.WF ys ts ∧ m.static = s.mech.static ∧
      m.unknowns.map VarData.fixed = s.mech.unknowns.map VarData.fixed ∧
      MechReady m s.therm.y s.therm.theta s.record.currentTime ∧ (solver s.calls m.problem).err = none ∧
      t.y = (m.load (solver s.calls m.problem)).y := by
    rcases hy3 with hy | hy
    · exact Or.inl hy
    · exact Or.inr ⟨m, w1, st1, fx1, rd, hr1, hy⟩
  rcases res with e | u
  · right
    refine ⟨e, { s with mech := m.load o1, therm := t, calls := s.calls ++ [m.problem] },
      by rw [runSingleStep, PyS.bind_of_ok e1, PyS.bind_of_ok e2, PyS.bind_of_err e3], ⟨w2.1, w3, h.shape⟩,
      ⟨rfl, rfl, rfl, rfl, rfl, st2, w2.2.2.2.2.1.trans fx1, st3, hy3'⟩⟩
  have rdt := rd3 rfl
  rw [w2.2.1, rd.prevY, w2.2.2.1, rd.prevTheta] at rdt
  set o2 := solver (s.calls ++ [m.problem]) t.problem with ho2
  have w4 := w3.load o2
  have st4 : (t.load o2).static = s.therm.static := (ThermStep.static_of_eraseTheta w4.2.2.2.2.2.2).trans st3
  have e4 : solveTherm solver { s with mech := m.load o1, therm := t, calls := s.calls ++ [m.problem] } =
      (o2.result, { s with mech := m.load o1, therm := t.load o2, calls := s.calls ++ [m.problem, t.problem] }) := by
    rw [solveTherm_apply]; simp [ho2]
  rcases hr2 : o2.err with _ | e
  swap
  · right
    rw [Outcome.result_err hr2] at e4
    refine ⟨e, { s with mech := m.load o1, therm := t.load o2, calls := s.calls ++ [m.problem, t.problem] },
      by rw [runSingleStep, PyS.bind_of_ok e1, PyS.bind_of_ok e2, PyS.bind_of_ok e3, PyS.bind_of_err e4],
      ⟨w2.1, w4.1, h.shape⟩, ⟨rfl, rfl, rfl, rfl, rfl, st2, w2.2.2.2.2.1.trans fx1, st4, ?_⟩⟩
    simp only [w4.2.2.1]
    exact hy3'
  left
  rw [Outcome.result_ok hr2] at e4
  obtain ⟨step, r', e5, a1, a2, a3, a4, a5, a6, a7, a8, a9⟩ :=
    appendStep_ok h.shape w4.1.y w4.1.theta s.record
  refine ⟨m, t, step, r', ⟨s.domain, s.params, s.grid, s.refined, m.load o1, t.load o2, r',
    s.calls ++ [m.problem, t.problem]⟩, ?_, ?_, ⟨w1, w3, st1, fx1, rd, hr1, st3, rdt, hr2, rfl, a1, a2, a3, a4, a5, a6, ?_, ?_, ?_⟩⟩
  · rw [runSingleStep, PyS.bind_of_ok e1, PyS.bind_of_ok e2, PyS.bind_of_ok e3, PyS.bind_of_ok e4, PyS.get_bind,
      PyS.get_bind, append, PyS.onAttr_apply]
    simp only [e5]
  · exact ⟨w2.1, w4.1, h.shape⟩
  · rw [a3]; exact a7
  · rw [a2]; exact a8
  · rw [a2]; exact a9

end Sim

end Tve
