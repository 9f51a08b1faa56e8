import Verif.Lemmas.StepApi
import Verif.Props.GridQuery

/-!
# C56: data of the optimisation steps
-/

namespace Tve

/-! ### mechanical steps -/

section
variable {m : MechStep}

/-- The arrays returned by a mechanical step always have the documented shapes. -/
theorem C56_mech_shapes (h : m.Reachable) :
    m.prevY.Has m.yShape ∧ m.y.Has m.yShape ∧ m.prevTheta.Has m.thetaShape :=
  ⟨h.wf'.prevY, h.wf'.y, h.wf'.prevTheta⟩

/-- Updating the previous deformation of a mechanical step: both `prev_y()` and the starting guess `y()` return the new
array, the search range of every component is centred there with the search radius, no variable is fixed or released, and
everything else is unchanged. -/
theorem C56_mech_prev_y (h : m.Reachable) {a : NdArray} (ha : a.Has m.yShape) :
    ∃ m', m.updatePrevY a = (.ok (), m') ∧ m'.prevY = a ∧ m'.y = a ∧
      List.Forall₂ (fun v x => v.Around x m.searchRadius) m'.unknowns a.data ∧
      m'.unknowns.map VarData.fixed = m.unknowns.map VarData.fixed ∧ m'.prevTheta = m.prevTheta ∧
      m'.eraseY = m.eraseY := by
  obtain ⟨m', h1, h2, h3, h4, h5, h6, h7⟩ := h.wf'.updatePrevY_ok ha
  refine ⟨m', h1, h3, h4, h5, h6, ?_, h7⟩
  have := congrArg MechStep.prevTheta h7
  simpa using this

/-- A deformation of another shape is rejected and changes nothing. -/
theorem C56_mech_prev_y_shape (h : m.Reachable) {a : NdArray} (ha : a.shape ≠ m.yShape) :
    m.updatePrevY a = (.error .valueError, m) := h.wf'.updatePrevY_shape ha

/-- Updating the previous temperature of a mechanical step with nonnegative entries. -/
theorem C56_mech_prev_theta (h : m.Reachable) {a : NdArray} (ha : a.Has m.thetaShape) (h0 : ∀ x ∈ a.data, 0 ≤ x) :
    ∃ m', m.updatePrevTheta a = (.ok (), m') ∧ m'.prevTheta = a ∧ m'.prevY = m.prevY ∧ m'.y = m.y ∧
      m'.eraseTheta = m.eraseTheta := by
  obtain ⟨m', h1, h2, h3, h4⟩ := h.wf'.updatePrevTheta_ok ha h0
  have e1 := congrArg MechStep.prevY h4
  have e2 := congrArg MechStep.y h4
  exact ⟨m', h1, h3, by simpa using e1, by simpa using e2, h4⟩

/-- A temperature of another shape is rejected and changes nothing; one with a negative entry is rejected and changes
nothing but the stored temperature. -/
theorem C56_mech_prev_theta_rejected (h : m.Reachable) {a : NdArray} :
    (a.shape ≠ m.thetaShape → m.updatePrevTheta a = (.error .valueError, m)) ∧
    (a.Has m.thetaShape → (∃ x ∈ a.data, x < 0) →
      ∃ m', m.updatePrevTheta a = (.error .valueError, m') ∧ m'.eraseTheta = m.eraseTheta) := by
  refine ⟨h.wf'.updatePrevTheta_shape, fun ha h0 => ?_⟩
  obtain ⟨m', h1, -, h3⟩ := h.wf'.updatePrevTheta_neg ha h0
  exact ⟨m', h1, h3⟩

/-- Updating the boundary traction never changes anything but the traction; if it succeeds without regularization, the
traction at each Neumann vertex is the given function at the given time and the position of the vertex. -/
theorem C56_traction (h : m.Reachable) (time : ℝ) :
    (m.updateBoundaryTraction time).2.eraseTraction = m.eraseTraction ∧
    ∀ f, m.traction = some f → (m.updateBoundaryTraction time).1 = .ok () → ∀ v ∈ m.grid.neumann.vertices,
      ∃ z a b, m.grid.At v z ∧ f time z.1 z.2 = .ok [a, b] ∧
        (m.updateBoundaryTraction time).2.tractionAt v = some (a, b) :=
  ⟨(h.wf'.updateBoundaryTraction_any time).2, fun _ hf hok => h.wf'.traction_of_ok hf hok⟩

/-- Solving only changes the deformation, to the values returned by the solver. -/
theorem C56_mech_solve (h : m.Reachable) (o : Outcome) :
    (m.load o).y.Has m.yShape ∧ (m.load o).y.data = m.problem.answer o ∧ (m.load o).prevY = m.prevY ∧
      (m.load o).unknowns.map VarData.fixed = m.unknowns.map VarData.fixed ∧ (m.load o).eraseY = m.eraseY := by
  obtain ⟨h1, h2, h3, h4, h5, h6⟩ := h.wf'.load o
  exact ⟨h1.y, h4, h2, h5, h6⟩

end

/-! ### thermal steps -/

section
variable {m : ThermStep}

/-- The arrays returned by a thermal step always have the documented shapes. -/
theorem C56_therm_shapes (h : m.Reachable) :
    m.prevY.Has m.yShape ∧ m.y.Has m.yShape ∧ m.prevTheta.Has m.thetaShape ∧ m.theta.Has m.thetaShape :=
  ⟨h.wf'.prevY, h.wf'.y, h.wf'.prevTheta, h.wf'.theta⟩

/-- Updating the previous deformation of a thermal step. -/
theorem C56_therm_prev_y (h : m.Reachable) {a : NdArray} (ha : a.Has m.yShape) :
    ∃ m', m.updatePrevY a = (.ok (), m') ∧ m'.prevY = a ∧ m'.y = m.y ∧ m'.prevTheta = m.prevTheta ∧
      m'.theta = m.theta ∧ m'.erasePrevY = m.erasePrevY := by
  obtain ⟨m', h1, h2, h3, h4⟩ := h.wf'.updatePrevY_ok ha
  have e1 := congrArg ThermStep.y h4
  have e2 := congrArg ThermStep.prevTheta h4
  have e3 := congrArg ThermStep.theta h4
  exact ⟨m', h1, h3, by simpa using e1, by simpa using e2, by simpa using e3, h4⟩

/-- Updating the new deformation of a thermal step. -/
theorem C56_therm_y (h : m.Reachable) {a : NdArray} (ha : a.Has m.yShape) :
    ∃ m', m.updateY a = (.ok (), m') ∧ m'.y = a ∧ m'.prevY = m.prevY ∧ m'.prevTheta = m.prevTheta ∧
      m'.theta = m.theta ∧ m'.eraseY = m.eraseY := by
  obtain ⟨m', h1, h2, h3, h4⟩ := h.wf'.updateY_ok ha
  have e1 := congrArg ThermStep.prevY h4
  have e2 := congrArg ThermStep.prevTheta h4
  have e3 := congrArg ThermStep.theta h4
  exact ⟨m', h1, h3, by simpa using e1, by simpa using e2, by simpa using e3, h4⟩

/-- Updating the previous temperature of a thermal step with nonnegative entries: `prev_theta()` and the starting guess
`theta()` return the new array and the search range of every component is centred there with the search radius. -/
theorem C56_therm_prev_theta (h : m.Reachable) {a : NdArray} (ha : a.Has m.thetaShape) (h0 : ∀ x ∈ a.data, 0 ≤ x) :
    ∃ m', m.updatePrevTheta a = (.ok (), m') ∧ m'.prevTheta = a ∧ m'.theta = a ∧
      List.Forall₂ (fun v x => v.Around x m.searchRadius) m'.unknowns a.data ∧
      m'.unknowns.map VarData.fixed = m.unknowns.map VarData.fixed ∧ m'.prevY = m.prevY ∧ m'.y = m.y ∧
      m'.eraseTheta = m.eraseTheta := by
  obtain ⟨m', h1, h2, h3, h4, h5, h6, h7⟩ := h.wf'.updatePrevTheta_ok ha h0
  have e1 := congrArg ThermStep.prevY h7
  have e2 := congrArg ThermStep.y h7
  exact ⟨m', h1, h3, h4, h5, h6, by simpa using e1, by simpa using e2, h7⟩

/-- Arrays of another shape are rejected and change nothing; temperatures with a negative entry are rejected and change
nothing but the stored temperatures. -/
theorem C56_therm_rejected (h : m.Reachable) {a : NdArray} :
    (a.shape ≠ m.yShape → m.updatePrevY a = (.error .valueError, m) ∧ m.updateY a = (.error .valueError, m)) ∧
    (a.shape ≠ m.thetaShape → m.updatePrevTheta a = (.error .valueError, m)) ∧
    (a.Has m.thetaShape → (∃ x ∈ a.data, x < 0) →
      (m.updatePrevTheta a).1 = .error .valueError ∧ (m.updatePrevTheta a).2.eraseTheta = m.eraseTheta) :=
  ⟨fun ha => ⟨h.wf'.updatePrevY_shape ha, h.wf'.updateY_shape ha⟩, h.wf'.updatePrevTheta_shape,
    fun ha h0 => ⟨h.wf'.updatePrevTheta_neg ha h0, (h.wf'.updatePrevTheta_any a).2⟩⟩

/-- Updating the external temperature never changes anything else; if it succeeds without regularization, the external
temperature is the given function at the given time, which is nonnegative. -/
theorem C56_external_temperature (h : m.Reachable) (time : ℝ) :
    (m.updateExternalTemperature time).2.eraseExt = m.eraseExt ∧
    ∀ f, m.ext = some f → (m.updateExternalTemperature time).1 = .ok () →
      ∃ x, 0 ≤ x ∧ f time = .ok x ∧ (m.updateExternalTemperature time).2.extTemp = some x :=
  ⟨(h.wf'.updateExternalTemperature_any time).2, fun _ hf hok => ThermStep.ext_of_ok hf hok⟩

/-- Solving only changes the temperature, to the values returned by the solver. -/
theorem C56_therm_solve (h : m.Reachable) (o : Outcome) :
    (m.load o).theta.Has m.thetaShape ∧ (m.load o).theta.data = m.problem.answer o ∧ (m.load o).prevY = m.prevY ∧
      (m.load o).y = m.y ∧ (m.load o).prevTheta = m.prevTheta ∧
      (m.load o).unknowns.map VarData.fixed = m.unknowns.map VarData.fixed ∧
      (m.load o).eraseTheta = m.eraseTheta := by
  obtain ⟨h1, h2, h3, h4, h5, h6, h7⟩ := h.wf'.load o
  exact ⟨h1.theta, h5, h2, h3, h4, h6, h7⟩

end

end Tve
