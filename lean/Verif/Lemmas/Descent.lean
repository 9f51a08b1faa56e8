import Verif.Spec.Descent
import Verif.Lemmas.Posed
import Verif.Lemmas.EnergySim

/-! Energies along repeated attempts. -/

namespace Tve

namespace Sim
variable {s : Sim} {ys ts : List ℕ} {solver : Solver}

/-- the thermal step after its update, whether or not the external temperature raises -/
theorem updateTherm_theta (hm : s.mech.WF ys ts) (ht : s.therm.WF ys ts) (h0 : ∀ x ∈ s.mech.prevTheta.data, 0 ≤ x) :
    (updateThermalStep s).2.therm.theta = s.mech.prevTheta ∧ (updateThermalStep s).2.therm.y = s.mech.y := by
  obtain ⟨m1, e1, w1, a1, a2⟩ := ht.updatePrevY_ok hm.prevY
  have q1 : onTherm (ThermStep.updatePrevY s.mech.prevY) s = (.ok (), { s with therm := m1 }) := by
    rw [onTherm, PyS.onAttr_apply, e1]
  obtain ⟨m2, e2, w2, b1, b2, b3, b4, b5⟩ := w1.updatePrevTheta_ok hm.prevTheta h0
  have q2 : onTherm (ThermStep.updatePrevTheta s.mech.prevTheta) { s with therm := m1 } =
      (.ok (), { s with therm := m2 }) := by rw [onTherm, PyS.onAttr_apply, e2]
  obtain ⟨m3, e3, w3, c1, c2⟩ := w2.updateY_ok hm.y
  have q3 : onTherm (ThermStep.updateY s.mech.y) { s with therm := m2 } =
      (.ok (), { s with therm := m3 }) := by rw [onTherm, PyS.onAttr_apply, e3]
  have er := (w3.updateExternalTemperature_any s.record.currentTime).2
  rcases e4 : m3.updateExternalTemperature s.record.currentTime with ⟨res, m4⟩
  rw [e4] at er
  simp only at er
  have y4 := congrArg ThermStep.y er
  have v4 := congrArg ThermStep.theta er
  have v3 := congrArg ThermStep.theta c2
  simp only [ThermStep.y_eraseExt, ThermStep.theta_eraseExt, ThermStep.theta_eraseY] at y4 v4 v3
  have e : updateThermalStep s = (res, { s with therm := m4 }) := by
    rw [updateThermalStep, PyS.get_bind, PyS.bind_of_ok q1, PyS.get_bind, PyS.bind_of_ok q2, PyS.get_bind,
      PyS.bind_of_ok q3, PyS.get_bind, onTherm, PyS.onAttr_apply]
    simp only [e4]
  rw [e]
  exact ⟨v4.trans (v3.trans b2), y4.trans c1⟩

/-- a failing step leaves the temperature alone if failing thermal solves load nothing -/
theorem runSingle_theta (hk : solver.KeepsTemperature) (h : s.WF ys ts) {e : PyErr} {s' : Sim}
    (hr : runSingleStep solver s = (.error e, s')) : s'.therm.theta = s.therm.theta := by
  obtain ⟨m, res, e1, w1, st1, fx1, rd1⟩ := updateMech_any h.mech h.therm
  rcases res with e | u
  · have : runSingleStep solver s = (.error e, { s with mech := m }) := by rw [runSingleStep, PyS.bind_of_err e1]
    rw [this] at hr
    cases hr; rfl
  have rd := rd1 rfl
  have hn : ∀ x ∈ s.therm.theta.data, 0 ≤ x := by
    by_contra hneg
    push Not at hneg
    obtain ⟨s1, e', h2, -⟩ := runSingle_negative solver h hneg
    obtain ⟨m1, f1, w2, -⟩ := h.mech.updatePrevY_ok h.therm.y
    have q1 : onMech (MechStep.updatePrevY s.therm.y) s = (.ok (), { s with mech := m1 }) := by
      rw [onMech, PyS.onAttr_apply, f1]
    obtain ⟨m2, f2, w3, b2⟩ := w2.updatePrevTheta_neg h.therm.theta hneg
    have q2 : onMech (MechStep.updatePrevTheta s.therm.theta) { s with mech := m1 } =
        (.error .valueError, { s with mech := m2 }) := by rw [onMech, PyS.onAttr_apply, f2]
    have : updateMechanicalStep s = (.error .valueError, { s with mech := m2 }) := by
      rw [updateMechanicalStep, PyS.get_bind, PyS.bind_of_ok q1, PyS.get_bind, PyS.bind_of_err q2]
    rw [this] at e1
    cases e1
  set o1 := solver s.calls m.problem with ho1
  have w2 := w1.load o1
  have e2 : solveMech solver { s with mech := m } =
      (o1.result, { s with mech := m.load o1, calls := s.calls ++ [m.problem] }) := rfl
  rcases hr1 : o1.err with _ | e
  swap
  · rw [Outcome.result_err hr1] at e2
    have : runSingleStep solver s = (.error e, { s with mech := m.load o1, calls := s.calls ++ [m.problem] }) := by
      rw [runSingleStep, PyS.bind_of_ok e1, PyS.bind_of_err e2]
    rw [this] at hr
    cases hr; rfl
  rw [Outcome.result_ok hr1] at e2
  have hpt : (m.load o1).prevTheta = s.therm.theta := by rw [w2.2.2.1, rd.prevTheta]
  have ut := updateTherm_theta (s := { s with mech := m.load o1, calls := s.calls ++ [m.problem] }) w2.1 h.therm
    (by simp only [hpt]; exact hn)
  obtain ⟨t, res, e3, w3, st3, hy3, rd3⟩ := updateTherm_any
    (s := { s with mech := m.load o1, calls := s.calls ++ [m.problem] }) w2.1 h.therm
  simp only at rd3 e3
  rw [e3] at ut
  simp only [hpt] at ut
  rcases res with e | u
  · have : runSingleStep solver s = (.error e, { s with mech := m.load o1, therm := t, calls := s.calls ++ [m.problem] }) := by
      rw [runSingleStep, PyS.bind_of_ok e1, PyS.bind_of_ok e2, PyS.bind_of_err e3]
    rw [this] at hr
    cases hr
    exact ut.1
  set o2 := solver (s.calls ++ [m.problem]) t.problem with ho2
  have w4 := w3.load o2
  have e4 : solveTherm solver { s with mech := m.load o1, therm := t, calls := s.calls ++ [m.problem] } =
      (o2.result, { s with mech := m.load o1, therm := t.load o2, calls := s.calls ++ [m.problem, t.problem] }) := by
    rw [solveTherm_apply]; simp [ho2]
  rcases hr2 : o2.err with _ | e
  swap
  · rw [Outcome.result_err hr2] at e4
    have : runSingleStep solver s = (.error e,
        { s with mech := m.load o1, therm := t.load o2, calls := s.calls ++ [m.problem, t.problem] }) := by
      rw [runSingleStep, PyS.bind_of_ok e1, PyS.bind_of_ok e2, PyS.bind_of_ok e3, PyS.bind_of_err e4]
    rw [this] at hr
    cases hr
    have kk := hk (s.calls ++ [m.problem]) t.problem t.problem_isTherm (by rw [← ho2, hr2]; simp)
    have k1 : (t.load o2).theta.data = t.theta.data := by
      rw [w4.2.2.2.2.1, ho2, kk]
      cases t <;> rfl
    have k2 : (t.load o2).theta.shape = t.theta.shape := w4.1.theta.1.trans w3.theta.1.symm
    have k3 : (t.load o2).theta = t.theta := by
      rcases h1 : (t.load o2).theta with ⟨a, b⟩
      rcases h2 : t.theta with ⟨c, d⟩
      rw [h1, h2] at k1 k2
      simp only at k1 k2
      rw [k1, k2]
    exact k3.trans ut.1
  rw [Outcome.result_ok hr2] at e4
  obtain ⟨step, r', e5, a1, a2, a3, a4, -⟩ := appendStep_ok h.shape w4.1.y w4.1.theta s.record
  have : runSingleStep solver s = (.ok (), ⟨s.domain, s.params, s.grid, s.refined, m.load o1, t.load o2, r',
      s.calls ++ [m.problem, t.problem]⟩) := by
    rw [runSingleStep, PyS.bind_of_ok e1, PyS.bind_of_ok e2, PyS.bind_of_ok e3, PyS.bind_of_ok e4, PyS.get_bind,
      PyS.get_bind, append, PyS.onAttr_apply]
    simp only [e5]
  rw [this] at hr
  cases hr

end Sim

section
variable {solver : Solver} {domain : RectDomain ℝ} {params : SimParams} {ext : ExtTemp} {traction : Traction} {s : Sim}
  {leg : LegGauss} {q : GaussRule ℝ} {g : Grid ℝ} {refined : Option (RefinedGrid ℝ)}

theorem IsMechObjective.split {time v : ℝ} {y0 y θ : NdArray}
    (h : IsMechObjective leg params traction g refined time y0 y θ v) :
    ∃ e d, IsMechEnergy leg params traction g refined time y θ e ∧ IsDissipation g refined y0 y d ∧ v = e + params.fps * d := by
  obtain ⟨E, d, h1, h2, h3, h4⟩ := h
  refine ⟨v - params.fps * d, d, ⟨E, h1, fun hr => ?_, fun κ hκ => ?_⟩, h2, by ring⟩
  · obtain ⟨w, k1, k2⟩ := h3 hr
    exact ⟨w, k1, by rw [k2]; ring⟩
  · obtain ⟨r, x, k1, k2, k3⟩ := h4 κ hκ
    exact ⟨r, x, k1, k2, by rw [k3]; ring⟩

/-- one mechanical solve -/
theorem Sim.Context.descent {m0 : MechStep} {t0 : ThermStep} (c : s.Context domain params ext traction m0 t0)
    (hq : GaussRule.new leg 1 = .ok q) (hd : solver.Decreases leg) {m : MechStep} {ys ts : List ℕ} (w : m.WF ys ts)
    (hm : m.static = m0.static) {y θ : NdArray} {time : ℝ} (rd : MechReady m y θ time) (ho : Oriented s.grid s.refined y)
    (cs : List Problem) (ok : (solver cs m.problem).err = none) :
    ∃ e0 e1 d, IsMechEnergy leg params traction s.grid s.refined time y θ e0 ∧
      IsMechEnergy leg params traction s.grid s.refined time (m.load (solver cs m.problem)).y θ e1 ∧
      IsDissipation s.grid s.refined y (m.load (solver cs m.problem)).y d ∧ 0 ≤ d ∧ e1 + params.fps * d ≤ e0 := by
  obtain ⟨v0, v1, k0, k1, hle⟩ := c.solve hq hd w hm rd ho cs ok
  obtain ⟨e0, d0, a1, a2, rfl⟩ := k0.split
  obtain ⟨e1, d1, b1, b2, rfl⟩ := k1.split
  have b2' := b2
  obtain ⟨D0, D1, r, W, hD0, hD1, -⟩ := b2'
  obtain ⟨x0, -, x1, -, x2⟩ := dissCode_ok c.energetic hD0 hD0
  obtain ⟨z0, -, z1, z2, -⟩ := dissCode_ok c.energetic hD0 hD1
  cases a2.unique x1
  rw [x2 rfl] at hle
  refine ⟨e0, e1, d1, a1, b1, b2, ?_, by linarith⟩
  cases b2.unique z1
  exact z2

end

end Tve
