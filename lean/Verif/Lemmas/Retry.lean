import Verif.Props.Simulation
import Verif.Lemmas.SimCreate

/-! What one step of a simulation does to the thermal step and to the list of posed problems. -/

namespace Tve
namespace Sim
variable {s : Sim} {ys ts : List ℕ} {solver : Solver}

/-- the ways in which a step can end -/
inductive Trace (solver : Solver) (s : Sim) : PyM Unit → Sim → Prop
  /-- raised before any problem was posed -/
  | early {e s'} (upd : (updateMechanicalStep s).1 ≠ .ok ()) (calls : s'.calls = s.calls) (therm : s'.therm = s.therm) : Trace solver s (.error e) s'
  /-- the mechanical solve failed -/
  | mech {e s'} (m : MechStep) (ready : MechReady m s.therm.y s.therm.theta s.record.currentTime)
      (calls : s'.calls = s.calls ++ [m.problem]) (err : (solver s.calls m.problem).err ≠ none) (therm : s'.therm = s.therm) :
      Trace solver s (.error e) s'
  /-- raised between the solves -/
  | between {e s'} (m : MechStep) (ready : MechReady m s.therm.y s.therm.theta s.record.currentTime)
      (calls : s'.calls = s.calls ++ [m.problem]) (err : (solver s.calls m.problem).err = none)
      (upd : (∀ x ∈ m.prevTheta.data, 0 ≤ x) → (∀ f, s.therm.ext = some f → ∃ e, 0 ≤ e ∧ f s.record.currentTime = .ok e) →
        False) : Trace solver s (.error e) s'
  /-- the thermal solve failed -/
  | therm {e s'} (m : MechStep) (t : ThermStep) (ready : MechReady m s.therm.y s.therm.theta s.record.currentTime)
      (calls : s'.calls = s.calls ++ [m.problem, t.problem]) (err : (solver s.calls m.problem).err = none)
      (err' : (solver (s.calls ++ [m.problem]) t.problem).err ≠ none)
      (y : s'.therm.y.data = m.problem.answer (solver s.calls m.problem))
      (theta : s'.therm.theta.data = t.problem.answer (solver (s.calls ++ [m.problem]) t.problem)) : Trace solver s (.error e) s'
  /-- a new step was recorded -/
  | ok {s'} (m : MechStep) (t : ThermStep) (step : Step) (ready : MechReady m s.therm.y s.therm.theta s.record.currentTime)
      (calls : s'.calls = s.calls ++ [m.problem, t.problem]) (err : (solver (s.calls ++ [m.problem]) t.problem).err = none)
      (steps : s'.steps = s.steps ++ [step]) (y : s'.therm.y = step.yData) (theta : s'.therm.theta = step.thetaData)
      (err1 : (solver s.calls m.problem).err = none) :
      Trace solver s (.ok ()) s'

theorem runSingle_trace (solver : Solver) (h : s.WF ys ts) :
    Trace solver s (runSingleStep solver s).1 (runSingleStep solver s).2 := by
  obtain ⟨m, res, e1, w1, st1, fx1, rd1⟩ := updateMech_any h.mech h.therm
  rcases res with e | u
  · have : runSingleStep solver s = (.error e, { s with mech := m }) := by rw [runSingleStep, PyS.bind_of_err e1]
    rw [this]
    exact .early (by rw [e1]; simp) rfl rfl
  have rd := rd1 rfl
  set o1 := solver s.calls m.problem with ho1
  have w2 := w1.load o1
  have e2 : solveMech solver { s with mech := m } =
      (o1.result, { s with mech := m.load o1, calls := s.calls ++ [m.problem] }) := rfl
  rcases hr1 : o1.err with _ | e
  swap
  · rw [Outcome.result_err hr1] at e2
    have : runSingleStep solver s = (.error e, { s with mech := m.load o1, calls := s.calls ++ [m.problem] }) := by
      rw [runSingleStep, PyS.bind_of_ok e1, PyS.bind_of_err e2]
    rw [this]
    exact .mech m rd rfl (by rw [← ho1, hr1]; simp) rfl
  rw [Outcome.result_ok hr1] at e2
  obtain ⟨t, res, e3, w3, st3, hy3, rd3⟩ := updateTherm_any
    (s := { s with mech := m.load o1, calls := s.calls ++ [m.problem] }) w2.1 h.therm
  simp only at rd3 e3
  rcases res with e | u
  · have : runSingleStep solver s = (.error e, { s with mech := m.load o1, therm := t, calls := s.calls ++ [m.problem] }) := by
      rw [runSingleStep, PyS.bind_of_ok e1, PyS.bind_of_ok e2, PyS.bind_of_err e3]
    rw [this]
    refine .between m rd rfl hr1 fun h0 he => ?_
    have ht := Sim.updateTherm_ok (s := { s with mech := m.load o1, calls := s.calls ++ [m.problem] }) w2.1 h.therm
      (by simp only [w2.2.2.1]; exact h0) he
    rw [e3] at ht
    cases ht
  have rdt := rd3 rfl
  set o2 := solver (s.calls ++ [m.problem]) t.problem with ho2
  have w4 := w3.load o2
  have e4 : solveTherm solver { s with mech := m.load o1, therm := t, calls := s.calls ++ [m.problem] } =
      (o2.result, { s with mech := m.load o1, therm := t.load o2, calls := s.calls ++ [m.problem, t.problem] }) := by
    rw [solveTherm_apply]; simp [ho2]
  have hy : (t.load o2).y.data = m.problem.answer o1 := by
    rw [w4.2.2.1, rdt.y]; exact w2.2.2.2.1
  rcases hr2 : o2.err with _ | e
  swap
  · rw [Outcome.result_err hr2] at e4
    have : runSingleStep solver s = (.error e,
        { s with mech := m.load o1, therm := t.load o2, calls := s.calls ++ [m.problem, t.problem] }) := by
      rw [runSingleStep, PyS.bind_of_ok e1, PyS.bind_of_ok e2, PyS.bind_of_ok e3, PyS.bind_of_err e4]
    rw [this]
    exact .therm m t rd rfl hr1 (by rw [← ho2, hr2]; simp) hy w4.2.2.2.2.1
  rw [Outcome.result_ok hr2] at e4
  obtain ⟨step, r', e5, a1, a2, a3, a4, -⟩ := appendStep_ok h.shape w4.1.y w4.1.theta s.record
  have : runSingleStep solver s = (.ok (), ⟨s.domain, s.params, s.grid, s.refined, m.load o1, t.load o2, r',
      s.calls ++ [m.problem, t.problem]⟩) := by
    rw [runSingleStep, PyS.bind_of_ok e1, PyS.bind_of_ok e2, PyS.bind_of_ok e3, PyS.bind_of_ok e4, PyS.get_bind,
      PyS.get_bind, append, PyS.onAttr_apply]
    simp only [e5]
  rw [this]
  exact .ok m t step rd rfl hr2 a4 a2.symm a3.symm hr1

/-- negative temperatures in the thermal step stop every step before a problem is posed -/
theorem runSingle_negative (solver : Solver) (h : s.WF ys ts) (h0 : ∃ x ∈ s.therm.theta.data, x < 0) :
    ∃ s', runSingleStep solver s = (.error .valueError, s') ∧ s'.therm = s.therm ∧ s'.record = s.record ∧
      s'.calls = s.calls := by
  obtain ⟨m1, e1, w1, -⟩ := h.mech.updatePrevY_ok h.therm.y
  have q1 : onMech (MechStep.updatePrevY s.therm.y) s = (.ok (), { s with mech := m1 }) := by
    rw [onMech, PyS.onAttr_apply, e1]
  obtain ⟨m2, e2, w2, b2⟩ := w1.updatePrevTheta_neg h.therm.theta h0
  have q2 : onMech (MechStep.updatePrevTheta s.therm.theta) { s with mech := m1 } =
      (.error .valueError, { s with mech := m2 }) := by rw [onMech, PyS.onAttr_apply, e2]
  have e : updateMechanicalStep s = (.error .valueError, { s with mech := m2 }) := by
    rw [updateMechanicalStep, PyS.get_bind, PyS.bind_of_ok q1, PyS.get_bind, PyS.bind_of_err q2]
  exact ⟨{ s with mech := m2 }, by rw [runSingleStep, PyS.bind_of_err e], rfl, rfl, rfl⟩

/-- a run is a sequence of successful steps, stopped by the first failing one -/
theorem run_split (I : Sim → Prop) (J : PyErr → Sim → Prop) (h1 : ∀ s s', I s → runSingleStep solver s = (.ok (), s') → I s')
    (h2 : ∀ s s' e, I s → runSingleStep solver s = (.error e, s') → J e s') {n : ℤ} (hn : 0 < n) {s : Sim} (hs : I s) :
    (∃ s', s.run solver n = (.ok (), s') ∧ I s') ∨ ∃ e s', s.run solver n = (.error e, s') ∧ J e s' := by
  have key : ∀ (l : List ℕ) (s : Sim), I s →
      (∃ s', PyS.forEach l (fun _ => runSingleStep solver) s = (.ok (), s') ∧ I s') ∨
      ∃ e s', PyS.forEach l (fun _ => runSingleStep solver) s = (.error e, s') ∧ J e s' := by
    intro l
    induction l with
    | nil => intro s hs; exact .inl ⟨s, rfl, hs⟩
    | cons a l ih =>
      intro s hs
      rw [PyS.forEach_cons, PyS.bind_apply]
      rcases hr : runSingleStep solver s with ⟨e | ⟨⟩, s1⟩
      · exact .inr ⟨e, s1, rfl, h2 _ _ _ hs hr⟩
      · exact ih s1 (h1 _ _ hs hr)
  rw [Sim.run, if_neg (by omega)]
  split_ifs with h
  · rcases hr : runSingleStep solver s with ⟨e | ⟨⟩, s1⟩
    · exact .inr ⟨e, s1, rfl, h2 _ _ _ hs hr⟩
    · exact .inl ⟨s1, rfl, h1 _ _ hs hr⟩
  · exact key _ s hs

end Sim
end Tve
