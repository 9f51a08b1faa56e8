import Verif.Spec.Attempts
import Verif.Lemmas.Descent

/-! The problems recorded steps were made from, whether or not calls of `run` have failed. -/

namespace Tve

theorem Sim.AnsweredBefore.mono {s s' : Sim} {solver : Solver} {i j : ℕ} {y : NdArray} (h : s.AnsweredBefore solver i y)
    (hi : i ≤ s.calls.length) (hij : i ≤ j) (hp : s.calls <+: s'.calls) : s'.AnsweredBefore solver j y := by
  obtain ⟨k, o, h1, h2, h3, h4, h5⟩ := h
  obtain ⟨l, hl⟩ := hp
  have tk : s'.calls.take k = s.calls.take k := by rw [← hl, List.take_append_of_le_length (by omega)]
  exact ⟨k, o, by omega, by rw [← hl, List.getElem?_append_left (by omega)]; exact h2, h3, by rw [tk]; exact h4,
    by rw [tk]; exact h5⟩

namespace Sim
variable {s : Sim} {ys ts : List ℕ} {solver : Solver}

/-- the deformation left by a failing step: the old one, or the answer to a mechanical problem posed in the step -/
theorem runSingle_previous (h : s.WF ys ts) {e : PyErr} {s' : Sim} (hr : runSingleStep solver s = (.error e, s')) :
    s'.therm.y = s.therm.y ∨ s'.AnsweredBefore solver s'.calls.length s'.therm.y := by
  obtain ⟨m, res, e1, w1, st1, fx1, rd1⟩ := updateMech_any h.mech h.therm
  rcases res with e | u
  · have : runSingleStep solver s = (.error e, { s with mech := m }) := by rw [runSingleStep, PyS.bind_of_err e1]
    rw [this] at hr
    cases hr; exact .inl rfl
  have rd := rd1 rfl
  set o1 := solver s.calls m.problem with ho1
  have w2 := w1.load o1
  have e2 : solveMech solver { s with mech := m } =
      (o1.result, { s with mech := m.load o1, calls := s.calls ++ [m.problem] }) := rfl
  rcases hr1 : o1.err with _ | e
  swap
  · rw [Outcome.result_err hr1] at e2
    have : runSingleStep solver s = (.error e, { s with mech := m.load o1, calls := s.calls ++ [m.problem] }) := by
      rw [runSingleStep, PyS.bind_of_ok e1, PyS.bind_of_err e2]
    rw [this] at hr
    cases hr; exact .inl rfl
  rw [Outcome.result_ok hr1] at e2
  have key : ∀ (s2 : Sim) (l : List Problem), s2.calls = s.calls ++ m.problem :: l → s2.therm.y = (m.load o1).y →
      s2.AnsweredBefore solver s2.calls.length s2.therm.y := by
    intro s2 l hl hy
    have tk : s2.calls.take s.calls.length = s.calls := by rw [hl, List.take_left]
    exact ⟨s.calls.length, m.problem, by rw [hl]; simp, by rw [hl]; simp, m.problem_isMech, by rw [tk]; exact hr1,
      by rw [tk, hy]; exact w2.2.2.2.1⟩
  obtain ⟨t, res, e3, w3, st3, hy3, rd3⟩ := updateTherm_any
    (s := { s with mech := m.load o1, calls := s.calls ++ [m.problem] }) w2.1 h.therm
  simp only at rd3 e3 hy3
  rcases res with e | u
  · have : runSingleStep solver s = (.error e, { s with mech := m.load o1, therm := t, calls := s.calls ++ [m.problem] }) := by
      rw [runSingleStep, PyS.bind_of_ok e1, PyS.bind_of_ok e2, PyS.bind_of_err e3]
    rw [this] at hr
    cases hr
    rcases hy3 with hy | hy
    · exact .inl hy
    · exact .inr (key _ [] rfl hy)
  set o2 := solver (s.calls ++ [m.problem]) t.problem with ho2
  have w4 := w3.load o2
  have e4 : solveTherm solver { s with mech := m.load o1, therm := t, calls := s.calls ++ [m.problem] } =
      (o2.result, { s with mech := m.load o1, therm := t.load o2, calls := s.calls ++ [m.problem, t.problem] }) := by
    rw [solveTherm_apply]; simp [ho2]
  rcases hr2 : o2.err with _ | e
  swap
  · rw [Outcome.result_err hr2] at e4
    have : runSingleStep solver s = (.error e,
        { s with mech := m.load o1, therm := t.load o2, calls := s.calls ++ [m.problem, t.problem] }) := by
      rw [runSingleStep, PyS.bind_of_ok e1, PyS.bind_of_ok e2, PyS.bind_of_ok e3, PyS.bind_of_err e4]
    rw [this] at hr
    cases hr
    rcases hy3 with hy | hy
    · exact .inl (w4.2.2.1.trans hy)
    · exact .inr (key _ [t.problem] rfl (w4.2.2.1.trans hy))
  rw [Outcome.result_ok hr2] at e4
  obtain ⟨step, r', e5, a1, a2, a3, a4, -⟩ := appendStep_ok h.shape w4.1.y w4.1.theta s.record
  have : runSingleStep solver s = (.ok (), ⟨s.domain, s.params, s.grid, s.refined, m.load o1, t.load o2, r',
      s.calls ++ [m.problem, t.problem]⟩) := by
    rw [runSingleStep, PyS.bind_of_ok e1, PyS.bind_of_ok e2, PyS.bind_of_ok e3, PyS.bind_of_ok e4, PyS.get_bind,
      PyS.get_bind, append, PyS.onAttr_apply]
    simp only [e5]
  rw [this] at hr
  cases hr

end Sim

section
variable {solver : Solver} {domain : RectDomain ℝ} {params : SimParams} {ext : ExtTemp} {traction : Traction} {s : Sim}

/-- consecutive recorded steps, with the previous data of the problems -/
def Sim.Attempt (solver : Solver) (m0 : MechStep) (t0 : ThermStep) (s : Sim) (a b : Step) (time : ℝ) : Prop :=
  ∃ i m t y θ, Sim.MadeFrom solver m0 t0 s.calls b time i m t y θ ∧ (solver.KeepsTemperature → θ = a.thetaData) ∧
    (y = a.yData ∨ s.AnsweredBefore solver i y)

theorem Sim.Attempt.mono {s' : Sim} {m0 : MechStep} {t0 : ThermStep} {a b : Step} {time : ℝ}
    (h : s.Attempt solver m0 t0 a b time) (hp : s.calls <+: s'.calls) : s'.Attempt solver m0 t0 a b time := by
  obtain ⟨i, m, t, y, θ, M, k1, k2⟩ := h
  have hi : i + 1 < s.calls.length := (List.getElem?_eq_some_iff.1 M.thermCall).1
  have k2' : y = a.yData ∨ s'.AnsweredBefore solver i y := k2.imp id fun k => k.mono (by omega) le_rfl hp
  obtain ⟨l, hl⟩ := hp
  have t1 : s'.calls.take i = s.calls.take i := by rw [← hl, List.take_append_of_le_length (by omega)]
  have t2 : s'.calls.take (i + 1) = s.calls.take (i + 1) := by rw [← hl, List.take_append_of_le_length (by omega)]
  exact ⟨i, m, t, y, θ, ⟨by rw [← hl, List.getElem?_append_left (by omega)]; exact M.mechCall,
    by rw [← hl, List.getElem?_append_left (by omega)]; exact M.thermCall, M.mechWF, M.thermWF, M.mechStatic,
    M.thermStatic, M.mechFixed, M.mech, M.therm, by rw [t1]; exact M.mechOk, by rw [t2]; exact M.thermOk,
    by rw [t1]; exact M.y, by rw [t2]; exact M.theta⟩, k1, k2'⟩

/-- every recorded step of a simulation was made from the answers to two consecutive problems -/
theorem Sim.Reachable.attempts (hs : s.Reachable solver domain params ext traction) :
    ∃ m0 t0, s.Context domain params ext traction m0 t0 ∧
      s.record.currentTime = ((s.steps.length : ℝ) - 1) / params.fps ∧
      (∃ last, s.steps.getLast? = some last ∧ (solver.KeepsTemperature → s.therm.theta = last.thetaData) ∧
        (s.therm.y = last.yData ∨ s.AnsweredBefore solver s.calls.length s.therm.y)) ∧
      ∀ (k : ℕ) (a b : Step), s.steps[k]? = some a → s.steps[k + 1]? = some b →
        s.Attempt solver m0 t0 a b (k / params.fps) := by
  induction hs with
  | @new it s S h =>
    obtain ⟨m, t, step0, step1, r1, r2, w, c⟩ := Sim.of_new S h
    have cx := c.context S w
    have H := c.history S
    obtain ⟨last, h1, h2, h3⟩ := H.last
    refine ⟨m, t, cx, H.time, ⟨last, h1, fun _ => h3.symm, .inl h2.symm⟩, fun k a b ha hb => ?_⟩
    obtain ⟨m', t', e1, e2, e3, e4, e5, S⟩ := H.each k a b ha hb
    have htk : s.calls.take (2 * k + 1) = s.calls.take (2 * k) ++ [m'.problem] := by
      rw [List.take_add_one, e1]; rfl
    exact ⟨2 * k, m', t', _, _, ⟨e1, e2, S.mechWF, S.thermWF, e3, e4, e5, S.mech, S.therm, S.mechOk,
      by rw [htk]; exact S.thermOk, S.y, by rw [htk]; exact S.theta⟩, fun _ => rfl, .inl rfl⟩
  | @run s n hs ih =>
    obtain ⟨m0, t0, c, g1, g2, g3⟩ := ih
    refine ⟨m0, t0, Sim.run_inv (fun s => s.Context domain params ext traction m0 t0 ∧
      s.record.currentTime = ((s.steps.length : ℝ) - 1) / params.fps ∧
      (∃ last, s.steps.getLast? = some last ∧ (solver.KeepsTemperature → s.therm.theta = last.thetaData) ∧
        (s.therm.y = last.yData ∨ s.AnsweredBefore solver s.calls.length s.therm.y)) ∧
      ∀ (k : ℕ) (a b : Step), s.steps[k]? = some a → s.steps[k + 1]? = some b →
        s.Attempt solver m0 t0 a b (k / params.fps)) ?_ ⟨c, g1, g2, g3⟩⟩
    rintro s ⟨c, g1, ⟨last, l1, l2, l3⟩, g3⟩
    obtain ⟨l, hl, -⟩ := Sim.runSingle_posed solver (P := fun _ => True) c.wf c.mech c.therm c.fixed trivial
      (fun _ _ _ _ _ _ _ _ _ _ _ => trivial)
    refine ⟨c.single, ?_⟩
    rcases runSingle_any solver c.wf with ⟨m, t, step, r, s', e1, w, h⟩ | ⟨e, s', e1, w, h⟩
    · simp only [e1] at hl ⊢
      have hrec : s'.record = r := by rw [h.eq]
      have hst : s'.steps = s.steps ++ [step] := by rw [Sim.steps, hrec, h.steps]; rfl
      have hcalls : s'.calls = s.calls ++ [m.problem, t.problem] := by rw [h.eq]
      have ht : s'.therm = t.load (solver (s.calls ++ [m.problem]) t.problem) := by rw [h.eq]
      refine ⟨?_, ⟨step, by rw [hst]; simp, fun _ => h.stepTheta.symm, .inl h.stepY.symm⟩, fun k a b ha hb => ?_⟩
      · rw [hrec, h.time, g1, c.tau, hst, List.length_append, List.length_singleton]
        push_cast
        ring
      · by_cases hk : k + 1 < s.steps.length
        · rw [hst, List.getElem?_append_left hk] at hb
          rw [hst, List.getElem?_append_left (by omega)] at ha
          exact (g3 k a b ha hb).mono ⟨_, hl.symm⟩
        · have hk1 := (List.getElem?_eq_some_iff.1 hb).1
          rw [hst, List.length_append, List.length_singleton] at hk1
          have hk2 : k + 1 = s.steps.length := by omega
          rw [hst, List.getElem?_append_right (by omega), hk2, Nat.sub_self] at hb
          cases hb
          rw [hst, List.getElem?_append_left (by omega)] at ha
          have hlast : s.steps.getLast? = some a := by
            rw [List.getLast?_eq_getElem?, ← hk2, Nat.add_sub_cancel]; exact ha
          rw [l1] at hlast
          cases hlast
          have t1 : s'.calls.take s.calls.length = s.calls := by rw [hcalls, List.take_left]
          have t2 : s'.calls.take (s.calls.length + 1) = s.calls ++ [m.problem] := by
            rw [List.take_add_one, t1, hcalls]; simp
          have htime : (k : ℝ) / params.fps = s.record.currentTime := by
            rw [g1, ← hk2]; push_cast; ring
          have hy : step.yData = (m.load (solver s.calls m.problem)).y := by
            rw [h.stepY, ht, (h.thermWF.load _).2.2.1, h.thermReady.y]
          exact ⟨s.calls.length, m, t, _, _, ⟨by rw [hcalls]; simp, by rw [hcalls]; simp, h.mechWF, h.thermWF,
            h.mechStatic.trans c.mech, h.thermStatic.trans c.therm, h.mechFixed.trans c.fixed,
            by rw [htime]; exact h.mechReady, by rw [htime, hy]; exact h.thermReady, by rw [t1]; exact h.mechOk,
            by rw [t2]; exact h.thermOk, by rw [t1]; exact hy, by rw [t2, h.stepTheta, ht]⟩, l2,
            l3.imp id fun k => k.mono le_rfl le_rfl ⟨_, hl.symm⟩⟩
    · have hp := Sim.runSingle_previous c.wf e1
      have hth := fun hk => Sim.runSingle_theta (solver := solver) hk c.wf e1
      simp only [e1] at hl ⊢
      have hst : s'.steps = s.steps := by rw [Sim.steps, h.record]; rfl
      rw [h.record, hst]
      refine ⟨g1, ⟨last, l1, fun hk => (hth hk).trans (l2 hk), ?_⟩, fun k a b ha hb => (g3 k a b ha hb).mono ⟨_, hl.symm⟩⟩
      rcases hp with hp | hp
      · rw [hp]
        refine l3.imp id fun k => k.mono le_rfl (by rw [hl]; simp) ⟨_, hl.symm⟩
      · exact .inr hp

end

end Tve
