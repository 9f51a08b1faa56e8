import Verif.Spec.Endures
import Verif.Props.Attempts
import Verif.Props.Cold

/-! Bodies at rest in simulations with failures. -/

namespace Tve

namespace Sim
variable {s : Sim} {ys ts : List ℕ} {solver : Solver}

/-- the deformation left by a failing step: the old one, or the answer to a mechanical problem posed in the step -/
theorem runSingle_answered (h : s.WF ys ts) {e : PyErr} {s' : Sim} (hr : runSingleStep solver s = (.error e, s')) :
    s'.therm.y = s.therm.y ∨ ∃ m : MechStep, m.WF ys ts ∧ m.static = s.mech.static ∧
      m.unknowns.map VarData.fixed = s.mech.unknowns.map VarData.fixed ∧
      MechReady m s.therm.y s.therm.theta s.record.currentTime ∧ (solver s.calls m.problem).err = none ∧
      (∃ l, s'.calls = s.calls ++ m.problem :: l) ∧ s'.therm.y = (m.load (solver s.calls m.problem)).y := by
  obtain ⟨m, res, e1, w1, st1, fx1, rd1⟩ := updateMech_any h.mech h.therm
  rcases res with e | u
  · have : runSingleStep solver s = (.error e, { s with mech := m }) := by rw [runSingleStep, PyS.bind_of_err e1]
    rw [this] at hr
    cases hr; exact .inl rfl
  have rd := rd1 rfl
  set o1 := solver s.calls m.problem with ho1
  have w2 := w1.load o1
  have e2 : solveMech solver { s with mech := m } =
      (o1.result, { s with mech := m.load o1, calls := s.calls ++ [m.problem] }) := rfl
  rcases hr1 : o1.err with _ | e
  swap
  · rw [Outcome.result_err hr1] at e2
    have : runSingleStep solver s = (.error e, { s with mech := m.load o1, calls := s.calls ++ [m.problem] }) := by
      rw [runSingleStep, PyS.bind_of_ok e1, PyS.bind_of_err e2]
    rw [this] at hr
    cases hr; exact .inl rfl
  rw [Outcome.result_ok hr1] at e2
  have key : ∀ (s2 : Sim) (l : List Problem), s2.calls = s.calls ++ m.problem :: l → s2.therm.y = (m.load o1).y →
      ∃ m : MechStep, m.WF ys ts ∧ m.static = s.mech.static ∧
      m.unknowns.map VarData.fixed = s.mech.unknowns.map VarData.fixed ∧
      MechReady m s.therm.y s.therm.theta s.record.currentTime ∧ (solver s.calls m.problem).err = none ∧
      (∃ l, s2.calls = s.calls ++ m.problem :: l) ∧ s2.therm.y = (m.load (solver s.calls m.problem)).y := by
    intro s2 l hl hy
    exact ⟨m, w1, st1, fx1, rd, hr1, ⟨l, hl⟩, hy⟩
  obtain ⟨t, res, e3, w3, st3, hy3, rd3⟩ := updateTherm_any
    (s := { s with mech := m.load o1, calls := s.calls ++ [m.problem] }) w2.1 h.therm
  simp only at rd3 e3 hy3
  rcases res with e | u
  · have : runSingleStep solver s = (.error e, { s with mech := m.load o1, therm := t, calls := s.calls ++ [m.problem] }) := by
      rw [runSingleStep, PyS.bind_of_ok e1, PyS.bind_of_ok e2, PyS.bind_of_err e3]
    rw [this] at hr
    cases hr
    rcases hy3 with hy | hy
    · exact .inl hy
    · exact .inr (key _ [] rfl hy)
  set o2 := solver (s.calls ++ [m.problem]) t.problem with ho2
  have w4 := w3.load o2
  have e4 : solveTherm solver { s with mech := m.load o1, therm := t, calls := s.calls ++ [m.problem] } =
      (o2.result, { s with mech := m.load o1, therm := t.load o2, calls := s.calls ++ [m.problem, t.problem] }) := by
    rw [solveTherm_apply]; simp [ho2]
  rcases hr2 : o2.err with _ | e
  swap
  · rw [Outcome.result_err hr2] at e4
    have : runSingleStep solver s = (.error e,
        { s with mech := m.load o1, therm := t.load o2, calls := s.calls ++ [m.problem, t.problem] }) := by
      rw [runSingleStep, PyS.bind_of_ok e1, PyS.bind_of_ok e2, PyS.bind_of_ok e3, PyS.bind_of_err e4]
    rw [this] at hr
    cases hr
    rcases hy3 with hy | hy
    · exact .inl (w4.2.2.1.trans hy)
    · exact .inr (key _ [t.problem] rfl (w4.2.2.1.trans hy))
  rw [Outcome.result_ok hr2] at e4
  obtain ⟨step, r', e5, a1, a2, a3, a4, -⟩ := appendStep_ok h.shape w4.1.y w4.1.theta s.record
  have : runSingleStep solver s = (.ok (), ⟨s.domain, s.params, s.grid, s.refined, m.load o1, t.load o2, r',
      s.calls ++ [m.problem, t.problem]⟩) := by
    rw [runSingleStep, PyS.bind_of_ok e1, PyS.bind_of_ok e2, PyS.bind_of_ok e3, PyS.bind_of_ok e4, PyS.get_bind,
      PyS.get_bind, append, PyS.onAttr_apply]
    simp only [e5]
  rw [this] at hr
  cases hr

end Sim

section
variable {solver : Solver} {domain : RectDomain ℝ} {params : SimParams} {ext : ExtTemp} {traction : Traction} {s : Sim}
  {leg : LegGauss} {q : GaussRule ℝ} {m0 : MechStep} {t0 : ThermStep}

theorem Sim.Reachable.single (hs : s.Reachable solver domain params ext traction) :
    (Sim.runSingleStep solver s).2.Reachable solver domain params ext traction := by
  have := hs.run (n := 1)
  rwa [Sim.run, if_neg (by norm_num), if_pos rfl] at this

/-- induction over the history of a simulation -/
theorem Sim.Reachable.singles {P : Sim → Prop} (hs : s.Reachable solver domain params ext traction)
    (hnew : ∀ s, s.Healthy solver domain params ext traction → s.Synced → P s)
    (hstep : ∀ s, s.Reachable solver domain params ext traction → P s → P (Sim.runSingleStep solver s).2) : P s := by
  have : s.Reachable solver domain params ext traction ∧ P s := by
    induction hs with
    | @new it s S h =>
      exact ⟨.new S h, hnew s (.new S h) (Sim.Resumable.new (ext := ext) (traction := traction) S h).synced⟩
    | @run s n hs ih =>
      exact Sim.run_inv (fun s => s.Reachable solver domain params ext traction ∧ P s)
        (fun s hs => ⟨hs.1.single, hstep s hs.1 hs.2⟩) ih
  exact this.2

/-- the record of a successful step -/
theorem Sim.SingleStep.madeFrom {m : MechStep} {t : ThermStep} {step : Step} {r : Record} {s' : Sim}
    (c : s.Context domain params ext traction m0 t0) (h : Sim.SingleStep solver m0.yShape m0.thetaShape s m t step r s') :
    Sim.MadeFrom solver m0 t0 s'.calls step s.record.currentTime s.calls.length m t s.therm.y s.therm.theta := by
  have hcalls : s'.calls = s.calls ++ [m.problem, t.problem] := by rw [h.eq]
  have ht : s'.therm = t.load (solver (s.calls ++ [m.problem]) t.problem) := by rw [h.eq]
  have t1 : s'.calls.take s.calls.length = s.calls := by rw [hcalls, List.take_left]
  have t2 : s'.calls.take (s.calls.length + 1) = s.calls ++ [m.problem] := by
    rw [List.take_add_one, t1, hcalls]; simp
  have hy : step.yData = (m.load (solver s.calls m.problem)).y := by
    rw [h.stepY, ht, (h.thermWF.load _).2.2.1, h.thermReady.y]
  exact ⟨by rw [hcalls]; simp, by rw [hcalls]; simp, h.mechWF, h.thermWF,
    h.mechStatic.trans c.mech, h.thermStatic.trans c.therm, h.mechFixed.trans c.fixed,
    h.mechReady, by rw [hy]; exact h.thermReady, by rw [t1]; exact h.mechOk,
    by rw [t2]; exact h.thermOk, by rw [t1]; exact hy, by rw [t2, h.stepTheta, ht]⟩

/-- What single steps do to the last recorded step and to the deformation in the thermal step: either a step is added, or none, and the
deformation is the old one or (like that of an added step) the answer to a mechanical problem. -/
theorem Sim.Reachable.single_cases (hs : s.Reachable solver domain params ext traction) (hk : solver.KeepsTemperature) :
    ∃ m0 t0 last, s.Context domain params ext traction m0 t0 ∧ s.steps.getLast? = some last ∧ s.therm.theta = last.thetaData ∧
      s.record.currentTime = ((s.steps.length : ℝ) - 1) / params.fps ∧
      ∀ s', (Sim.runSingleStep solver s).2 = s' → s'.grid = s.grid ∧ s'.refined = s.refined ∧ (∃ l, s'.calls = s.calls ++ l) ∧
        ((s'.steps = s.steps ∧ s'.record.currentTime = s.record.currentTime ∧ s'.therm.y = s.therm.y) ∨
        ∃ m : MechStep, m.WF m0.yShape m0.thetaShape ∧ m.static = m0.static ∧
          m.unknowns.map VarData.fixed = m0.unknowns.map VarData.fixed ∧
          MechReady m s.therm.y s.therm.theta s.record.currentTime ∧ (solver s.calls m.problem).err = none ∧
          m.problem ∈ s'.calls ∧ s'.therm.y = (m.load (solver s.calls m.problem)).y ∧
          ((s'.steps = s.steps ∧ s'.record.currentTime = s.record.currentTime) ∨
            ∃ t step, s'.steps = s.steps ++ [step] ∧ step.yData = s'.therm.y ∧
              s'.record.currentTime = s.record.currentTime + s.record.tau ∧
              Sim.MadeFrom solver m0 t0 s'.calls step s.record.currentTime s.calls.length m t s.therm.y s.therm.theta)) := by
  obtain ⟨m0, t0, c, last, l1, l2⟩ := hs.theta_synced hk
  obtain ⟨m0', t0', -, hT, -⟩ := hs.attempts
  refine ⟨m0, t0, last, c, l1, l2, hT, ?_⟩
  rintro s' rfl
  obtain ⟨l, hl, -⟩ := Sim.runSingle_posed solver (P := fun _ => True) c.wf c.mech c.therm c.fixed trivial
    (fun _ _ _ _ _ _ _ _ _ _ _ => trivial)
  rcases Sim.runSingle_any solver c.wf with ⟨m, t, step, r, s', e1, w, h⟩ | ⟨e, s', e1, w, h⟩
  · simp only [e1] at hl ⊢
    have hrec : s'.record = r := by rw [h.eq]
    have M := h.madeFrom c
    refine ⟨by rw [h.eq], by rw [h.eq], ⟨l, hl⟩, .inr ⟨m, M.mechWF, M.mechStatic, M.mechFixed, M.mech, h.mechOk,
      List.mem_of_getElem? M.mechCall, ?_, .inr ⟨t, step, ?_, h.stepY, ?_, M⟩⟩⟩
    · rw [h.eq]
      show (t.load _).y = _
      rw [(h.thermWF.load _).2.2.1, h.thermReady.y]
    · rw [Sim.steps, hrec, h.steps]; rfl
    · rw [hrec, h.time]
  · have hp := Sim.runSingle_answered c.wf e1
    simp only [e1] at hl ⊢
    have hst : s'.steps = s.steps := by rw [Sim.steps, h.record]; rfl
    refine ⟨h.grid, h.refined, ⟨l, hl⟩, ?_⟩
    rcases hp with hp | ⟨m, a1, a2, a3, a4, a5, a6, a7⟩
    · exact .inl ⟨hst, by rw [h.record], hp⟩
    · exact .inr ⟨m, a1, a2.trans c.mech, a3.trans c.fixed, a4, a5, by obtain ⟨l', a6⟩ := a6; rw [a6]; simp, a7, .inl ⟨hst, by rw [h.record]⟩⟩

/-- What holds for recorded deformations and is kept by mechanical solves at the temperatures and the time of the step holds for the
deformation recorded next, even if solves failed in between: `Q` holds for all deformations from which such a solve starts, `R` for those
it returns. -/
theorem Sim.Reachable.chain (hs : s.Reachable solver domain params ext traction) (hk : solver.KeepsTemperature) :
    ∀ Q R : Step → ℝ → NdArray → Prop, (∀ a τ y, R a τ y → Q a τ y) →
      (∀ (k : ℕ) a, s.steps[k]? = some a → Q a (k / params.fps) a.yData) →
      (∀ m0 t0, s.Context domain params ext traction m0 t0 → ∀ (k : ℕ) a, s.steps[k]? = some a → ∀ (m : MechStep) y cs,
        m.WF m0.yShape m0.thetaShape → m.static = m0.static → m.unknowns.map VarData.fixed = m0.unknowns.map VarData.fixed →
        MechReady m y a.thetaData (k / params.fps) → (solver cs m.problem).err = none → m.problem ∈ s.calls →
        Q a (k / params.fps) y → R a (k / params.fps) (m.load (solver cs m.problem)).y) →
      (∀ last, s.steps.getLast? = some last → Q last s.record.currentTime s.therm.y) ∧
      ∀ (k : ℕ) a b, s.steps[k]? = some a → s.steps[k + 1]? = some b → R a (k / params.fps) b.yData := by
  refine hs.singles (P := fun s => ∀ Q R : Step → ℝ → NdArray → Prop, (∀ a τ y, R a τ y → Q a τ y) →
      (∀ (k : ℕ) a, s.steps[k]? = some a → Q a (k / params.fps) a.yData) →
      (∀ m0 t0, s.Context domain params ext traction m0 t0 → ∀ (k : ℕ) a, s.steps[k]? = some a → ∀ (m : MechStep) y cs,
        m.WF m0.yShape m0.thetaShape → m.static = m0.static → m.unknowns.map VarData.fixed = m0.unknowns.map VarData.fixed →
        MechReady m y a.thetaData (k / params.fps) → (solver cs m.problem).err = none → m.problem ∈ s.calls →
        Q a (k / params.fps) y → R a (k / params.fps) (m.load (solver cs m.problem)).y) →
      (∀ last, s.steps.getLast? = some last → Q last s.record.currentTime s.therm.y) ∧
      ∀ (k : ℕ) a b, s.steps[k]? = some a → s.steps[k + 1]? = some b → R a (k / params.fps) b.yData) ?_ ?_
  · rintro s hh ⟨st, s1, s2, -⟩ Q R - h0 h1
    obtain ⟨m0, t0, c, H⟩ := hh.history
    refine ⟨fun last hl => ?_, fun k a b ha hb => ?_⟩
    · cases hl.symm.trans s1
      have hpos := H.two
      rw [List.getLast?_eq_getElem?] at s1
      have := h0 _ _ s1
      rw [s2, H.time]
      rwa [Nat.cast_sub (by omega), Nat.cast_one] at this
    · obtain ⟨m, t, e1, -, e2, -, e3, S⟩ := H.each k a b ha hb
      rw [S.y]
      exact h1 m0 t0 c k a ha m _ _ S.mechWF e2 e3 S.mech S.mechOk (List.mem_of_getElem? e1) (h0 k a ha)
  · intro s hs ih Q R hRQ h0 h1
    obtain ⟨m0, t0, last, c, l1, l2, hT, hcase⟩ := hs.single_cases hk
    obtain ⟨-, -, ⟨l, hl⟩, hcase⟩ := hcase _ rfl
    have c' : (Sim.runSingleStep solver s).2.Context domain params ext traction m0 t0 := c.single
    generalize (Sim.runSingleStep solver s).2 = s' at *
    have hpos : 0 < s.steps.length := by
      rcases hz : s.steps with _ | ⟨x, xs⟩
      · rw [hz] at l1; cases l1
      · simp
    have hidx : s.steps[s.steps.length - 1]? = some last := by rw [← List.getLast?_eq_getElem?]; exact l1
    have htime : ((s.steps.length - 1 : ℕ) : ℝ) / params.fps = s.record.currentTime := by
      rw [hT, Nat.cast_sub (by omega), Nat.cast_one]
    have hsub : ∀ (k : ℕ) a, s.steps[k]? = some a → s'.steps[k]? = some a := by
      intro k a ha
      have hk1 := (List.getElem?_eq_some_iff.1 ha).1
      rcases hcase with ⟨h, -⟩ | ⟨_, -, -, -, -, -, -, -, ⟨h, -⟩ | ⟨_, _, h, -⟩⟩
      · rw [h]; exact ha
      · rw [h]; exact ha
      · rw [h, List.getElem?_append_left hk1]; exact ha
    have hmem : ∀ p ∈ s.calls, p ∈ s'.calls := fun p hp => by rw [hl]; exact List.mem_append_left _ hp
    obtain ⟨g1, g2⟩ := ih Q R hRQ (fun k a ha => h0 k a (hsub k a ha))
      (fun m1 t1 c1 k a ha m y cs w1 w2 w3 w4 w5 w6 w7 => by
        obtain ⟨e1, e2⟩ : m1.static = m0.static ∧ m1.unknowns.map VarData.fixed = m0.unknowns.map VarData.fixed :=
          ⟨c1.mech.symm.trans c.mech, c1.fixed.symm.trans c.fixed⟩
        have e3 : m1.yShape = m0.yShape := c1.yShape_eq.trans c.yShape_eq.symm
        have e4 : m1.thetaShape = m0.thetaShape := c1.wf.mech.prevTheta.1.symm.trans c.wf.mech.prevTheta.1
        rw [e3, e4] at w1
        exact h1 m0 t0 c' k a (hsub k a ha) m y cs w1 (w2.trans e1) (w3.trans e2) w4 w5 (hmem _ w6) w7)
    rcases hcase with ⟨h, h', h''⟩ | ⟨m, w1, w2, w3, w4, w5, w6, w7, h⟩
    · rw [h, h', h'']
      exact ⟨g1, g2⟩
    · have hR : R last s.record.currentTime s'.therm.y := by
        rw [w7]
        have := h1 m0 t0 c' _ last (hsub _ _ hidx) m s.therm.y s.calls w1 w2 w3 (by rw [htime, ← l2]; exact w4) w5 w6
          (by rw [htime]; exact g1 last l1)
        rwa [htime] at this
      rcases h with ⟨h, h'⟩ | ⟨t, step, h, hy, h', M⟩
      · rw [h, h']
        refine ⟨fun st hst => ?_, g2⟩
        cases hst.symm.trans l1
        exact hRQ _ _ _ hR
      · refine ⟨fun st hst => ?_, fun k a b ha hb => ?_⟩
        · have e1 : s'.steps[s.steps.length]? = some step := by rw [h]; simp
          have e2 : st = step := by
            rw [h, List.getLast?_append] at hst
            simp at hst
            exact hst.symm
          have := h0 _ _ e1
          rw [e2, h', hT, c.tau, ← hy]
          have e3 : ((s.steps.length : ℝ) - 1) / params.fps + 1 / params.fps = (s.steps.length : ℕ) / params.fps := by ring
          rw [e3]
          exact this
        · by_cases hk1 : k + 1 < s.steps.length
          · rw [h, List.getElem?_append_left hk1] at hb
            rw [h, List.getElem?_append_left (by omega)] at ha
            exact g2 k a b ha hb
          · have hk2 := (List.getElem?_eq_some_iff.1 hb).1
            rw [h, List.length_append, List.length_singleton] at hk2
            have hk3 : k + 1 = s.steps.length := by omega
            rw [h, List.getElem?_append_right (by omega), hk3, Nat.sub_self] at hb
            cases hb
            rw [h, List.getElem?_append_left (by omega)] at ha
            have : k = s.steps.length - 1 := by omega
            subst this
            cases ha.symm.trans hidx
            rw [htime, hy]
            exact hR

end

end Tve
