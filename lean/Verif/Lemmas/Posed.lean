import Verif.Lemmas.Retry
import Verif.Lemmas.Constraints

/-! All problems posed in a simulation, whether or not calls of `run` have failed. -/

namespace Tve

/-- a problem posed to the solver: the steps prepared for solving, where the deformations in it have the property `P` -/
inductive Posed (P : NdArray → Prop) (m0 : MechStep) (t0 : ThermStep) : Problem → Prop
  | mech (m : MechStep) {y θ : NdArray} {time : ℝ} (wf : m.WF m0.yShape m0.thetaShape) (static : m.static = m0.static)
      (fixed : m.unknowns.map VarData.fixed = m0.unknowns.map VarData.fixed) (ready : MechReady m y θ time)
      (nonneg : ∀ x ∈ θ.data, 0 ≤ x) (prop : P y) : Posed P m0 t0 m.problem
  | therm (t : ThermStep) {y0 y θ : NdArray} {time : ℝ} (wf : t.WF m0.yShape m0.thetaShape) (static : t.static = t0.static)
      (ready : ThermReady t y0 y θ time) (prop0 : P y0) (prop : P y) : Posed P m0 t0 t.problem

/-- the problems from whose answers a recorded step was made, with boundary data at the given time -/
structure Sim.MadeFrom (solver : Solver) (m0 : MechStep) (t0 : ThermStep) (calls : List Problem) (b : Step) (time : ℝ) (i : ℕ)
    (m : MechStep) (t : ThermStep) (y θ : NdArray) : Prop where
  mechCall : calls[i]? = some m.problem
  thermCall : calls[i + 1]? = some t.problem
  mechWF : m.WF m0.yShape m0.thetaShape
  thermWF : t.WF m0.yShape m0.thetaShape
  mechStatic : m.static = m0.static
  thermStatic : t.static = t0.static
  mechFixed : m.unknowns.map VarData.fixed = m0.unknowns.map VarData.fixed
  mech : MechReady m y θ time
  therm : ThermReady t y b.yData θ time
  mechOk : (solver (calls.take i) m.problem).err = none
  thermOk : (solver (calls.take (i + 1)) t.problem).err = none
  y : b.yData = (m.load (solver (calls.take i) m.problem)).y
  theta : b.thetaData = (t.load (solver (calls.take (i + 1)) t.problem)).theta

namespace Sim
variable {s : Sim} {ys ts : List ℕ} {solver : Solver}

/-- the problems posed in one step -/
theorem runSingle_posed (solver : Solver) {P : NdArray → Prop} {m0 : MechStep} {t0 : ThermStep}
    (h : s.WF m0.yShape m0.thetaShape) (hm : s.mech.static = m0.static) (ht : s.therm.static = t0.static)
    (hf : s.mech.unknowns.map VarData.fixed = m0.unknowns.map VarData.fixed) (h0 : P s.therm.y)
    (h1 : ∀ m : MechStep, m.WF m0.yShape m0.thetaShape → m.static = m0.static →
      m.unknowns.map VarData.fixed = m0.unknowns.map VarData.fixed →
      ∀ cs y θ time, MechReady m y θ time → P y → (solver cs m.problem).err = none →
      P (m.load (solver cs m.problem)).y) :
    ∃ l, (runSingleStep solver s).2.calls = s.calls ++ l ∧ ∀ p ∈ l, Posed P m0 t0 p := by
  by_cases hneg : ∃ x ∈ s.therm.theta.data, x < 0
  · obtain ⟨s', e, -, -, e'⟩ := runSingle_negative solver h hneg
    exact ⟨[], by rw [e]; simp [e'], by simp⟩
  push Not at hneg
  obtain ⟨m, res, e1, w1, st1, fx1, rd1⟩ := updateMech_any h.mech h.therm
  rcases res with e | u
  · have : runSingleStep solver s = (.error e, { s with mech := m }) := by rw [runSingleStep, PyS.bind_of_err e1]
    rw [this]
    exact ⟨[], by simp, by simp⟩
  have rd := rd1 rfl
  have pm : Posed P m0 t0 m.problem := .mech m w1 (st1.trans hm) (fx1.trans hf) rd hneg h0
  set o1 := solver s.calls m.problem with ho1
  have w2 := w1.load o1
  have e2 : solveMech solver { s with mech := m } =
      (o1.result, { s with mech := m.load o1, calls := s.calls ++ [m.problem] }) := rfl
  rcases hr1 : o1.err with _ | e
  swap
  · rw [Outcome.result_err hr1] at e2
    have : runSingleStep solver s = (.error e, { s with mech := m.load o1, calls := s.calls ++ [m.problem] }) := by
      rw [runSingleStep, PyS.bind_of_ok e1, PyS.bind_of_err e2]
    rw [this]
    exact ⟨[m.problem], rfl, by simpa using pm⟩
  rw [Outcome.result_ok hr1] at e2
  obtain ⟨t, res, e3, w3, st3, hy3, rd3⟩ := updateTherm_any
    (s := { s with mech := m.load o1, calls := s.calls ++ [m.problem] }) w2.1 h.therm
  simp only at rd3 e3 st3
  rcases res with e | u
  · have : runSingleStep solver s = (.error e, { s with mech := m.load o1, therm := t, calls := s.calls ++ [m.problem] }) := by
      rw [runSingleStep, PyS.bind_of_ok e1, PyS.bind_of_ok e2, PyS.bind_of_err e3]
    rw [this]
    exact ⟨[m.problem], rfl, by simpa using pm⟩
  have rdt := rd3 rfl
  rw [w2.2.1, rd.prevY] at rdt
  have pt : Posed P m0 t0 t.problem := .therm t w3 (st3.trans ht) rdt h0 (h1 m w1 (st1.trans hm) (fx1.trans hf) _ _ _ _ rd h0 hr1)
  set o2 := solver (s.calls ++ [m.problem]) t.problem with ho2
  have w4 := w3.load o2
  have e4 : solveTherm solver { s with mech := m.load o1, therm := t, calls := s.calls ++ [m.problem] } =
      (o2.result, { s with mech := m.load o1, therm := t.load o2, calls := s.calls ++ [m.problem, t.problem] }) := by
    rw [solveTherm_apply]; simp [ho2]
  refine ⟨[m.problem, t.problem], ?_, by
    intro p hp
    simp only [List.mem_cons, List.not_mem_nil, or_false] at hp
    rcases hp with rfl | rfl
    · exact pm
    · exact pt⟩
  rcases hr2 : o2.err with _ | e
  swap
  · rw [Outcome.result_err hr2] at e4
    rw [runSingleStep, PyS.bind_of_ok e1, PyS.bind_of_ok e2, PyS.bind_of_ok e3, PyS.bind_of_err e4]
  rw [Outcome.result_ok hr2] at e4
  obtain ⟨step, r', e5, a1, a2, a3, a4, -⟩ := appendStep_ok h.shape w4.1.y w4.1.theta s.record
  rw [runSingleStep, PyS.bind_of_ok e1, PyS.bind_of_ok e2, PyS.bind_of_ok e3, PyS.bind_of_ok e4, PyS.get_bind,
      PyS.get_bind, append, PyS.onAttr_apply]

end Sim

section
variable {solver : Solver} {domain : RectDomain ℝ} {params : SimParams} {ext : ExtTemp} {traction : Traction} {s : Sim}

/-- all problems posed in a simulation -/
theorem Sim.Reachable.posed (hs : s.Reachable solver domain params ext traction) (P : MechStep → NdArray → Prop)
    (h0 : ∀ (s : Sim) m0 t0, s.Context domain params ext traction m0 t0 → P m0 m0.prevY)
    (h1 : ∀ (s : Sim) m0 t0, s.Context domain params ext traction m0 t0 → ∀ m : MechStep, m.WF m0.yShape m0.thetaShape →
      m.static = m0.static → m.unknowns.map VarData.fixed = m0.unknowns.map VarData.fixed →
      ∀ cs y θ time, MechReady m y θ time → P m0 y → (solver cs m.problem).err = none →
      P m0 (m.load (solver cs m.problem)).y) :
    ∃ m0 t0, s.Context domain params ext traction m0 t0 ∧ P m0 s.therm.y ∧ ∀ p ∈ s.calls, Posed (P m0) m0 t0 p := by
  induction hs with
  | @new it s S h =>
    obtain ⟨m, t, step0, step1, r1, r2, w, c⟩ := Sim.of_new S h
    have cx := c.context S w
    obtain ⟨Sh, ⟨n, U⟩, F⟩ := S.simShape c.grid c.refined c.mech
    obtain ⟨a1, a2, -⟩ := mechanicalStep_facts U F c.mech
    have w1 := a1.load (solver [] m.problem)
    obtain ⟨c1, c2, -⟩ := thermalStep_cases U F a1.prevY.2 w1.1.y.2 a1.prevTheta.2 c.therm
    rw [a1.prevY.1, a1.prevTheta.1] at c1
    have w2 := c1.load (solver [m.problem] t.problem)
    have eq := c.eq
    have hcalls : s.calls = [m.problem, t.problem] := by rw [eq]
    have ht : s.therm = t.load (solver [m.problem] t.problem) := by rw [eq]
    have base := h0 s m t cx
    have key : P m (m.load (solver [] m.problem)).y := h1 s m t cx m a1 rfl rfl _ _ _ _ a2 base c.mechOk
    have hy : s.therm.y = (m.load (solver [] m.problem)).y := by rw [ht, w2.2.2.1, c2.y]
    refine ⟨m, t, cx, by rw [hy]; exact key, ?_⟩
    intro p hp
    rw [hcalls] at hp
    simp only [List.mem_cons, List.not_mem_nil, or_false] at hp
    rcases hp with rfl | rfl
    · exact .mech m a1 rfl rfl a2 c2.nonneg base
    · exact .therm t c1 rfl c2 base key
  | @run s n hs ih =>
    obtain ⟨m0, t0, c, g1, g2⟩ := ih
    refine ⟨m0, t0, Sim.run_inv (fun s => s.Context domain params ext traction m0 t0 ∧
      P m0 s.therm.y ∧ ∀ p ∈ s.calls, Posed (P m0) m0 t0 p) ?_ ⟨c, g1, g2⟩⟩
    rintro s ⟨c, g1, g2⟩
    refine ⟨c.single, ?_, ?_⟩
    · rcases runSingle_any solver c.wf with ⟨m, t, step, r, s', e1, w, h⟩ | ⟨e, s', e1, w, h⟩
      · have ht : s'.therm = t.load (solver (s.calls ++ [m.problem]) t.problem) := by rw [h.eq]
        have hy : s'.therm.y = (m.load (solver s.calls m.problem)).y := by
          rw [ht, (h.thermWF.load _).2.2.1, h.thermReady.y]
        simp only [e1]
        rw [hy]
        exact h1 s m0 t0 c m h.mechWF (h.mechStatic.trans c.mech) (h.mechFixed.trans c.fixed) _ _ _ _ h.mechReady g1 h.mechOk
      · simp only [e1]
        rcases h.y with hy | ⟨m, w, sm, fx, rd, ok, hy⟩
        · rw [hy]; exact g1
        · rw [hy]; exact h1 s m0 t0 c m w (sm.trans c.mech) (fx.trans c.fixed) _ _ _ _ rd g1 ok
    · obtain ⟨l, e, hl⟩ := Sim.runSingle_posed solver (P := P m0) c.wf c.mech c.therm c.fixed g1 (h1 s m0 t0 c)
      intro p hp
      rw [e, List.mem_append] at hp
      rcases hp with hp | hp
      · exact g2 p hp
      · exact hl p hp

/-- every recorded step of a simulation was made from the answers to two consecutive problems, later steps from later problems -/
theorem Sim.Reachable.madeFrom (hs : s.Reachable solver domain params ext traction) :
    ∃ m0 t0, s.Context domain params ext traction m0 t0 ∧
      s.record.currentTime = ((s.steps.length : ℝ) - 1) / params.fps ∧ 1 ≤ s.steps.length ∧
      ∃ idx : List ℕ, idx.length + 1 = s.steps.length ∧ idx.Pairwise (fun i j => i + 2 ≤ j) ∧
        ∀ (k : ℕ) (i : ℕ) (b : Step), idx[k]? = some i → s.steps[k + 1]? = some b →
          ∃ m t y θ, Sim.MadeFrom solver m0 t0 s.calls b (k / params.fps) i m t y θ := by
  induction hs with
  | @new it s S h =>
    obtain ⟨m, t, step0, step1, r1, r2, w, c⟩ := Sim.of_new S h
    have cx := c.context S w
    have H := c.history S
    have hlen : s.steps.length = 2 := by
      rw [Sim.steps, c.eq]
      simp [c.steps]
    refine ⟨m, t, cx, H.time, by omega, [0], by simp [hlen], by simp, fun k i b hi hb => ?_⟩
    obtain rfl : k = 0 := by
      have := (List.getElem?_eq_some_iff.1 hi).1
      simpa using this
    obtain rfl : i = 0 := by simpa using hi.symm
    have hk := (List.getElem?_eq_some_iff.1 hb).1
    obtain ⟨m', t', e1, e2, e3, e4, e5, S⟩ := H.each 0 _ b (List.getElem?_eq_getElem (by omega)) hb
    have htk : s.calls.take (2 * 0 + 1) = s.calls.take (2 * 0) ++ [m'.problem] := by
      rw [List.take_add_one, e1]; rfl
    exact ⟨m', t', _, _, e1, e2, S.mechWF, S.thermWF, e3, e4, e5, S.mech, S.therm, S.mechOk,
      by rw [show 0 + 1 = 2 * 0 + 1 from rfl, htk]; exact S.thermOk, S.y,
      by rw [show 0 + 1 = 2 * 0 + 1 from rfl, htk]; exact S.theta⟩
  | @run s n hs ih =>
    obtain ⟨m0, t0, c, g1, g2, g3⟩ := ih
    refine ⟨m0, t0, Sim.run_inv (fun s => s.Context domain params ext traction m0 t0 ∧
      s.record.currentTime = ((s.steps.length : ℝ) - 1) / params.fps ∧ 1 ≤ s.steps.length ∧
      ∃ idx : List ℕ, idx.length + 1 = s.steps.length ∧ idx.Pairwise (fun i j => i + 2 ≤ j) ∧
        ∀ (k : ℕ) (i : ℕ) (b : Step), idx[k]? = some i → s.steps[k + 1]? = some b →
          ∃ m t y θ, Sim.MadeFrom solver m0 t0 s.calls b (k / params.fps) i m t y θ) ?_ ⟨c, g1, g2, g3⟩⟩
    rintro s ⟨c, g1, g2, idx, g3, g4, g5⟩
    have bnd : ∀ i ∈ idx, i + 1 < s.calls.length := by
      intro i hi
      obtain ⟨k, hk⟩ := List.mem_iff_getElem?.1 hi
      have hk' := (List.getElem?_eq_some_iff.1 hk).1
      obtain ⟨m, t, y, θ, M⟩ := g5 k i _ hk (List.getElem?_eq_getElem (by omega))
      exact (List.getElem?_eq_some_iff.1 M.thermCall).1
    have old : ∀ s' : Sim, s.calls <+: s'.calls → ∀ (k : ℕ) (i : ℕ) (b : Step), idx[k]? = some i → s.steps[k + 1]? = some b →
        ∃ m t y θ, Sim.MadeFrom solver m0 t0 s'.calls b (k / params.fps) i m t y θ := by
      rintro s' ⟨l, hl⟩ k i b hi hb
      obtain ⟨m, t, y, θ, M⟩ := g5 k i b hi hb
      have hi : i + 1 < s.calls.length := (List.getElem?_eq_some_iff.1 M.thermCall).1
      have t1 : s'.calls.take i = s.calls.take i := by rw [← hl, List.take_append_of_le_length (by omega)]
      have t2 : s'.calls.take (i + 1) = s.calls.take (i + 1) := by rw [← hl, List.take_append_of_le_length (by omega)]
      exact ⟨m, t, y, θ, by rw [← hl, List.getElem?_append_left (by omega)]; exact M.mechCall,
        by rw [← hl, List.getElem?_append_left (by omega)]; exact M.thermCall, M.mechWF, M.thermWF, M.mechStatic,
        M.thermStatic, M.mechFixed, M.mech, M.therm, by rw [t1]; exact M.mechOk, by rw [t2]; exact M.thermOk,
        by rw [t1]; exact M.y, by rw [t2]; exact M.theta⟩
    obtain ⟨l, hl, -⟩ := Sim.runSingle_posed solver (P := fun _ => True) c.wf c.mech c.therm c.fixed trivial
      (fun _ _ _ _ _ _ _ _ _ _ _ => trivial)
    refine ⟨c.single, ?_⟩
    rcases runSingle_any solver c.wf with ⟨m, t, step, r, s', e1, w, h⟩ | ⟨e, s', e1, w, h⟩
    · simp only [e1] at hl ⊢
      have hrec : s'.record = r := by rw [h.eq]
      have hst : s'.steps = s.steps ++ [step] := by rw [Sim.steps, hrec, h.steps]; rfl
      have hcalls : s'.calls = s.calls ++ [m.problem, t.problem] := by rw [h.eq]
      have ht : s'.therm = t.load (solver (s.calls ++ [m.problem]) t.problem) := by rw [h.eq]
      refine ⟨?_, by rw [hst]; simp, idx ++ [s.calls.length], by rw [hst]; simp [g3], ?_, fun k i b hi hb => ?_⟩
      · rw [hrec, h.time, g1, c.tau, hst, List.length_append, List.length_singleton]
        push_cast
        ring
      · refine List.pairwise_append.2 ⟨g4, by simp, fun i hi j hj => ?_⟩
        have := bnd i hi
        rw [List.mem_singleton] at hj
        omega
      · by_cases hk : k + 1 < s.steps.length
        · rw [hst, List.getElem?_append_left hk] at hb
          rw [List.getElem?_append_left (by omega)] at hi
          exact old s' ⟨_, hl.symm⟩ k i b hi hb
        · have hk1 := (List.getElem?_eq_some_iff.1 hb).1
          rw [hst, List.length_append, List.length_singleton] at hk1
          have hk2 : k + 1 = s.steps.length := by omega
          have hk3 : k = idx.length := by omega
          rw [hst, List.getElem?_append_right (by omega), hk2, Nat.sub_self] at hb
          rw [hk3, List.getElem?_append_right (by omega), Nat.sub_self] at hi
          cases hb
          cases hi
          have t1 : s'.calls.take s.calls.length = s.calls := by rw [hcalls, List.take_left]
          have t2 : s'.calls.take (s.calls.length + 1) = s.calls ++ [m.problem] := by
            rw [List.take_add_one, t1, hcalls]; simp
          have htime : (k : ℝ) / params.fps = s.record.currentTime := by
            rw [g1, ← hk2]; push_cast; ring
          have hy : step.yData = (m.load (solver s.calls m.problem)).y := by
            rw [h.stepY, ht, (h.thermWF.load _).2.2.1, h.thermReady.y]
          refine ⟨m, t, _, _, by rw [hcalls]; simp, by rw [hcalls]; simp, h.mechWF, h.thermWF,
            h.mechStatic.trans c.mech, h.thermStatic.trans c.therm, h.mechFixed.trans c.fixed,
            by rw [htime]; exact h.mechReady, by rw [htime, hy]; exact h.thermReady, by rw [t1]; exact h.mechOk,
            by rw [t2]; exact h.thermOk, by rw [t1]; exact hy, by rw [t2, h.stepTheta, ht]⟩
    · simp only [e1] at hl ⊢
      have hst : s'.steps = s.steps := by rw [Sim.steps, h.record]; rfl
      rw [h.record, hst]
      exact ⟨g1, g2, idx, g3, g4, old s' ⟨_, hl.symm⟩⟩

end

end Tve
