import Verif.Lemmas.Descent
import Verif.Props.Posed
import Verif.Props.Energy
import Verif.Props.Force

/-!
# C106: attempts that are repeated after failures
-/

namespace Tve

section
variable {solver : Solver} {domain : RectDomain ℝ} {params : SimParams} {ext : ExtTemp} {traction : Traction} {s : Sim}
  {leg : LegGauss} {q : GaussRule ℝ}

/-- the energies of two consecutive recorded steps -/
def Descent (leg : LegGauss) (params : SimParams) (traction : Traction) (g : Grid ℝ) (refined : Option (RefinedGrid ℝ))
    (time : ℝ) (y0 y θ : NdArray) : Prop :=
  ∃ e0 e1 d, IsMechEnergy leg params traction g refined time y0 θ e0 ∧ IsMechEnergy leg params traction g refined time y θ e1 ∧
    IsMotion g refined y0 y d ∧ 0 ≤ d ∧ e1 + params.fps * d ≤ e0

theorem IsMechEnergy.unique {g : Grid ℝ} {refined : Option (RefinedGrid ℝ)} {time : ℝ} {y θ : NdArray} {a b : ℝ}
    {y0 : NdArray} {d : ℝ} (hD : IsDissipation g refined y0 y d)
    (hu : ∀ v w, IsMechObjective leg params traction g refined time y0 y θ v →
      IsMechObjective leg params traction g refined time y0 y θ w → v = w)
    (ha : IsMechEnergy leg params traction g refined time y θ a)
    (hb : IsMechEnergy leg params traction g refined time y θ b) : a = b := by
  have join : ∀ {e : ℝ}, IsMechEnergy leg params traction g refined time y θ e →
      IsMechObjective leg params traction g refined time y0 y θ (e + params.fps * d) := by
    rintro e ⟨E, h1, h2, h3⟩
    refine ⟨E, d, h1, hD, fun hr => ?_, fun κ hκ => ?_⟩
    · obtain ⟨w, k1, k2⟩ := h2 hr
      exact ⟨w, k1, by rw [k2]⟩
    · obtain ⟨r, x, k1, k2, k3⟩ := h3 κ hκ
      exact ⟨r, x, k1, k2, by rw [k3]⟩
  have := hu _ _ (join ha) (join hb)
  linarith

/-- the temperatures of the thermal step are those of the last recorded step -/
theorem Sim.Reachable.theta_synced (hs : s.Reachable solver domain params ext traction) (hk : solver.KeepsTemperature) :
    ∃ m0 t0, s.Context domain params ext traction m0 t0 ∧
      ∃ last, s.steps.getLast? = some last ∧ s.therm.theta = last.thetaData := by
  induction hs with
  | @new it s S h =>
    obtain ⟨m0, t0, c⟩ := (Sim.Reachable.new (ext := ext) (traction := traction) S h).context
    obtain ⟨last, h1, -, h3⟩ := (Sim.Resumable.new (ext := ext) (traction := traction) S h).synced
    exact ⟨m0, t0, c, last, h1, h3⟩
  | @run s n hs ih =>
    obtain ⟨m0, t0, c, last, h1, h2⟩ := ih
    refine ⟨m0, t0, Sim.run_inv (fun s => s.Context domain params ext traction m0 t0 ∧
      ∃ last, s.steps.getLast? = some last ∧ s.therm.theta = last.thetaData) ?_ ⟨c, last, h1, h2⟩⟩
    rintro s ⟨c, last, h1, h2⟩
    refine ⟨c.single, ?_⟩
    rcases runSingle_any solver c.wf with ⟨m, t, step, r, s', e1, w, h⟩ | ⟨e, s', e1, w, h⟩
    · simp only [e1]
      have hst : s'.steps = s.steps ++ [step] := by
        have : s'.record = r := by rw [h.eq]
        rw [Sim.steps, this, h.steps]; rfl
      exact ⟨step, by rw [hst]; simp, h.stepTheta.symm⟩
    · have ht := Sim.runSingle_theta hk c.wf e1
      simp only [e1]
      exact ⟨last, by rw [Sim.steps, h.record]; exact h1, ht.trans h2⟩

/-- energies of all attempts -/
theorem Sim.Reachable.descends (hs : s.Reachable solver domain params ext traction) (hk : solver.KeepsTemperature)
    (hq : GaussRule.new leg 1 = .ok q) (hd : solver.Decreases leg) :
    ∃ m0 t0, s.Context domain params ext traction m0 t0 ∧
      s.record.currentTime = ((s.steps.length : ℝ) - 1) / params.fps ∧ Oriented s.grid s.refined s.therm.y ∧
      (∃ last, s.steps.getLast? = some last ∧ s.therm.theta = last.thetaData ∧
        (s.therm.y = last.yData ∨
          Descent leg params traction s.grid s.refined s.record.currentTime last.yData s.therm.y last.thetaData)) ∧
      ∀ (k : ℕ) (a b : Step), s.steps[k]? = some a → s.steps[k + 1]? = some b →
        Descent leg params traction s.grid s.refined (k / params.fps) a.yData b.yData a.thetaData := by
  induction hs with
  | @new it s S h =>
    have hs := Sim.Reachable.new (ext := ext) (traction := traction) S h
    have hh := Sim.Healthy.new (ext := ext) (traction := traction) S h
    obtain ⟨m0, t0, c, H⟩ := hh.history
    obtain ⟨last, h1, h2, h3⟩ := (Sim.Resumable.new (ext := ext) (traction := traction) S h).synced
    refine ⟨m0, t0, c, H.time, (hs.oriented hq hd).1, ⟨last, h1, h3, .inl h2⟩, fun k a b ha hb => ?_⟩
    obtain ⟨m, t, -, -, st1, -, -, S⟩ := H.each k _ _ ha hb
    have ho := (hs.oriented hq hd).2 a (List.mem_of_getElem? ha)
    obtain ⟨e0, e1, d, k1, k2, k3, k4, k5⟩ := c.descent hq hd S.mechWF st1 S.mech ho _ S.mechOk
    rw [← S.y] at k2 k3
    have := IsMotion.move .rest k3
    rw [zero_add] at this
    exact ⟨e0, e1, d, k1, k2, this, k4, k5⟩
  | @run s n hs ih =>
    obtain ⟨m0, t0, c, g1, g2, g3, g4⟩ := ih
    refine ⟨m0, t0, Sim.run_inv (fun s => s.Context domain params ext traction m0 t0 ∧
      s.record.currentTime = ((s.steps.length : ℝ) - 1) / params.fps ∧ Oriented s.grid s.refined s.therm.y ∧
      (∃ last, s.steps.getLast? = some last ∧ s.therm.theta = last.thetaData ∧
        (s.therm.y = last.yData ∨
          Descent leg params traction s.grid s.refined s.record.currentTime last.yData s.therm.y last.thetaData)) ∧
      ∀ (k : ℕ) (a b : Step), s.steps[k]? = some a → s.steps[k + 1]? = some b →
        Descent leg params traction s.grid s.refined (k / params.fps) a.yData b.yData a.thetaData) ?_ ⟨c, g1, g2, g3, g4⟩⟩
    rintro s ⟨c, g1, g2, ⟨last, l1, l2, l3⟩, g4⟩
    -- a successful mechanical solve
    have key : ∀ m : MechStep, m.WF m0.yShape m0.thetaShape → m.static = s.mech.static →
        MechReady m s.therm.y s.therm.theta s.record.currentTime → (solver s.calls m.problem).err = none →
        Oriented s.grid s.refined (m.load (solver s.calls m.problem)).y ∧
        Descent leg params traction s.grid s.refined s.record.currentTime last.yData (m.load (solver s.calls m.problem)).y
          last.thetaData := by
      intro m w st rd ok
      have st' := st.trans c.mech
      have ho := g2
      obtain ⟨v0, v1, u0, u1, -⟩ := c.solve hq hd w st' rd ho _ ok
      obtain ⟨e0, e1, d, k1, k2, k3, k4, k5⟩ := c.descent hq hd w st' rd ho _ ok
      refine ⟨u1.oriented c.energetic, ?_⟩
      rw [l2] at k1 k2 u0
      rcases l3 with l3 | ⟨f0, f1, x, j1, j2, j3, j4, j5⟩
      · rw [l3] at k1 k3
        have := IsMotion.move .rest k3
        rw [zero_add] at this
        exact ⟨e0, e1, d, k1, k2, this, k4, k5⟩
      · obtain ⟨-, dd, -, hdd, -⟩ := u0.split
        have M := c.mechEnv w st'
        obtain ⟨i0, -⟩ := M.objective_iff hq rd.tractionAt
        rw [rd.prevY, rd.y, rd.prevTheta, l2] at i0
        have : f1 = e0 := j2.unique hdd (fun v w hv hw => Except.ok.inj (((i0 v).2 hv).symm.trans ((i0 w).2 hw))) k1
        rw [this] at j5
        exact ⟨f0, e1, x + d, j1, k2, .move j3 k3, by linarith, by nlinarith⟩
    refine ⟨c.single, ?_⟩
    rcases runSingle_any solver c.wf with ⟨m, t, step, r, s', e1, w, h⟩ | ⟨e, s', e1, w, h⟩
    · simp only [e1]
      have hrec : s'.record = r := by rw [h.eq]
      have hst : s'.steps = s.steps ++ [step] := by rw [Sim.steps, hrec, h.steps]; rfl
      have hg : s'.grid = s.grid := by rw [h.eq]
      have hf : s'.refined = s.refined := by rw [h.eq]
      have ht : s'.therm = t.load (solver (s.calls ++ [m.problem]) t.problem) := by rw [h.eq]
      have hy : s'.therm.y = (m.load (solver s.calls m.problem)).y := by
        rw [ht, (h.thermWF.load _).2.2.1, h.thermReady.y]
      obtain ⟨o1, D1⟩ := key m h.mechWF h.mechStatic h.mechReady h.mechOk
      rw [hg, hf]
      refine ⟨?_, by rw [hy]; exact o1, ⟨step, by rw [hst]; simp, h.stepTheta.symm, .inl h.stepY.symm⟩, fun k a b ha hb => ?_⟩
      · rw [hrec, h.time, g1, c.tau, hst, List.length_append, List.length_singleton]
        push_cast
        ring
      · by_cases hk1 : k + 1 < s.steps.length
        · rw [hst, List.getElem?_append_left hk1] at hb
          rw [hst, List.getElem?_append_left (by omega)] at ha
          exact g4 k a b ha hb
        · have hk2 := (List.getElem?_eq_some_iff.1 hb).1
          rw [hst, List.length_append, List.length_singleton] at hk2
          have hk3 : k + 1 = s.steps.length := by omega
          rw [hst, List.getElem?_append_right (by omega), hk3, Nat.sub_self] at hb
          cases hb
          rw [hst, List.getElem?_append_left (by omega)] at ha
          have hlast : s.steps.getLast? = some a := by
            rw [List.getLast?_eq_getElem?, ← hk3, Nat.add_sub_cancel]; exact ha
          rw [l1] at hlast
          cases hlast
          rw [h.stepY, hy]
          have ht : (k : ℝ) / params.fps = s.record.currentTime := by
            rw [g1, ← hk3]; push_cast; ring
          rw [ht]
          exact D1
    · simp only [e1]
      have hst : s'.steps = s.steps := by rw [Sim.steps, h.record]; rfl
      have hth := Sim.runSingle_theta hk c.wf e1
      rw [h.grid, h.refined, h.record, hst]
      rcases h.y with hy | ⟨m, wm, sm, fx, rd, ok, hy⟩
      · rw [hy]
        exact ⟨g1, g2, ⟨last, l1, hth.trans l2, l3⟩, g4⟩
      · rw [hy]
        obtain ⟨o1, D1⟩ := key m wm sm rd ok
        exact ⟨g1, o1, ⟨last, l1, hth.trans l2, .inr D1⟩, g4⟩

/-- **C106** (energies). Let the solver not increase objectives, and load nothing when a thermal solve fails. In every simulation,
also if calls of `run` have failed between two recorded steps, the energy of the later one (at the temperature of the earlier one
and with the traction at the time of the step) plus `fps` times the dissipation of a motion from the earlier to the later one through
finitely many deformations is at most the energy of the earlier one. -/
theorem C106_energy (hs : s.Reachable solver domain params ext traction) (hk : solver.KeepsTemperature)
    (hq : GaussRule.new leg 1 = .ok q) (hd : solver.Decreases leg) {k : ℕ} {a b : Step} (ha : s.steps[k]? = some a)
    (hb : s.steps[k + 1]? = some b) :
    ∃ e0 e1 d, IsMechEnergy leg params traction s.grid s.refined (k / params.fps) a.yData a.thetaData e0 ∧
      IsMechEnergy leg params traction s.grid s.refined (k / params.fps) b.yData a.thetaData e1 ∧
      IsMotion s.grid s.refined a.yData b.yData d ∧ 0 ≤ d ∧ e1 + params.fps * d ≤ e0 := by
  obtain ⟨m0, t0, c, -, -, -, h⟩ := hs.descends hk hq hd
  exact h k a b ha hb

/-- **C106** (temperatures). Let failing thermal solves load nothing. In every simulation, also if calls of `run` have failed, every
recorded step `b` after the first records the answers to a mechanical problem with the temperatures of the step `a` recorded before
it, and to the thermal problem that follows, whose search starts at these temperatures as well. -/
theorem C106_temperature (hs : s.Reachable solver domain params ext traction) (hk : solver.KeepsTemperature) {k : ℕ}
    {a b : Step} (ha : s.steps[k]? = some a) (hb : s.steps[k + 1]? = some b) :
    ∃ i p q, s.calls[i]? = some p ∧ s.calls[i + 1]? = some q ∧ p.IsMech ∧ q.IsTherm ∧ q.prevY = p.prevY ∧
      p.prevTheta = a.thetaData ∧ q.prevTheta = a.thetaData ∧ q.unknowns.map VarData.value = a.thetaData.data ∧
      b.yData.data = p.answer (solver (s.calls.take i) p) ∧ b.thetaData.data = q.answer (solver (s.calls.take (i + 1)) q) := by
  suffices H : ∃ m0 t0, s.Context domain params ext traction m0 t0 ∧
      (∃ last, s.steps.getLast? = some last ∧ s.therm.theta = last.thetaData) ∧
      ∀ (k : ℕ) (a b : Step), s.steps[k]? = some a → s.steps[k + 1]? = some b →
      ∃ i p q, s.calls[i]? = some p ∧ s.calls[i + 1]? = some q ∧ p.IsMech ∧ q.IsTherm ∧ q.prevY = p.prevY ∧
      p.prevTheta = a.thetaData ∧ q.prevTheta = a.thetaData ∧ q.unknowns.map VarData.value = a.thetaData.data ∧
      b.yData.data = p.answer (solver (s.calls.take i) p) ∧
      b.thetaData.data = q.answer (solver (s.calls.take (i + 1)) q) by
    obtain ⟨m0, t0, -, -, H⟩ := H
    exact H k a b ha hb
  clear ha hb a b k
  have mk : ∀ (m : MechStep) (t : ThermStep) (y0 y θ : NdArray) (time : ℝ) {ys ts : List ℕ}, m.WF ys ts → t.WF ys ts →
      MechReady m y0 θ time → ThermReady t y0 y θ time →
      m.problem.IsMech ∧ t.problem.IsTherm ∧ t.problem.prevY = m.problem.prevY ∧ m.problem.prevTheta = θ ∧
      t.problem.prevTheta = θ ∧ t.problem.unknowns.map VarData.value = θ.data := by
    intro m t y0 y θ time ys ts w1 w2 r1 r2
    refine ⟨m.problem_isMech, t.problem_isTherm, ?_, ?_, ?_, ?_⟩
    · rw [ThermStep.problem_prevY, MechStep.problem_prevY, r1.prevY, r2.prevY]
    · rw [MechStep.problem_prevTheta, r1.prevTheta]
    · rw [ThermStep.problem_prevTheta, r2.prevTheta]
    · have := r2.theta
      rw [← this]
      cases t <;> rfl
  induction hs with
  | @new it s S h =>
    obtain ⟨m0, t0, c, H⟩ := (Sim.Healthy.new (ext := ext) (traction := traction) S h).history
    obtain ⟨last, h1, -, h3⟩ := (Sim.Resumable.new (ext := ext) (traction := traction) S h).synced
    refine ⟨m0, t0, c, ⟨last, h1, h3⟩, fun k a b ha hb => ?_⟩
    obtain ⟨m, t, c1, c2, st1, st2, -, S⟩ := H.each k _ _ ha hb
    obtain ⟨k1, k2, k3, k4, k5, k6⟩ := mk m t _ _ _ _ S.mechWF S.thermWF S.mech S.therm
    have e1 : b.yData.data = m.problem.answer (solver (s.calls.take (2 * k)) m.problem) := by
      rw [S.y]; exact (S.mechWF.load _).2.2.2.1
    have htk : s.calls.take (2 * k + 1) = s.calls.take (2 * k) ++ [m.problem] := by
      rw [List.take_add_one, c1]; rfl
    exact ⟨2 * k, _, _, c1, c2, k1, k2, k3, k4, k5, k6, e1, by
      rw [htk, S.theta]; exact (S.thermWF.load _).2.2.2.2.1⟩
  | @run s n hs ih =>
    obtain ⟨m0, t0, c, g1, g2⟩ := ih
    refine ⟨m0, t0, Sim.run_inv (fun s => s.Context domain params ext traction m0 t0 ∧
      (∃ last, s.steps.getLast? = some last ∧ s.therm.theta = last.thetaData) ∧
      ∀ (k : ℕ) (a b : Step), s.steps[k]? = some a → s.steps[k + 1]? = some b →
      ∃ i p q, s.calls[i]? = some p ∧ s.calls[i + 1]? = some q ∧ p.IsMech ∧ q.IsTherm ∧ q.prevY = p.prevY ∧
      p.prevTheta = a.thetaData ∧ q.prevTheta = a.thetaData ∧ q.unknowns.map VarData.value = a.thetaData.data ∧
      b.yData.data = p.answer (solver (s.calls.take i) p) ∧
      b.thetaData.data = q.answer (solver (s.calls.take (i + 1)) q)) ?_ ⟨c, g1, g2⟩⟩
    rintro s ⟨c, ⟨last, l1, l2⟩, g2⟩
    obtain ⟨l, hl, -⟩ := Sim.runSingle_posed solver (P := fun _ => True) c.wf c.mech c.therm c.fixed trivial
      (fun _ _ _ _ _ _ _ _ _ _ _ => trivial)
    have old : ∀ s' : Sim, s.calls <+: s'.calls → ∀ (k : ℕ) (a b : Step), s.steps[k]? = some a → s.steps[k + 1]? = some b →
        ∃ i p q, s'.calls[i]? = some p ∧ s'.calls[i + 1]? = some q ∧ p.IsMech ∧ q.IsTherm ∧ q.prevY = p.prevY ∧
        p.prevTheta = a.thetaData ∧ q.prevTheta = a.thetaData ∧ q.unknowns.map VarData.value = a.thetaData.data ∧
        b.yData.data = p.answer (solver (s'.calls.take i) p) ∧
        b.thetaData.data = q.answer (solver (s'.calls.take (i + 1)) q) := by
      rintro s' ⟨l, hl⟩ k a b ha hb
      obtain ⟨i, p, q, j1, j2, j3, j4, j5, j6, j7, j8, j9, j10⟩ := g2 k a b ha hb
      have hi : i + 1 < s.calls.length := (List.getElem?_eq_some_iff.1 j2).1
      have t1 : s'.calls.take i = s.calls.take i := by rw [← hl, List.take_append_of_le_length (by omega)]
      have t2 : s'.calls.take (i + 1) = s.calls.take (i + 1) := by rw [← hl, List.take_append_of_le_length (by omega)]
      exact ⟨i, p, q, by rw [← hl, List.getElem?_append_left (by omega)]; exact j1,
        by rw [← hl, List.getElem?_append_left (by omega)]; exact j2, j3, j4, j5, j6, j7, j8, by rw [t1]; exact j9,
        by rw [t2]; exact j10⟩
    refine ⟨c.single, ?_⟩
    rcases Sim.runSingle_any solver c.wf with ⟨m, t, step, r, s', e1, w, h⟩ | ⟨e, s', e1, w, h⟩
    · simp only [e1] at hl ⊢
      have hrec : s'.record = r := by rw [h.eq]
      have hst : s'.steps = s.steps ++ [step] := by rw [Sim.steps, hrec, h.steps]; rfl
      have hcalls : s'.calls = s.calls ++ [m.problem, t.problem] := by rw [h.eq]
      have ht : s'.therm = t.load (solver (s.calls ++ [m.problem]) t.problem) := by rw [h.eq]
      refine ⟨⟨step, by rw [hst]; simp, h.stepTheta.symm⟩, fun k a b ha hb => ?_⟩
      by_cases hk1 : k + 1 < s.steps.length
      · rw [hst, List.getElem?_append_left hk1] at hb
        rw [hst, List.getElem?_append_left (by omega)] at ha
        exact old s' ⟨_, hl.symm⟩ k a b ha hb
      · have hk2 := (List.getElem?_eq_some_iff.1 hb).1
        rw [hst, List.length_append, List.length_singleton] at hk2
        have hk3 : k + 1 = s.steps.length := by omega
        rw [hst, List.getElem?_append_right (by omega), hk3, Nat.sub_self] at hb
        cases hb
        rw [hst, List.getElem?_append_left (by omega)] at ha
        have hlast : s.steps.getLast? = some a := by
          rw [List.getLast?_eq_getElem?, ← hk3, Nat.add_sub_cancel]; exact ha
        rw [l1] at hlast
        cases hlast
        obtain ⟨k1, k2, k3, k4, k5, k6⟩ := mk m t _ _ _ _ h.mechWF h.thermWF h.mechReady h.thermReady
        rw [l2] at k4 k5 k6
        have t1 : s'.calls.take s.calls.length = s.calls := by rw [hcalls, List.take_left]
        have t2 : s'.calls.take (s.calls.length + 1) = s.calls ++ [m.problem] := by
          rw [hcalls, List.take_append]; simp
        refine ⟨s.calls.length, _, _, by rw [hcalls]; simp, by rw [hcalls]; simp, k1, k2, k3, k4, k5, k6, ?_, ?_⟩
        · rw [t1, h.stepY, ht, (h.thermWF.load _).2.2.1, h.thermReady.y]
          exact (h.mechWF.load _).2.2.2.1
        · rw [t2, h.stepTheta, ht]
          exact (h.thermWF.load _).2.2.2.2.1
    · simp only [e1] at hl ⊢
      have hst : s'.steps = s.steps := by rw [Sim.steps, h.record]; rfl
      rw [hst]
      exact ⟨⟨last, l1, (Sim.runSingle_theta hk c.wf e1).trans l2⟩, old s' ⟨_, hl.symm⟩⟩

/-- **C106** (recovery). Let failing thermal solves load nothing, and let the solver keep constraints and nonnegative temperatures and
the boundary data be defined. As soon as the solver succeeds again on problems with a feasible starting point, the simulation can be
continued, however many calls of `run` have failed before: `run(n)` records `n` further steps. -/
theorem C106_recovers (hs : s.Reachable solver domain params ext traction) (hk : solver.KeepsTemperature)
    (hdom : solver.RespectsDomain) (hc : solver.RespectsConstraints)
    (hb : params.regularization = none → BoundaryDataOk ext traction)
    (hrec : ∀ cs p, s.calls <+: cs → p.Feasible → (solver cs p).err = none) {n : ℤ} (hn : 0 < n) :
    ∃ s', s.run solver n = (.ok (), s') ∧ (s'.steps.length : ℤ) = s.steps.length + n := by
  have run_eq : ∀ s : Sim, s.run solver 1 = Sim.runSingleStep solver s := fun s => by
    rw [Sim.run, if_neg (by norm_num), if_pos rfl]
  have single : ∀ s1 : Sim, s1.Reachable solver domain params ext traction → s.calls <+: s1.calls →
      ∃ s2, s1.run solver 1 = (.ok (), s2) ∧ s2.Reachable solver domain params ext traction ∧ s.calls <+: s2.calls := by
    intro s1 hs1 hp
    obtain ⟨m0, t0, c, last, l1, l2⟩ := hs1.theta_synced hk
    rcases hr : Sim.runSingleStep solver s1 with ⟨res, s2⟩
    have hs2 : s2.Reachable solver domain params ext traction := by
      have := hs1.run (n := 1)
      rwa [run_eq, hr] at this
    have θ0 : ∀ x ∈ s1.therm.theta.data, 0 ≤ x := fun x hx => C59_nonneg hs1 hdom (List.mem_of_getLast? l1) (l2 ▸ hx)
    rcases runSingle_posed c θ0 hb hr with ⟨p, -, h1, h2, -⟩ | ⟨p, q, -, -, h1, h2, h3⟩
    · exact absurd (hrec _ _ hp (posed_start hs2 hc (by rw [h1]; simp))) h2
    · have hpre : s.calls <+: s1.calls ++ [p] := hp.trans (List.prefix_append _ _)
      obtain rfl := h3.2 (hrec _ q hpre (posed_start hs2 hc (by rw [h1]; simp)))
      exact ⟨s2, (run_eq s1).trans hr, hs2, by rw [h1]; exact hp.trans (List.prefix_append _ _)⟩
  have key : ∀ k : ℕ, ∃ s', s.run solver (k + 1) = (.ok (), s') ∧ s'.Reachable solver domain params ext traction ∧
      s.calls <+: s'.calls := by
    intro k
    induction k with
    | zero => simpa using single s hs (List.prefix_refl _)
    | succ k ih =>
      obtain ⟨s', h1, h2, h3⟩ := ih
      obtain ⟨s'', h4, h5, h6⟩ := single s' h2 h3
      refine ⟨s'', ?_, h5, h6⟩
      have := C66_compose (solver := solver) (s := s) (a := (k : ℤ) + 1) (b := 1) (by omega) (by omega)
      rw [h1] at this
      push_cast
      rw [this]
      exact h4
  obtain ⟨s', h1, h2, -⟩ := key (n - 1).toNat
  rw [show (((n - 1).toNat : ℕ) : ℤ) + 1 = n by omega] at h1
  exact ⟨s', h1, C60_run hs h1⟩

end

/-! ### a solver with one failing call -/

/-- the solver with a failing call number `j` (from zero), which loads nothing -/
noncomputable def Solver.failingAt (solver : Solver) (j : ℕ) : Solver := fun cs p =>
  if cs.length = j then { p.currentValues with err := some .solverError } else solver cs p

theorem failingAt_ne {solver : Solver} {j : ℕ} {cs : List Problem} (h : cs.length ≠ j) (p : Problem) :
    solver.failingAt j cs p = solver cs p := if_neg h

theorem failingAt_eq {solver : Solver} {j : ℕ} {cs : List Problem} (h : cs.length = j) (p : Problem) :
    solver.failingAt j cs p = { p.currentValues with err := some .solverError } := if_pos h

theorem failingAt_ok {solver : Solver} {j : ℕ} {cs : List Problem} {p : Problem} (h : (solver.failingAt j cs p).err = none) :
    cs.length ≠ j ∧ solver.failingAt j cs p = solver cs p := by
  by_cases hj : cs.length = j
  · rw [failingAt_eq hj] at h; cases h
  · exact ⟨hj, failingAt_ne hj p⟩

/-- A simulation with optimal answers of the solver whose fourth call, a thermal one, fails: `run(1)` raises, then `run(2)` records
two further steps. -/
theorem failing_run_of (it : SetIter) {domain : RectDomain ℝ} {params : SimParams} {ext : ExtTemp} {traction : Traction}
    (S : Setup domain params) (hfps : 0 < params.fps) (hB : params.regularization = none → BoundaryDataOk ext traction) :
    ∃ (leg : LegGauss) (q : GaussRule ℝ) (solver : Solver) (s s' s'' : Sim) (e : PyErr),
    GaussRule.new leg 1 = .ok q ∧ (∀ w ∈ q.weights, 0 ≤ w) ∧ solver.KeepsTemperature ∧ solver.Decreases leg ∧
    solver.RespectsConstraints ∧ solver.RespectsDomain ∧ solver.RespectsFixed ∧ s.run solver 1 = (.error e, s') ∧ s'.run solver 2 = (.ok (), s'') ∧
    s''.Reachable solver domain params ext traction ∧ s''.steps.length = 4 ∧
    ∀ p ∈ s''.calls, ∀ cs, (solver cs p).err = none → p.IsOptimal leg (solver cs p) := by
  have hq := gauss_new_ok (lg := fun _ => .ok ([0], [2])) (n := 1) (P := [0]) (W := [2]) rfl
  set leg : LegGauss := fun _ => .ok ([0], [2])
  have P := optSolver_spec leg
  have hA : ∀ cs p, (optSolver leg cs p).err = none → p.Admits (optSolver leg cs p) :=
    fun cs p h => (P cs p).2.1 ((P cs p).1.1 h)
  set F := (optSolver leg).failingAt 3 with hF
  have hc : F.RespectsConstraints := fun cs p h => by
    obtain ⟨-, e⟩ := failingAt_ok h
    rw [hF, e] at h ⊢
    exact (hA cs p h).2.2
  have hd : F.Decreases leg := fun cs p h => by
    obtain ⟨-, e⟩ := failingAt_ok h
    rw [hF, e] at h ⊢
    exact (P cs p).2.2.2 ((P cs p).1.1 h)
  have hdom : F.RespectsDomain := fun cs p ht h => by
    obtain ⟨-, e⟩ := failingAt_ok h
    rw [hF, e] at h ⊢
    exact (hA cs p h).2.1 ht
  have hfx : F.RespectsFixed := fun cs p h => by
    obtain ⟨-, e⟩ := failingAt_ok h
    rw [hF, e] at h ⊢
    exact (hA cs p h).1.imp fun v x hv => hv.2.2
  have hok : ∀ cs p, cs.length ≠ 3 → p.Feasible → (F cs p).err = none := fun cs p hl hp => by
    rw [hF, failingAt_ne hl]; exact (P cs p).1.2 hp
  have hkeep : F.KeepsTemperature := by
    intro cs p hp he
    by_cases hl : cs.length = 3
    · rw [hF, failingAt_eq hl]; exact p.answer_current _
    · rw [hF, failingAt_ne hl] at he ⊢
      have hn : ¬ (p.Feasible ∧ ∃ o, p.IsOptimal leg o) := fun h => he ((P cs p).1.2 h.1)
      rw [optSolver, dif_neg hn]
      exact stay_answer cs p
  obtain ⟨s, hnew'⟩ := C55_usable_partial S hfps (fun cs p h => (P cs p).1.2 h) it hB
  have hnew : Sim.new F it domain params ext traction = .ok s := by
    rw [← hnew']
    simp [Sim.new, hF, Solver.failingAt]
  have hs := Sim.Reachable.new (ext := ext) (traction := traction) S hnew
  have hlen := C60_new S hnew
  have hcalls : s.calls.length = 2 := by rw [C61_calls (Sim.Healthy.new S hnew), hlen]
  obtain ⟨m0, t0, c, last, l1, l2⟩ := hs.theta_synced hkeep
  have θ0 : ∀ x ∈ s.therm.theta.data, 0 ≤ x := fun x hx => C59_nonneg hs hdom (List.mem_of_getLast? l1) (l2 ▸ hx)
  rcases hr : Sim.runSingleStep F s with ⟨res, s'⟩
  have hrun : s.run F 1 = (res, s') := by
    rw [Sim.run, if_neg (by norm_num), if_pos rfl, hr]
  have hs' : s'.Reachable F domain params ext traction := by
    have := hs.run (n := 1)
    rwa [hrun] at this
  rcases runSingle_posed c θ0 hB hr with ⟨p, -, h1, h2, -⟩ | ⟨p, r, -, -, h1, h2, h3⟩
  · exact absurd (hok _ _ (by omega) (posed_start hs' hc (by rw [h1]; simp))) h2
  have hne : res ≠ .ok () := by
    intro h
    have := (failingAt_ok (h3.1 h)).1
    simp [hcalls] at this
  rcases res with e | ⟨⟩
  swap
  · exact absurd rfl hne
  have hcalls' : s'.calls.length = 4 := by rw [h1]; simp [hcalls]
  obtain ⟨s'', h4, h5⟩ := C106_recovers hs' hkeep hdom hc hB
    (fun cs p hpre hp => hok cs p (by have := hpre.length_le; omega) hp) (n := 2) (by norm_num)
  rw [(C67_failed_step hs hrun).1, hlen] at h5
  have hlen'' : s''.steps.length = 4 := by push_cast at h5; omega
  have hs'' : s''.Reachable F domain params ext traction := by
    have := hs'.run (n := 2)
    rwa [h4] at this
  refine ⟨leg, _, F, s, s', s'', e, hq, ?_, hkeep, hd, hc, hdom, hfx, hrun, h4, hs'', hlen'', fun p hp cs h => ?_⟩
  · simp
  · obtain ⟨-, e⟩ := failingAt_ok h
    rw [hF, e] at h ⊢
    exact (P cs p).2.2.1 ((P cs p).1.1 h) (C78_exists hs'' hq hc hd hp).2

/-- the same for the example parameters -/
theorem failing_run (it : SetIter) {params : SimParams} (hp : params = exampleParams ∨ params = exampleParamsReg) :
    ∃ (leg : LegGauss) (q : GaussRule ℝ) (solver : Solver) (s s' s'' : Sim) (e : PyErr),
    GaussRule.new leg 1 = .ok q ∧ (∀ w ∈ q.weights, 0 ≤ w) ∧ solver.KeepsTemperature ∧ solver.Decreases leg ∧
    solver.RespectsConstraints ∧ s.run solver 1 = (.error e, s') ∧ s'.run solver 2 = (.ok (), s'') ∧
    s''.Reachable solver exampleDomain params (fun t => .ok (t ^ 2)) (fun t x y => .ok [t + x, y]) ∧ s''.steps.length = 4 ∧
    ∀ p ∈ s''.calls, ∀ cs, (solver cs p).err = none → p.IsOptimal leg (solver cs p) := by
  obtain ⟨leg, q, F, s, s', s'', e, hq, hw, hk, hd, hc, -, -, h⟩ := failing_run_of it (params := params)
    (by rcases hp with rfl | rfl
        · exact exampleSetup
        · exact exampleSetupReg)
    (by rcases hp with rfl | rfl <;> norm_num [exampleParams, exampleParamsReg]) fun _ => exampleBoundary
  exact ⟨leg, q, F, s, s', s'', e, hq, hw, hk, hd, hc, h⟩

/-- A simulation with optimal answers of the solver whose fourth call, a thermal one, fails: `run(1)` raises, then `run(2)` records
two further steps, and C106 applies to the steps before and after the failure. -/
example (it : SetIter) {params : SimParams} (hp : params = exampleParams ∨ params = exampleParamsReg) :
    ∃ (leg : LegGauss) (q : GaussRule ℝ) (solver : Solver) (s s' s'' : Sim) (e : PyErr) (a b : Step),
    GaussRule.new leg 1 = .ok q ∧ solver.KeepsTemperature ∧ solver.Decreases leg ∧
    s.run solver 1 = (.error e, s') ∧ s'.run solver 2 = (.ok (), s'') ∧ s''.steps[1]? = some a ∧ s''.steps[2]? = some b ∧
    ∃ e0 e1 d, IsMechEnergy leg params (fun t x y => .ok [t + x, y]) s''.grid s''.refined (1 / params.fps) a.yData a.thetaData e0 ∧
      IsMechEnergy leg params (fun t x y => .ok [t + x, y]) s''.grid s''.refined (1 / params.fps) b.yData a.thetaData e1 ∧
      IsMotion s''.grid s''.refined a.yData b.yData d ∧ 0 ≤ d ∧ e1 + params.fps * d ≤ e0 := by
  obtain ⟨leg, q, F, s, s', s'', e, hq, -, hkeep, hd, hc, hrun, h4, hs'', hlen'', -⟩ := failing_run it hp
  have E := C106_energy hs'' hkeep hq hd (List.getElem?_eq_getElem (by omega : 1 < s''.steps.length))
    (List.getElem?_eq_getElem (by omega : 1 + 1 < s''.steps.length))
  rw [Nat.cast_one] at E
  exact ⟨leg, q, F, s, s', s'', e, _, _, hq, hkeep, hd, hrun, h4, List.getElem?_eq_getElem _, List.getElem?_eq_getElem _, E⟩

end Tve
