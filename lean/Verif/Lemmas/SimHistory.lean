import Verif.Lemmas.SimNew

/-!
# Helper lemmas: the history of a simulation
-/

namespace Tve
open Sim

/-- what the creation of a simulation does -/
structure Sim.Created (solver : Solver) (it : SetIter) (domain : RectDomain ℝ) (params : SimParams) (ext : ExtTemp)
    (traction : Traction) (m : MechStep) (t : ThermStep) (step0 step1 : Step) (r1 r2 : Record) (s : Sim) : Prop where
  grid : domain.grid it params.scale = .ok s.grid
  refined : refineIf domain s.grid params.refinementFactor = .ok s.refined
  mech : mechanicalStep s.grid params.mechanicalStepParams s.refined traction = .ok m
  mechOk : (solver [] m.problem).err = none
  therm : thermalStep s.grid m.prevY (m.load (solver [] m.problem)).y m.prevTheta params.thermalStepParams ext
    s.refined = .ok t
  thermOk : (solver [m.problem] t.problem).err = none
  eq : s = ⟨domain, params, s.grid, s.refined, m.load (solver [] m.problem), t.load (solver [m.problem] t.problem), r2,
    [m.problem, t.problem]⟩
  fps : params.fps ≠ 0
  made0 : makeStep domain params s.grid s.refined m.prevY m.prevTheta = .ok step0
  made1 : makeStep domain params s.grid s.refined s.therm.y s.therm.theta = .ok step1
  stepY0 : step0.yData = m.prevY
  stepTheta0 : step0.thetaData = m.prevTheta
  stepY1 : step1.yData = s.therm.y
  stepTheta1 : step1.thetaData = s.therm.theta
  steps : r2.steps = [step0, step1]
  tau : r2.tau = 1 / params.fps
  time : r2.currentTime = 1 / params.fps
  maxTemp1 : ∃ M, NdArray.npMax step0.thetaData.data = .ok M ∧ r1.maxTemp = Max.max 0 M
  xlims1 : ∃ xs, step0.yData.slice 0 = .ok xs ∧ updateLims (⊤, ⊥) xs = .ok r1.xlims
  ylims1 : ∃ xs, step0.yData.slice 1 = .ok xs ∧ updateLims (⊤, ⊥) xs = .ok r1.ylims
  maxTemp2 : ∃ M, NdArray.npMax step1.thetaData.data = .ok M ∧ r2.maxTemp = Max.max r1.maxTemp M
  xlims2 : ∃ xs, step1.yData.slice 0 = .ok xs ∧ updateLims r1.xlims xs = .ok r2.xlims
  ylims2 : ∃ xs, step1.yData.slice 1 = .ok xs ∧ updateLims r1.ylims xs = .ok r2.ylims

section
variable {solver : Solver} {it : SetIter} {domain : RectDomain ℝ} {params : SimParams} {ext : ExtTemp}
  {traction : Traction}

theorem Setup.simShape (S : Setup domain params) {g : Grid ℝ} (hg : domain.grid it params.scale = .ok g)
    {refined : Option (RefinedGrid ℝ)} (hr : refineIf domain g params.refinementFactor = .ok refined) {m : MechStep}
    (hm : mechanicalStep g params.mechanicalStepParams refined traction = .ok m) :
    SimShape domain params g refined m.yShape m.thetaShape ∧ (∃ n, g.Usable n) ∧
      ∀ r, refined = some r → ∃ k, r.toGrid.Usable k := by
  obtain ⟨G, h1, h2⟩ := S.grids hg hr
  have F : ∀ r, refined = some r → ∃ k, r.toGrid.Usable k := by
    intro r hr
    by_cases hreg : params.regularization = none
    · rw [h1 hreg] at hr; cases hr
    · obtain ⟨n, r', p, -, -, h3, -, h4, -⟩ := h2 hreg
      rw [h3] at hr; cases hr
      exact ⟨_, h4.usable⟩
  obtain ⟨a1, a2, a3, a4, a5, a6, a7⟩ := mechanicalStep_facts G.usable F hm
  refine ⟨?_, ⟨_, G.usable⟩, F⟩
  unfold SimShape
  split
  · rename_i hreg
    obtain ⟨-, -, h4, h5⟩ := a6 hreg
    exact ⟨_, G.usable, h4, h5⟩
  · rename_i reg hreg
    obtain ⟨n, r, p, -, -, h3, -, h4, h5⟩ := h2 (by rw [hreg]; simp)
    obtain ⟨-, -, r', k, h6, h7, h8, h9⟩ := a7 (show params.regularization ≠ none by rw [hreg]; simp)
    rw [h3] at h6; cases h6
    exact ⟨_, k, r, p, G.usable, h3, h7, h5, h8, h9⟩

theorem Sim.of_new (S : Setup domain params) {s : Sim} (h : Sim.new solver it domain params ext traction = .ok s) :
    ∃ m t step0 step1 r1 r2, s.WF m.yShape m.thetaShape ∧
      Sim.Created solver it domain params ext traction m t step0 step1 r1 r2 s := by
  unfold Sim.new at h
  obtain ⟨g, hg, h⟩ := bind_eq_ok.1 h
  obtain ⟨refined, hr, h⟩ := bind_eq_ok.1 h
  obtain ⟨m, hm, h⟩ := bind_eq_ok.1 h
  obtain ⟨Sh, ⟨n, U⟩, F⟩ := S.simShape hg hr hm
  obtain ⟨a1, a2, -⟩ := mechanicalStep_facts U F hm
  set o1 := solver [] m.problem with ho1
  have w1 := a1.load o1
  have hprevY := w1.2.1
  have hprevT := w1.2.2.1
  obtain ⟨_, ho, h⟩ := bind_eq_ok.1 h
  have hok1 : o1.err = none := by
    rcases he : o1.err with _ | e
    · rfl
    · rw [Outcome.result_err he] at ho; cases ho
  obtain ⟨tau, htau, h⟩ := bind_eq_ok.1 h
  have hfps : params.fps ≠ 0 := by
    intro h0; rw [pyDiv, if_pos h0] at htau; cases htau
  rw [pyDiv, if_neg hfps] at htau
  cases htau
  obtain ⟨step0, r1, e1, b1, b2, b3, b4, b5, b6, b7, b8, b9⟩ := appendStep_ok Sh (hprevY ▸ a1.prevY) (hprevT ▸ a1.prevTheta)
    (⟨[], 1 / params.fps, -(1 / params.fps), 0, (⊤, ⊥), (⊤, ⊥)⟩ : Record)
  simp only [e1] at h
  simp only [bind_ok] at h
  obtain ⟨t, ht, h⟩ := bind_eq_ok.1 h
  rw [hprevY, hprevT] at ht
  obtain ⟨c1, -⟩ := thermalStep_cases U F a1.prevY.2 w1.1.y.2 a1.prevTheta.2 ht
  rw [a1.prevY.1, a1.prevTheta.1] at c1
  set o2 := solver [m.problem] t.problem with ho2
  have w2 := c1.load o2
  obtain ⟨_, ho', h⟩ := bind_eq_ok.1 h
  have hok2 : o2.err = none := by
    rcases he : o2.err with _ | e
    · rfl
    · rw [Outcome.result_err he] at ho'; cases ho'
  obtain ⟨step1, r2, e2, d1, d2, d3, d4, d5, d6, d7, d8, d9⟩ := appendStep_ok Sh w2.1.y w2.1.theta r1
  simp only [e2] at h
  simp only [bind_ok] at h
  cases h
  rw [hprevY, hprevT] at b1
  rw [hprevY] at b2 b8 b9
  rw [hprevT] at b3 b7
  refine ⟨m, t, step0, step1, r1, r2, ⟨w1.1, w2.1, Sh⟩,
    ⟨hg, hr, hm, hok1, ht, hok2, rfl, hfps, b1, d1, b2, b3, d2, d3, ?_, ?_, ?_, ?_, ?_, ?_, ?_, ?_, ?_⟩⟩
  · rw [d4, b4]; rfl
  · rw [d5, b5]
  · rw [d6, b6, b5]; ring
  · rw [b3]; exact b7
  · rw [b2]; exact b8
  · rw [b2]; exact b9
  · rw [d3]; exact d7
  · rw [d2]; exact d8
  · rw [d2]; exact d9

/-! ### loops -/

theorem PyS.forEach_ok_inv {σ ι : Type} {l : List ι} {f : ι → PyS σ Unit} (I : σ → Prop)
    (h : ∀ i ∈ l, ∀ s s', I s → f i s = (.ok (), s') → I s') {s s' : σ} (hs : I s)
    (hf : PyS.forEach l f s = (.ok (), s')) : I s' := by
  induction l generalizing s with
  | nil => cases hf; exact hs
  | cons a t ih =>
    rw [PyS.forEach_cons, PyS.bind_apply] at hf
    rcases h1 : f a s with ⟨_ | _, s1⟩
    · rw [h1] at hf; cases hf
    · rw [h1] at hf
      exact ih (fun i hi => h i (by simp [hi])) (h a (by simp) s s1 hs h1) hf

theorem Sim.run_inv (I : Sim → Prop) (h : ∀ s, I s → I (runSingleStep solver s).2) {s : Sim} {n : ℤ} (hs : I s) :
    I (s.run solver n).2 := by
  unfold Sim.run
  split_ifs
  · exact hs
  · exact h s hs
  · exact PyS.forEach_inv I (fun _ _ s hs => h s hs) s hs

theorem Sim.run_ok_inv (I : Sim → Prop) (h : ∀ s s', I s → runSingleStep solver s = (.ok (), s') → I s') {s s' : Sim}
    {n : ℤ} (hs : I s) (hr : s.run solver n = (.ok (), s')) : I s' := by
  unfold Sim.run at hr
  split_ifs at hr
  · cases hr
  · exact h s s' hs hr
  · exact PyS.forEach_ok_inv I (fun _ _ s s' hs => h s s' hs) hs hr

/-! ### facts about all reachable simulations -/

/-- what stays true in all reachable simulations -/
structure Sim.Context (domain : RectDomain ℝ) (params : SimParams) (ext : ExtTemp) (traction : Traction)
    (m0 : MechStep) (t0 : ThermStep) (s : Sim) : Prop where
  domainEq : s.domain = domain
  paramsEq : s.params = params
  setup : Setup domain params
  grid : ∃ it, domain.grid it params.scale = .ok s.grid
  refined : refineIf domain s.grid params.refinementFactor = .ok s.refined
  fps : params.fps ≠ 0
  tau : s.record.tau = 1 / params.fps
  mech0 : mechanicalStep s.grid params.mechanicalStepParams s.refined traction = .ok m0
  therm0 : ∃ y, y.Ok ∧ thermalStep s.grid m0.prevY y m0.prevTheta params.thermalStepParams ext s.refined = .ok t0
  mech : s.mech.static = m0.static
  therm : s.therm.static = t0.static
  fixed : s.mech.unknowns.map VarData.fixed = m0.unknowns.map VarData.fixed
  wf : s.WF m0.yShape m0.thetaShape
  first : ∃ st, s.steps[0]? = some st ∧ st.yData = m0.prevY ∧ st.thetaData = m0.prevTheta
  made : ∀ st ∈ s.steps, makeStep domain params s.grid s.refined st.yData st.thetaData = .ok st
  has : ∀ st ∈ s.steps, st.yData.Has m0.yShape ∧ st.thetaData.Has m0.thetaShape

theorem Sim.Created.context {m : MechStep} {t : ThermStep} {step0 step1 : Step} {r1 r2 : Record} {s : Sim}
    (S : Setup domain params) (w : s.WF m.yShape m.thetaShape)
    (c : Sim.Created solver it domain params ext traction m t step0 step1 r1 r2 s) :
    s.Context domain params ext traction m t := by
  obtain ⟨Sh, ⟨n, U⟩, F⟩ := S.simShape c.grid c.refined c.mech
  obtain ⟨a1, -⟩ := mechanicalStep_facts U F c.mech
  have w1 := a1.load (solver [] m.problem)
  obtain ⟨c1, -⟩ := thermalStep_cases U F a1.prevY.2 w1.1.y.2 a1.prevTheta.2 c.therm
  have w2 := c1.load (solver [m.problem] t.problem)
  have eq := c.eq
  have hst : s.steps = [step0, step1] := by rw [Sim.steps, eq, c.steps]
  have hm : s.mech = m.load (solver [] m.problem) := by rw [eq]
  have ht : s.therm = t.load (solver [m.problem] t.problem) := by rw [eq]
  exact {
    domainEq := by rw [eq]
    paramsEq := by rw [eq]
    setup := S
    grid := ⟨it, c.grid⟩
    refined := c.refined
    fps := c.fps
    tau := by rw [eq]; exact c.tau
    mech0 := c.mech
    therm0 := ⟨_, w1.1.y.2, c.therm⟩
    mech := by rw [hm]; exact MechStep.static_of_eraseY w1.2.2.2.2.2
    therm := by rw [ht]; exact ThermStep.static_of_eraseTheta w2.2.2.2.2.2.2
    fixed := by rw [hm]; exact w1.2.2.2.2.1
    wf := w
    first := ⟨step0, by rw [hst]; rfl, c.stepY0, c.stepTheta0⟩
    made := by
      intro st h
      rw [hst] at h
      simp only [List.mem_cons, List.not_mem_nil, or_false] at h
      rcases h with rfl | rfl
      · rw [c.stepY0, c.stepTheta0]; exact c.made0
      · rw [c.stepY1, c.stepTheta1]; exact c.made1
    has := by
      intro st h
      rw [hst] at h
      simp only [List.mem_cons, List.not_mem_nil, or_false] at h
      rcases h with rfl | rfl
      · rw [c.stepY0, c.stepTheta0]; exact ⟨a1.prevY, a1.prevTheta⟩
      · rw [c.stepY1, c.stepTheta1]; exact ⟨w.therm.y, w.therm.theta⟩ }

theorem Sim.SingleStep.static {m : MechStep} {t : ThermStep} {step : Step} {r : Record} {s s' : Sim} {ys ts : List ℕ}
    (c : SingleStep solver ys ts s m t step r s') :
    s'.mech.static = s.mech.static ∧ s'.therm.static = s.therm.static ∧
    s'.mech.unknowns.map VarData.fixed = s.mech.unknowns.map VarData.fixed := by
  have hm : s'.mech = m.load (solver s.calls m.problem) := by rw [c.eq]
  have ht : s'.therm = t.load (solver (s.calls ++ [m.problem]) t.problem) := by rw [c.eq]
  have w1 := c.mechWF.load (solver s.calls m.problem)
  have w2 := c.thermWF.load (solver (s.calls ++ [m.problem]) t.problem)
  rw [hm, ht]
  exact ⟨(MechStep.static_of_eraseY w1.2.2.2.2.2).trans c.mechStatic,
    (ThermStep.static_of_eraseTheta w2.2.2.2.2.2.2).trans c.thermStatic, w1.2.2.2.2.1.trans c.mechFixed⟩

theorem Sim.Context.single {m0 : MechStep} {t0 : ThermStep} {s : Sim}
    (c : s.Context domain params ext traction m0 t0) :
    (runSingleStep solver s).2.Context domain params ext traction m0 t0 := by
  rcases runSingle_any solver c.wf with ⟨m, t, step, r, s', h1, w, h⟩ | ⟨e, s', h1, w, h⟩
  · rw [h1]
    obtain ⟨a1, a2, a3⟩ := h.static
    have hd : s'.domain = s.domain := by rw [h.eq]
    have hp : s'.params = s.params := by rw [h.eq]
    have hg : s'.grid = s.grid := by rw [h.eq]
    have hr : s'.refined = s.refined := by rw [h.eq]
    have hrec : s'.record = r := by rw [h.eq]
    have hst : s'.steps = s.steps ++ [step] := by rw [Sim.steps, hrec, h.steps]; rfl
    refine ⟨hd.trans c.domainEq, hp.trans c.paramsEq, c.setup, ?_, ?_, c.fps, ?_, ?_, ?_, a1.trans c.mech, a2.trans c.therm,
      a3.trans c.fixed, w, ?_, ?_, ?_⟩
    · simp only [hg]; exact c.grid
    · simp only [hg, hr]; exact c.refined
    · simp only [hrec, h.tau]; exact c.tau
    · simp only [hg, hr]; exact c.mech0
    · simp only [hg, hr]; exact c.therm0
    · obtain ⟨st, h2, h3⟩ := c.first
      refine ⟨st, ?_, h3⟩
      simp only [hst]
      rw [List.getElem?_append_left (List.getElem?_eq_some_iff.1 h2).1]; exact h2
    · intro st hmem
      simp only [hst, List.mem_append, List.mem_singleton] at hmem
      simp only [hg, hr]
      rcases hmem with hmem | rfl
      · exact c.made st hmem
      · rw [h.stepY, h.stepTheta, ← c.domainEq, ← c.paramsEq]; exact h.made
    · intro st hmem
      simp only [hst, List.mem_append, List.mem_singleton] at hmem
      rcases hmem with hmem | rfl
      · exact c.has st hmem
      · rw [h.stepY, h.stepTheta]; exact ⟨w.therm.y, w.therm.theta⟩
  · rw [h1]
    have hst : s'.steps = s.steps := by rw [Sim.steps, h.record]; rfl
    refine ⟨h.domain.trans c.domainEq, h.params.trans c.paramsEq, c.setup, ?_, ?_, c.fps, ?_, ?_, ?_, h.mechStatic.trans c.mech,
      h.thermStatic.trans c.therm, h.mechFixed.trans c.fixed, w, ?_, ?_, ?_⟩
    · simp only [h.grid]; exact c.grid
    · simp only [h.grid, h.refined]; exact c.refined
    · simp only [h.record]; exact c.tau
    · simp only [h.grid, h.refined]; exact c.mech0
    · simp only [h.grid, h.refined]; exact c.therm0
    · simp only [hst]; exact c.first
    · simp only [hst, h.grid, h.refined]; exact c.made
    · simp only [hst]; exact c.has

theorem Sim.Reachable.context {s : Sim} (h : Sim.Reachable solver domain params ext traction s) :
    ∃ m0 t0, s.Context domain params ext traction m0 t0 := by
  induction h with
  | new S h =>
    obtain ⟨m, t, step0, step1, r1, r2, w, c⟩ := Sim.of_new S h
    exact ⟨m, t, c.context S w⟩
  | run _ ih =>
    obtain ⟨m0, t0, c⟩ := ih
    exact ⟨m0, t0, Sim.run_inv _ (fun s hs => Sim.Context.single hs) c⟩

theorem Sim.Healthy.reachable {s : Sim} (h : Sim.Healthy solver domain params ext traction s) :
    Sim.Reachable solver domain params ext traction s := by
  induction h with
  | new S h => exact .new S h
  | run _ h ih =>
    have := Sim.Reachable.run (n := ‹ℤ›) ih
    rw [h] at this
    exact this

/-- invariants of the single steps hold for all healthy simulations -/
theorem Sim.Healthy.induct {s : Sim} (h : Sim.Healthy solver domain params ext traction s) (P : Sim → Prop)
    (hnew : ∀ it s, Setup domain params → Sim.new solver it domain params ext traction = .ok s → P s)
    (hstep : ∀ s s' m0 t0, s.Context domain params ext traction m0 t0 → P s →
      runSingleStep solver s = (.ok (), s') → P s') : P s := by
  induction h with
  | new S h => exact hnew _ _ S h
  | run hs h ih =>
    obtain ⟨m0, t0, c⟩ := hs.reachable.context
    refine (Sim.run_ok_inv (fun s => s.Context domain params ext traction m0 t0 ∧ P s) ?_ ⟨c, ih⟩ h).2
    rintro s s' ⟨c, hp⟩ hr
    refine ⟨?_, hstep s s' m0 t0 c hp hr⟩
    have := c.single (solver := solver)
    rw [hr] at this
    exact this

/-- invariants of all single steps, successful or not, hold for all reachable simulations -/
theorem Sim.Reachable.induct {s : Sim} (h : Sim.Reachable solver domain params ext traction s) (P : Sim → Prop)
    (hnew : ∀ it s, Setup domain params → Sim.new solver it domain params ext traction = .ok s → P s)
    (hstep : ∀ s m0 t0, s.Context domain params ext traction m0 t0 → P s → P (runSingleStep solver s).2) : P s := by
  induction h with
  | new S h => exact hnew _ _ S h
  | run hs ih =>
    obtain ⟨m0, t0, c⟩ := hs.context
    refine (Sim.run_inv (fun s => s.Context domain params ext traction m0 t0 ∧ P s) ?_ ⟨c, ih⟩).2
    rintro s ⟨c, hp⟩
    exact ⟨c.single, hstep s m0 t0 c hp⟩

/-! ### the history of healthy simulations -/

/-- the steps prepared for solving and the solver's answers that lead from one recorded step to the next -/
structure Sim.Solved (solver : Solver) (calls : List Problem) (time : ℝ) (a b : Step) (m : MechStep) (t : ThermStep)
    (ys ts : List ℕ) : Prop where
  mechWF : m.WF ys ts
  thermWF : t.WF ys ts
  mech : MechReady m a.yData a.thetaData time
  mechOk : (solver calls m.problem).err = none
  y : b.yData = (m.load (solver calls m.problem)).y
  therm : ThermReady t a.yData b.yData a.thetaData time
  thermOk : (solver (calls ++ [m.problem]) t.problem).err = none
  theta : b.thetaData = (t.load (solver (calls ++ [m.problem]) t.problem)).theta

/-- the history of a healthy simulation -/
structure Sim.History (solver : Solver) (params : SimParams) (m0 : MechStep) (t0 : ThermStep) (s : Sim) : Prop where
  two : 2 ≤ s.steps.length
  calls : s.calls.length + 2 = 2 * s.steps.length
  each : ∀ k a b, s.steps[k]? = some a → s.steps[k + 1]? = some b → ∃ m t, s.calls[2 * k]? = some m.problem ∧
    s.calls[2 * k + 1]? = some t.problem ∧ m.static = m0.static ∧ t.static = t0.static ∧
    m.unknowns.map VarData.fixed = m0.unknowns.map VarData.fixed ∧
    Sim.Solved solver (s.calls.take (2 * k)) (k / params.fps) a b m t m0.yShape m0.thetaShape
  last : ∃ st, s.steps.getLast? = some st ∧ st.yData = s.therm.y ∧ st.thetaData = s.therm.theta
  time : s.record.currentTime = ((s.steps.length : ℝ) - 1) / params.fps

theorem Sim.Created.history {m : MechStep} {t : ThermStep} {step0 step1 : Step} {r1 r2 : Record} {s : Sim}
    (S : Setup domain params) (c : Sim.Created solver it domain params ext traction m t step0 step1 r1 r2 s) :
    s.History solver params m t := by
  obtain ⟨Sh, ⟨n, U⟩, F⟩ := S.simShape c.grid c.refined c.mech
  obtain ⟨a1, a2, -⟩ := mechanicalStep_facts U F c.mech
  have w1 := a1.load (solver [] m.problem)
  obtain ⟨c1, c2, -⟩ := thermalStep_cases U F a1.prevY.2 w1.1.y.2 a1.prevTheta.2 c.therm
  rw [a1.prevY.1, a1.prevTheta.1] at c1
  have eq := c.eq
  have hst : s.steps = [step0, step1] := by rw [Sim.steps, eq, c.steps]
  have hcalls : s.calls = [m.problem, t.problem] := by rw [eq]
  have ht : s.therm = t.load (solver [m.problem] t.problem) := by rw [eq]
  have w2 := c1.load (solver [m.problem] t.problem)
  refine ⟨by rw [hst]; simp, by rw [hst, hcalls]; rfl, ?_, ⟨step1, by rw [hst]; rfl, c.stepY1, c.stepTheta1⟩, ?_⟩
  · intro k a b ha hb
    rw [hst] at ha hb
    obtain rfl : k = 0 := by
      rcases k with _ | k
      · rfl
      · simp at hb
    simp only [List.getElem?_cons_zero, Option.some.injEq, zero_add, List.getElem?_cons_succ] at ha hb
    subst ha hb
    refine ⟨m, t, by rw [hcalls]; rfl, by rw [hcalls]; rfl, rfl, rfl, rfl, ?_⟩
    have hy : step1.yData = (m.load (solver [] m.problem)).y := by
      rw [c.stepY1, ht, w2.2.2.1, c2.y]
    simp only [mul_zero, List.take_zero, CharP.cast_eq_zero, zero_div]
    exact ⟨a1, c1, by rw [c.stepY0, c.stepTheta0]; exact a2, c.mechOk, hy,
      by rw [hy, c.stepY0, c.stepTheta0]; exact c2, c.thermOk, by rw [c.stepTheta1, ht]; rfl⟩
  · rw [hst]
    have : s.record = r2 := by rw [eq]
    rw [this, c.time]
    norm_num

theorem Sim.History.single {m0 : MechStep} {t0 : ThermStep} {s s' : Sim}
    (c : s.Context domain params ext traction m0 t0) (H : s.History solver params m0 t0)
    (h : runSingleStep solver s = (.ok (), s')) : s'.History solver params m0 t0 := by
  rcases runSingle_any solver c.wf with ⟨m, t, step, r, s1, h1, w, h2⟩ | ⟨e, s1, h1, -⟩
  swap
  · rw [h1] at h; cases h
  rw [h1] at h
  obtain rfl : s1 = s' := (Prod.mk.inj h).2
  have hrec : s1.record = r := by rw [h2.eq]
  have hst : s1.steps = s.steps ++ [step] := by rw [Sim.steps, hrec, h2.steps]; rfl
  have hcalls : s1.calls = s.calls ++ [m.problem, t.problem] := by rw [h2.eq]
  have ht : s1.therm = t.load (solver (s.calls ++ [m.problem]) t.problem) := by rw [h2.eq]
  have w2 := h2.thermWF.load (solver (s.calls ++ [m.problem]) t.problem)
  have hlen := H.calls
  refine ⟨by rw [hst, List.length_append]; have := H.two; omega, ?_, ?_,
    ⟨step, by rw [hst]; simp, h2.stepY, h2.stepTheta⟩, ?_⟩
  · rw [hst, hcalls, List.length_append, List.length_append]
    simp only [List.length_cons, List.length_nil]; omega
  · intro k a b ha hb
    have hk : k + 1 < s1.steps.length := (List.getElem?_eq_some_iff.1 hb).1
    rw [hst, List.length_append, List.length_singleton] at hk
    rw [hst] at ha hb
    rw [List.getElem?_append_left (by omega)] at ha
    by_cases hk' : k + 1 < s.steps.length
    · rw [List.getElem?_append_left hk'] at hb
      obtain ⟨m', t', e1, e2, e3, e4, e5, e6⟩ := H.each k a b ha hb
      refine ⟨m', t', ?_, ?_, e3, e4, e5, ?_⟩
      · rw [hcalls, List.getElem?_append_left (by omega)]; exact e1
      · rw [hcalls, List.getElem?_append_left (by omega)]; exact e2
      · rw [hcalls, List.take_append_of_le_length (by omega)]; exact e6
    · have hk2 : k + 1 = s.steps.length := by omega
      rw [List.getElem?_append_right (by omega), hk2, Nat.sub_self] at hb
      cases hb
      obtain ⟨st, l1, l2, l3⟩ := H.last
      have hst' : st = a := by
        rw [List.getLast?_eq_getElem?, show s.steps.length - 1 = k by omega, ha] at l1
        exact (Option.some.inj l1).symm
      subst hst'
      have hc : s.calls.length = 2 * k := by omega
      refine ⟨m, t, ?_, ?_, h2.mechStatic.trans c.mech, h2.thermStatic.trans c.therm, h2.mechFixed.trans c.fixed, ?_⟩
      · rw [hcalls, List.getElem?_append_right (by omega), hc]; simp
      · rw [hcalls, List.getElem?_append_right (by omega), hc]; simp
      · have htk : s1.calls.take (2 * k) = s.calls := by rw [hcalls, ← hc, List.take_left]
        have htime : (k : ℝ) / params.fps = s.record.currentTime := by
          rw [H.time, ← hk2]; push_cast; ring
        have hy : step.yData = (m.load (solver s.calls m.problem)).y := by
          rw [h2.stepY, ht, w2.2.2.1, h2.thermReady.y]
        rw [htk, htime]
        exact ⟨h2.mechWF, h2.thermWF, by rw [l2, l3]; exact h2.mechReady, h2.mechOk, hy,
          by rw [l2, l3, hy]; exact h2.thermReady, h2.thermOk, by rw [h2.stepTheta, ht]⟩
  · rw [hrec, h2.time, H.time, c.tau, hst, List.length_append, List.length_singleton]
    push_cast
    ring

theorem Sim.Healthy.history {s : Sim} (h : Sim.Healthy solver domain params ext traction s) :
    ∃ m0 t0, s.Context domain params ext traction m0 t0 ∧ s.History solver params m0 t0 := by
  induction h with
  | new S h =>
    obtain ⟨m, t, step0, step1, r1, r2, w, c⟩ := Sim.of_new S h
    exact ⟨m, t, c.context S w, c.history S⟩
  | run hs h ih =>
    obtain ⟨m0, t0, c, H⟩ := ih
    refine ⟨m0, t0, Sim.run_ok_inv (fun s => s.Context domain params ext traction m0 t0 ∧ s.History solver params m0 t0)
      ?_ ⟨c, H⟩ h⟩
    rintro s s' ⟨c, H⟩ hr
    refine ⟨?_, H.single c hr⟩
    have := c.single (solver := solver)
    rw [hr] at this
    exact this

end

end Tve
