import Verif.Spec.Threshold
import Verif.Props.Endures

/-!
# C113: short steps keep a body from moving
-/

namespace Tve
open Helpers

section
variable {solver : Solver} {domain : RectDomain ℝ} {params : SimParams} {ext : ExtTemp} {traction : Traction} {s : Sim}
  {leg : LegGauss} {q : GaussRule ℝ}

/-- **C113** (uniform bodies). Let the solver not increase objectives, keep to nonnegative temperatures and load nothing when a thermal
solve fails. A simulation without traction, with an external temperature equal to the initial one (both only act without regularization),
in which three times the austenite fraction at the initial temperature plus twice the number of steps per time is at least one, never
leaves its initial state. -/
theorem C113_uniform (hs : s.Reachable solver domain params ext traction) (hk : solver.KeepsTemperature)
    (hq : GaussRule.new leg 1 = .ok q) (hw : ∀ w ∈ q.weights, 0 ≤ w) (hd : solver.Decreases leg) (hn : solver.RespectsDomain)
    {α : ℝ} (hα : austenitePercentage params.initialTemperature = .ok α) (hα' : 1 ≤ 3 * α + 2 * params.fps)
    (ht : params.regularization = none → ∀ time x y, traction time x y = .ok [0, 0])
    (he : params.regularization = none → ∀ time, ext time = .ok params.initialTemperature) {st : Step} (hst : st ∈ s.steps) :
    Undeformed s.grid s.refined st.yData ∧ (∀ x ∈ st.thetaData.data, x = params.initialTemperature) ∧
    (params.regularization = none → solver.RespectsFixed → (∃ f ∈ domain.fix.options, ∀ name, f ≠ .unknown name) →
      ∀ v ∈ s.grid.vertices, st.yData.deformed v = s.grid.xy v) := by
  obtain ⟨h1, h2⟩ := (stay_all hs hk hq hw hd hn ⟨α, hα, hα'⟩ ht he).2 st hst
  exact ⟨h1.1, h2, fun hreg => (C97_positions hs hreg hst h1.1).2⟩

/-- **C113** (short steps). Let the solver not increase objectives, keep to nonnegative temperatures and load nothing when a thermal
solve fails. A simulation without traction and with at least half a step per time never deforms the body, whatever the initial and the
external temperatures are. -/
theorem C113_short_steps (hs : s.Reachable solver domain params ext traction) (hk : solver.KeepsTemperature)
    (hq : GaussRule.new leg 1 = .ok q) (hd : solver.Decreases leg) (hn : solver.RespectsDomain) (hf : 1 ≤ 2 * params.fps)
    (ht : params.regularization = none → ∀ time x y, traction time x y = .ok [0, 0]) {st : Step} (hst : st ∈ s.steps) :
    Undeformed s.grid s.refined st.yData ∧
    (params.regularization = none → solver.RespectsFixed → (∃ f ∈ domain.fix.options, ∀ name, f ≠ .unknown name) →
      ∀ v ∈ s.grid.vertices, st.yData.deformed v = s.grid.xy v) := by
  have key : ∀ (k : ℕ) a, s.steps[k]? = some a → AtRest params s.grid s.refined a.yData := by
    intro k
    induction k with
    | zero => exact fun a ha => (initial_rest hs ha).1
    | succ k ih =>
      intro b hb
      have hlt := (List.getElem?_eq_some_iff.1 hb).1
      have ha := List.getElem?_eq_getElem (show k < s.steps.length by omega)
      refine C112_stays hs hk hq hd ha hb (ih _ ha) (fun x hx => ?_) fun hr v _ => ht hr _ _ _
      have hx0 := C59_nonneg hs hn (List.mem_of_getElem? ha) hx
      have : Real.exp (-5 * x) ≤ 1 := Real.exp_le_one_iff.2 (by linarith)
      exact ⟨hx0, _, aust_eq x, by linarith⟩
  obtain ⟨k, hk, rfl⟩ := List.mem_iff_getElem.1 hst
  have hr := key k _ (List.getElem?_eq_getElem hk)
  exact ⟨hr.1, fun hreg => (C97_positions hs hreg hst hr.1).2⟩

/-- a simulation has at least two recorded steps -/
theorem two_steps (hs : s.Reachable solver domain params ext traction) (hk : solver.KeepsTemperature) : 2 ≤ s.steps.length := by
  refine hs.singles (P := fun s => 2 ≤ s.steps.length) (fun s hh _ => ?_) fun s hs ih => ?_
  · obtain ⟨m0, t0, c, H⟩ := hh.history
    exact H.two
  · obtain ⟨m0, t0, last, c, l1, l2, -, hcase⟩ := hs.single_cases hk
    obtain ⟨-, -, -, ⟨h, -⟩ | ⟨m, -, -, -, -, -, -, -, ⟨h, -⟩ | ⟨t, step, h, -⟩⟩⟩ := hcase _ rfl
    · rw [h]; exact ih
    · rw [h]; exact ih
    · rw [h, List.length_append]; omega

/-- **C113** (threshold). Let the solver answer mechanical problems optimally or fail, not increase objectives, keep to nonnegative
temperatures and load nothing when a thermal solve fails. In a simulation of a body that can slide, without traction and with an external
temperature equal to the initial one, the body is never deformed exactly if three times the austenite fraction at the initial temperature
plus twice the number of steps per time is at least one; otherwise the first step already deforms it. -/
theorem C113_threshold (hs : s.Reachable solver domain params ext traction) (hk : solver.KeepsTemperature)
    (hq : GaussRule.new leg 1 = .ok q) (hw : ∀ w ∈ q.weights, 0 ≤ w) (hd : solver.Decreases leg) (hn : solver.RespectsDomain)
    (hopt : s.MechOptimal solver leg) (hsl : CanSlide domain params)
    {α : ℝ} (hα : austenitePercentage params.initialTemperature = .ok α)
    (ht : params.regularization = none → ∀ time x y, traction time x y = .ok [0, 0])
    (he : params.regularization = none → ∀ time, ext time = .ok params.initialTemperature) :
    ((∀ st ∈ s.steps, Undeformed s.grid s.refined st.yData) ↔ 1 ≤ 3 * α + 2 * params.fps) ∧
    ∃ st, s.steps[1]? = some st ∧ (Undeformed s.grid s.refined st.yData ↔ 1 ≤ 3 * α + 2 * params.fps) := by
  have h2 := two_steps hs hk
  have ha := List.getElem?_eq_getElem (show 0 < s.steps.length by omega)
  have hb := List.getElem?_eq_getElem (show 0 + 1 < s.steps.length by omega)
  have stay : 1 ≤ 3 * α + 2 * params.fps → ∀ st ∈ s.steps, Undeformed s.grid s.refined st.yData := fun h st hst =>
    (C113_uniform hs hk hq hw hd hn hα h ht he hst).1
  have move : Undeformed s.grid s.refined s.steps[0 + 1].yData → 1 ≤ 3 * α + 2 * params.fps := by
    intro hu
    by_contra hlt
    push Not at hlt
    exact (C112_transforms hs hk hq hd hopt ha hb ha rfl hsl hα hlt (fun x hx => ((initial_rest hs ha).2 x hx).le)
      fun hr v _ => ht hr _ _ _).2.2 hu
  exact ⟨⟨fun h => move (h _ (List.getElem_mem _)), stay⟩, _, hb, move, fun h => stay h _ (List.getElem_mem _)⟩

theorem readmeSetup : Setup readmeDomain readmeParams where
  valid := ⟨0, 10, 3, 1 / 4, none, none, (C55_validation_partial _ _ _ _ _ _).1
    ⟨by norm_num, by norm_num, by norm_num, by norm_num, by simp, by simp, by simp⟩⟩
  width := by norm_num [readmeDomain, readmeParams]
  height := by norm_num [readmeDomain, readmeParams]
  fine := by intro n h; cases h

/-- **C113** (README). In the usage example of the README, with the default external temperature and traction, run for 28 steps: if the
solver keeps to the constraints (fixed vertices, nonnegative temperatures) and does not increase objectives, all 30 recorded steps, and so
all plots, show the undeformed square at temperature zero. -/
theorem C113_readme (hq : GaussRule.new leg 1 = .ok q) (hw : ∀ w ∈ q.weights, 0 ≤ w)
    (hd : solver.Decreases leg) (hn : solver.RespectsDomain) (hfx : solver.RespectsFixed) {it : SetIter}
    (hs : Sim.new solver it readmeDomain readmeParams defaultExternalTemperature defaultTraction = .ok s) {s' : Sim}
    (hr : s.run solver 28 = (.ok (), s')) :
    s'.steps.length = 30 ∧ s'.maxTemp = 0 ∧ ∀ st ∈ s'.steps, (∀ v ∈ s'.grid.vertices, st.yData.deformed v = s'.grid.xy v) ∧
      ∀ x ∈ st.thetaData.data, x = 0 := by
  have S := readmeSetup
  have hs0 := Sim.Healthy.new (ext := defaultExternalTemperature) (traction := defaultTraction) S hs
  have hs' : s'.Healthy solver readmeDomain readmeParams defaultExternalTemperature defaultTraction := hs0.run hr
  have hlen : s'.steps.length = 30 := by
    have := C60_run hs0.reachable hr
    rw [C60_new S hs] at this
    push_cast at this
    omega
  have key : ∀ st ∈ s'.steps, (∀ v ∈ s'.grid.vertices, st.yData.deformed v = s'.grid.xy v) ∧ ∀ x ∈ st.thetaData.data, x = 0 := by
    intro st hst
    obtain ⟨h1, h2⟩ := stay_healthy hs' hq hw hd hn ⟨_, aust_eq _, by norm_num [readmeParams]⟩ (fun _ _ _ _ => rfl) (fun _ _ => rfl) hst
    exact ⟨(C97_positions hs'.reachable rfl hst h1.1).2 hfx ⟨.lower, by simp [readmeDomain, Fix.options], by simp⟩, h2⟩
  refine ⟨hlen, ?_, key⟩
  obtain ⟨⟨st, h1, h2⟩, -⟩ := C62_max_temp_recorded hs'.reachable hn
  exact (key st h1).2 _ h2

/-- the conclusion is not vacuous: with an optimal solver the simulation of the README is created and runs -/
example (it : SetIter) : ∃ (leg : LegGauss) (q : GaussRule ℝ) (solver : Solver) (s s' : Sim), GaussRule.new leg 1 = .ok q ∧
    (∀ w ∈ q.weights, 0 ≤ w) ∧ solver.Decreases leg ∧ solver.RespectsDomain ∧ solver.RespectsFixed ∧
    Sim.new solver it readmeDomain readmeParams defaultExternalTemperature defaultTraction = .ok s ∧
    s.run solver 28 = (.ok (), s') := by
  have hB : BoundaryDataOk defaultExternalTemperature defaultTraction := ⟨fun _ _ _ => ⟨_, _, rfl⟩, fun _ => ⟨0, le_rfl, rfl⟩⟩
  have hq := gauss_new_ok (lg := fun _ => .ok ([0], [2])) (n := 1) (P := [0]) (W := [2]) rfl
  obtain ⟨solver, h1, h2, h3, h4, h5, h6, h7⟩ := C78_optimal_solver _ hq
  obtain ⟨s, hs⟩ := C55_usable_partial readmeSetup (by norm_num [readmeParams]) h5 it fun _ => hB
  obtain ⟨s', h8, h9⟩ := C66_succeeds (Sim.Healthy.new readmeSetup hs) h5 h4 h3 (fun _ => hB) (n := 28) (by norm_num)
  exact ⟨_, _, solver, s, s', hq, by simp, h6, h3, h1, hs, h8⟩

/-- the threshold in an example with a failing solve: the cold body of the example is deformed exactly if there is less than half a
step per time -/
example (it : SetIter) {f : ℝ} (hf : 0 < f) : ∃ (solver : Solver) (s : Sim),
    s.Reachable solver exampleDomain ⟨0, 1 / 8, f, 1 / 2, none, none⟩ defaultExternalTemperature defaultTraction ∧ s.steps.length = 4 ∧
    ((∀ st ∈ s.steps, Undeformed s.grid s.refined st.yData) ↔ 1 / 2 ≤ f) := by
  have S : Setup exampleDomain ⟨0, 1 / 8, f, 1 / 2, none, none⟩ :=
    { valid := ⟨0, 1 / 8, f, 1 / 2, none, none, (C55_validation_partial _ _ _ _ _ _).1
        ⟨by norm_num, by norm_num, hf.le, by norm_num, by simp, by simp, by simp⟩⟩
      width := by norm_num [exampleDomain]
      height := by norm_num [exampleDomain]
      fine := by intro n h; cases h }
  obtain ⟨leg, q, F, s, s', s'', e, hq, hw, hk, hd, hc, hn, hfx, h1, h2, h3, h4, h5⟩ := failing_run_of it S hf
    (ext := defaultExternalTemperature) (traction := defaultTraction)
    fun _ => ⟨fun _ _ _ => ⟨_, _, rfl⟩, fun _ => ⟨0, le_rfl, rfl⟩⟩
  have := (C113_threshold h3 hk hq hw hd hn (fun p hp _ cs h => h5 p hp cs h)
    ⟨fun _ => Or.inl ⟨by simp [exampleDomain, Fix.options], by norm_num [exampleDomain]⟩, fun h => absurd rfl h⟩
    (aust_eq _) (fun _ _ _ _ => rfl) (fun _ _ => rfl)).1
  refine ⟨F, s'', h3, h4, this.trans ?_⟩
  norm_num
  constructor <;> intro h <;> linarith

end

end Tve
