import Verif.Lemmas.SimSuccess
import Verif.Lemmas.Stay
import Verif.Props.Simulation

/-!
# Properties of simulations: C55, C65, C66 and examples of simulations
-/

namespace Tve
open Sim

section
variable {solver : Solver} {domain : RectDomain ℝ} {params : SimParams} {ext : ExtTemp} {traction : Traction} {s : Sim}

/-! ### C55 -/

/-- the values `SimulationParams` accepts; unlike in C55, a frame rate of 0 is among them -/
structure ParamsAccepted (initialTemperature searchRadius fps scale : ℝ) (regularization : Option ℝ)
    (refinementFactor : Option ℤ) : Prop where
  temperature : 0 ≤ initialTemperature
  radius : 0 < searchRadius
  rate : 0 ≤ fps
  spacing : 0 < scale
  regular : ∀ x, regularization = some x → 0 ≤ x
  refinement : ∀ n, refinementFactor = some n → 0 < n
  both : regularization ≠ none → refinementFactor ≠ none

/-- **C55** (validation). `SimulationParams` accepts exactly these values and raises `ValueError` for all others. The fields of
the result are the arguments, except that the refinement factor is dropped without regularization. Missing: a frame rate of
0 should be rejected as well, see `C55_fps_false`. -/
theorem C55_validation_partial (a b c d : ℝ) (e : Option ℝ) (f : Option ℤ) :
    (ParamsAccepted a b c d e f → SimParams.new a b c d e f = .ok ⟨a, b, c, d, e, if e = none then none else f⟩) ∧
    (¬ ParamsAccepted a b c d e f → SimParams.new a b c d e f = .error .valueError) := by
  constructor
  · rintro ⟨h1, h2, h3, h4, h5, h6, h7⟩
    unfold SimParams.new
    rw [if_neg h1.not_gt, if_neg h2.not_ge, if_neg h3.not_gt]
    rcases e with _ | e
    · rcases f with _ | f
      · simp [h4.not_ge]
      · simp [h4.not_ge, (h6 f rfl).not_ge]
    · rcases f with _ | f
      · exact absurd rfl (h7 (by simp))
      · simp [h4.not_ge, (h5 e rfl).not_gt, (h6 f rfl).not_ge]
  · intro h
    by_contra hn
    rcases hok : SimParams.new a b c d e f with x | p
    · have : x = .valueError := by
        unfold SimParams.new at hok
        split_ifs at hok <;> first | (cases hok; rfl) | cases hok
      rw [hok, this] at hn
      exact hn rfl
    · obtain ⟨h1, h2, h3, h4, -, -, -, -, -, h5, h6, -, h8⟩ := simParams_ok hok
      exact h ⟨h1, h2, h3, h4, h5, h6, fun he => (h8 he).2⟩

example : ParamsAccepted 1 (1 / 8) 3 (1 / 2) (some (1 / 10)) (some 2) :=
  ⟨by norm_num, by norm_num, by norm_num, by norm_num, by rintro x ⟨⟩; norm_num, by rintro x ⟨⟩; norm_num, by simp⟩

example : ¬ ParamsAccepted 1 (1 / 8) 3 (1 / 2) (some (1 / 10)) none := fun h => h.both (by simp) rfl

private theorem ok_of_bind {α β : Type} {x : PyM α} {f : α → PyM β} {b : β} (h : x.bind f = .ok b) :
    ∃ a, x = .ok a ∧ f a = .ok b := by
  rcases x with e | a
  · cases h
  · exact ⟨a, rfl, h⟩

/-- **C55** is false: the frame rate 0 is accepted, but no simulation can be started with it. -/
theorem C55_fps_false : (∃ p, SimParams.new 1 (1 / 8) 0 (1 / 2) none none = .ok p ∧ p.fps = 0) ∧
    ∀ (solver : Solver) it domain (params : SimParams) ext traction, params.fps = 0 →
      ∀ s, Sim.new solver it domain params ext traction ≠ .ok s := by
  refine ⟨⟨_, (C55_validation_partial 1 (1 / 8) 0 (1 / 2) none none).1
    ⟨by norm_num, by norm_num, by norm_num, by norm_num, by simp, by simp, by simp⟩, rfl⟩, ?_⟩
  intro solver it domain params ext traction h0 s h
  obtain ⟨g, -, h⟩ := ok_of_bind h
  obtain ⟨r, -, h⟩ := ok_of_bind h
  obtain ⟨m, -, h⟩ := ok_of_bind h
  obtain ⟨-, -, h⟩ := ok_of_bind h
  obtain ⟨t, h1, -⟩ := ok_of_bind h
  rw [pyDiv, if_pos h0] at h1
  cases h1

/-- **C55** (usable). Accepted parameters with a positive frame rate start a simulation on every rectangle the scale fits into
(with regularization, in the tolerance of `refine`), provided the solver succeeds from feasible starting points, and
without regularization the boundary data are defined at time 0. -/
theorem C55_usable_partial (S : Setup domain params) (hfps : 0 < params.fps) (hs : solver.Succeeds) (it : SetIter)
    (hb : params.regularization = none → BoundaryDataOk ext traction) :
    ∃ s, Sim.new solver it domain params ext traction = .ok s :=
  Sim.new_succeeds S hfps.ne' hs (fun h x y => by
    obtain ⟨a, b, h⟩ := (hb h).1 0 x y
    exact ⟨_, h, le_refl _⟩) (fun h => (hb h).2 0)

/-! ### C66: runs succeed -/

/-- **C66** (runs succeed). With a solver that succeeds from feasible starting points and respects constraints and domains,
and with boundary data defined for all times, `run(n)` never raises for positive `n`, however often it has been called. -/
theorem C66_succeeds (hh : s.Healthy solver domain params ext traction) (hs : solver.Succeeds)
    (hc : solver.RespectsConstraints) (hd : solver.RespectsDomain)
    (hb : params.regularization = none → BoundaryDataOk ext traction) {n : ℤ} (hn : 0 < n) :
    ∃ s', s.run solver n = (.ok (), s') ∧ s'.Healthy solver domain params ext traction := by
  have key : ∀ k : ℕ, ∃ s', s.run solver (k + 1) = (.ok (), s') ∧ s'.Healthy solver domain params ext traction := by
    intro k
    induction k with
    | zero =>
      obtain ⟨s', h⟩ := hh.single_succeeds hs hc hd hb
      have h' : s.run solver 1 = (.ok (), s') := by rw [Sim.run, if_neg (by norm_num), if_pos rfl]; exact h
      exact ⟨s', by simpa using h', .run hh h'⟩
    | succ k ih =>
      obtain ⟨s', h1, h2⟩ := ih
      obtain ⟨s'', h3⟩ := h2.single_succeeds hs hc hd hb
      have h' : s'.run solver 1 = (.ok (), s'') := by rw [Sim.run, if_neg (by norm_num), if_pos rfl]; exact h3
      refine ⟨s'', ?_, .run h2 h'⟩
      have := C66_compose (solver := solver) (s := s) (a := (k : ℤ) + 1) (b := 1) (by omega) (by omega)
      rw [h1] at this
      push_cast
      rw [this]
      exact h'
  obtain ⟨s', h⟩ := key (n - 1).toNat
  rw [show (((n - 1).toNat : ℕ) : ℤ) + 1 = n by omega] at h
  exact ⟨s', h⟩

/-! ### C65 -/

/-- **C65** is false: with regularization the boundary traction and the external temperature are never used. Simulations created
with different boundary data are the same, so all later runs are the same as well. -/
theorem C65_false (hr : params.regularization ≠ none) (solver : Solver) (it : SetIter) (domain : RectDomain ℝ)
    (ext ext' : ExtTemp) (traction traction' : Traction) :
    Sim.new solver it domain params ext traction = Sim.new solver it domain params ext' traction' := by
  have e1 : ∀ g refined, mechanicalStep g params.mechanicalStepParams refined traction =
      mechanicalStep g params.mechanicalStepParams refined traction' := by
    intro g refined
    rcases h : params.regularization with _ | r
    · exact absurd h hr
    · simp only [mechanicalStep, SimParams.mechanicalStepParams, h]
  have e2 : ∀ g a b c refined, thermalStep g a b c params.thermalStepParams ext refined =
      thermalStep g a b c params.thermalStepParams ext' refined := by
    intro g a b c refined
    rcases h : params.regularization with _ | r
    · exact absurd h hr
    · simp only [thermalStep, SimParams.thermalStepParams, h]
  unfold Sim.new
  simp only [e1, e2]

/-- **C65** (regularized simulations do not call the boundary data): even callables that always raise do not disturb. -/
theorem C65_never_called_false (S : Setup domain params) (hfps : 0 < params.fps) (hr : params.regularization ≠ none)
    (hs : solver.Succeeds) (it : SetIter) (e : PyErr) :
    ∃ s, Sim.new solver it domain params (fun _ => .error e) (fun _ _ _ => .error e) = .ok s :=
  C55_usable_partial S hfps hs it (fun h => absurd h hr)

end

/-! ### examples -/

/-- the parameters of the first example: no regularization -/
noncomputable def exampleParams : SimParams := ⟨1, 1 / 8, 3, 1 / 2, none, none⟩

/-- the parameters of the second example: with regularization -/
noncomputable def exampleParamsReg : SimParams := ⟨1, 1 / 8, 3, 1 / 2, some (1 / 10), some 2⟩

/-- the rectangle of the examples -/
noncomputable def exampleDomain : RectDomain ℝ := ⟨1 / 2, 1, .one .lower⟩

theorem exampleSetup : Setup exampleDomain exampleParams where
  valid := ⟨1, 1 / 8, 3, 1 / 2, none, some 7, (C55_validation_partial _ _ _ _ _ _).1
    ⟨by norm_num, by norm_num, by norm_num, by norm_num, by simp, by rintro x ⟨⟩; norm_num, by simp⟩⟩
  width := le_refl _
  height := by norm_num [exampleParams, exampleDomain]
  fine := by intro n h; cases h

theorem exampleSetupReg : Setup exampleDomain exampleParamsReg where
  valid := ⟨1, 1 / 8, 3, 1 / 2, some (1 / 10), some 2, (C55_validation_partial _ _ _ _ _ _).1
    ⟨by norm_num, by norm_num, by norm_num, by norm_num, by rintro x ⟨⟩; norm_num, by rintro x ⟨⟩; norm_num, by simp⟩⟩
  width := le_refl _
  height := by norm_num [exampleParamsReg, exampleDomain]
  fine := by rintro n ⟨⟩; norm_num [exampleParamsReg]

/-- the boundary data of the examples -/
theorem exampleBoundary : BoundaryDataOk (fun t => .ok (t ^ 2)) (fun t x y => .ok [t + x, y]) :=
  ⟨fun _ _ _ => ⟨_, _, rfl⟩, fun t => ⟨_, sq_nonneg t, rfl⟩⟩

/-- Both examples can be started and run for any number of steps. So the hypotheses `Sim.Healthy`, `Sim.Reachable` and all
contracts of the solver, which appear in C57–C67, can be met together, with and without regularization. -/
theorem example_run (it : SetIter) {params : SimParams} (hp : params = exampleParams ∨ params = exampleParamsReg) {n : ℤ}
    (hn : 0 < n) :
    ∃ s : Sim, s.Healthy staySolver exampleDomain params (fun t => .ok (t ^ 2)) (fun t x y => .ok [t + x, y]) ∧
      s.Reachable staySolver exampleDomain params (fun t => .ok (t ^ 2)) (fun t x y => .ok [t + x, y]) ∧
      (s.steps.length : ℤ) = n + 2 := by
  have S : Setup exampleDomain params := by
    rcases hp with rfl | rfl
    · exact exampleSetup
    · exact exampleSetupReg
  have hf : 0 < params.fps := by rcases hp with rfl | rfl <;> norm_num [exampleParams, exampleParamsReg]
  obtain ⟨-, -, h3, h4, h5, -⟩ := stay_contracts
  obtain ⟨s, hs⟩ := C55_usable_partial S hf h5 it fun _ => exampleBoundary
  have hh := Sim.Healthy.new S hs
  obtain ⟨s', h6, h7⟩ := C66_succeeds hh h5 h4 h3 (fun _ => exampleBoundary) hn
  refine ⟨s', h7, h7.reachable, ?_⟩
  rw [C60_run hh.reachable h6, C60_new S hs]; push_cast; ring

/-- the counterexample to C62 for regularized simulations -/
example (it : SetIter) : ∃ s : Sim, ¬ IsRange s.record.xlims
    {x | ∃ st ∈ s.steps, ∃ v ∈ s.grid.vertices, x = (st.yData.deformed v).1} := by
  obtain ⟨s, h1, -, h2⟩ := example_run it (.inr rfl) (n := 1) (by norm_num)
  refine ⟨s, C62_regularized_false h1 (by simp [exampleParamsReg]) stay_contracts.2.1 ?_⟩
  have : (s.steps.length : ℝ) = 3 := by
    have : s.steps.length = 3 := by omega
    rw [this]; norm_num
  rw [this]; norm_num [exampleParamsReg, exampleDomain]

end Tve
