import Verif.Props.Optimal
import Verif.Props.SimState
import Verif.Props.Dirichlet
import Verif.Props.Steps
import Verif.Props.Recorded

/-!
# Concrete cases for the theorems about simulations

A simulation with nonzero boundary data in which every step is optimal: the rectangle `1/2 × 1`, fixed at its lower side,
scale `1/2` (1 × 2 cells, 6 vertices), `fps = 3`, run for four steps, without and with regularization. The examples
show that it meets the hypotheses of C56–C64, C66, C72, C73, and what the theorems say about it.
-/

namespace Tve

/-- the external temperature of the example -/
noncomputable def exampleExt : ExtTemp := fun t => .ok (t ^ 2)

/-- the traction of the example -/
noncomputable def exampleTraction : Traction := fun t x y => .ok [t + x, y]

/-- a simulation of four steps after the initial ones, whose solver meets all contracts and is optimal in every step -/
structure Witness (params : SimParams) (leg : LegGauss) (q : GaussRule ℝ) (solver : Solver) (s : Sim) : Prop where
  rule : GaussRule.new leg 1 = .ok q
  fixed : solver.RespectsFixed
  bounds : solver.RespectsBounds
  dom : solver.RespectsDomain
  constraints : solver.RespectsConstraints
  succeeds : solver.Succeeds
  decreases : solver.Decreases leg
  healthy : s.Healthy solver exampleDomain params exampleExt exampleTraction
  steps : s.steps.length = 6
  calls : s.calls.length = 10
  optimal : ∀ (k : ℕ) (p : Problem), s.calls[k]? = some p → p.IsOptimal leg (solver (s.calls.take k) p)

theorem witness_exists (it : SetIter) {params : SimParams} (hp : params = exampleParams ∨ params = exampleParamsReg) :
    ∃ leg q solver s, Witness params leg q solver s := by
  have S : Setup exampleDomain params := by
    rcases hp with rfl | rfl
    · exact exampleSetup
    · exact exampleSetupReg
  have hf : 0 < params.fps := by rcases hp with rfl | rfl <;> norm_num [exampleParams, exampleParamsReg]
  have hq := gauss_new_ok (lg := fun _ => .ok ([0], [2])) (n := 1) (P := [0]) (W := [2]) rfl
  obtain ⟨solver, h1, h2, h3, h4, h5, h6, h7⟩ := C78_optimal_solver _ hq
  obtain ⟨s, hs⟩ := C55_usable_partial S hf h5 it fun _ => exampleBoundary
  have hh := Sim.Healthy.new S hs
  obtain ⟨s', h8, h9⟩ := C66_succeeds hh h5 h4 h3 (fun _ => exampleBoundary) (n := 4) (by norm_num)
  have hl : s'.steps.length = 6 := by
    have := C60_run hh.reachable h8
    rw [C60_new S hs] at this
    push_cast at this
    omega
  have hc := C61_calls h9
  exact ⟨_, _, solver, s', hq, h1, h2, h3, h4, h5, h6, h9, hl, by omega, h7 h9.reachable⟩

variable {params : SimParams} {leg : LegGauss} {q : GaussRule ℝ} {solver : Solver} {s : Sim}

/-- the grid of the example: six vertices, the two lower ones are fixed -/
theorem Witness.grid (W : Witness params leg q solver s) (hp : params = exampleParams ∨ params = exampleParamsReg) :
    s.grid.vertices = [0, 1, 2, 3, 4, 5] ∧ s.grid.At 0 (0, 0) ∧ s.grid.At 1 (1 / 2, 0) ∧ s.grid.At 5 (1 / 2, 1) ∧
      0 ∈ s.grid.dirichlet.vertices ∧ 1 ∈ s.grid.dirichlet.vertices ∧ (0, 1) ∈ s.grid.dirichlet.edges ∧
      5 ∈ s.grid.neumann.vertices := by
  obtain ⟨m0, t0, c, -⟩ := W.healthy.history
  obtain ⟨it, hg⟩ := c.grid
  have hs : params.scale = 1 / 2 := by rcases hp with rfl | rfl <;> rfl
  rw [hs] at hg
  have hw : (1 / 2 : ℝ) ≤ exampleDomain.width := by norm_num [exampleDomain]
  have hh : (1 / 2 : ℝ) ≤ exampleDomain.height := by norm_num [exampleDomain]
  have cw : cells exampleDomain.width (1 / 2) = 1 := by
    rw [cells, Nat.floor_eq_iff (by norm_num [exampleDomain])]; norm_num [exampleDomain]
  have ch : cells exampleDomain.height (1 / 2) = 2 := by
    rw [cells, Nat.floor_eq_iff (by norm_num [exampleDomain])]; norm_num [exampleDomain]
  have h0 : (0 : ℝ) < 1 / 2 := by norm_num
  have hat (v : Vertex) (q : ℝ × ℝ) := C10_points (h0.le.trans hw) (h0.le.trans hh) h0 hg v q
  rw [cw, ch] at hat
  have a0 : s.grid.At 0 (0, 0) := (hat _ _).2 ⟨0, 0, by norm_num, by norm_num, by norm_num, by norm_num⟩
  have a1 : s.grid.At 1 (1 / 2, 0) := (hat _ _).2 ⟨1, 0, by norm_num, by norm_num, by norm_num, by norm_num⟩
  have a5 : s.grid.At 5 (1 / 2, 1) := (hat _ _).2 ⟨1, 2, by norm_num, by norm_num, by norm_num, by norm_num⟩
  obtain ⟨g', nh, nv, rfl, rfl, hg', hv, -, -, -⟩ := C09_grid_counts it exampleDomain (h0.le.trans hw) (h0.le.trans hh) h0
  rw [hg] at hg'
  cases hg'
  rw [cw, ch] at hv
  have hD := (C14_dirichlet_vertices h0 hw hh hg).2.1
  have hN := (C15_neumann_vertices_partial h0 hw hh hg).2.1
  have hB := (C12_boundary_vertices h0 hw hh hg).2.1
  have ho : exampleDomain.fix.options = [.lower] := rfl
  rw [ho] at hD hN
  obtain ⟨ts, R⟩ := rectSpec_unique (h0.le.trans hw) (h0.le.trans hh) h0 hg
  rw [cw, ch] at R
  have hb : (0, 1) ∈ s.grid.boundary.edges := by
    rw [R.boundary]
    simp only
    decide
  refine ⟨hv, a0, a1, a5, (hD 0).2 ⟨_, a0, .lower, by simp, rfl⟩, (hD 1).2 ⟨_, a1, .lower, by simp, rfl⟩, ?_,
    (hN 5).2 ⟨(hB 5).2 ⟨_, a5, ?_⟩, ?_⟩⟩
  · exact (C13_fixed_sides (h0.le.trans hw) (h0.le.trans hh) h0 hg hb).2 ⟨.lower, by simp [ho], _, _, a0, a1, rfl, rfl⟩
  · rw [ch]; norm_num
  · intro q _ f hf f' hf' _ _
    rw [List.mem_singleton.1 hf, List.mem_singleton.1 hf']

/-! ### what the theorems say about the example -/

/-- C57, C58, C59, C63: in all six steps the lower vertices are at rest, in each step no datum moves by more than `1/8`,
temperatures are nonnegative -/
example (W : Witness params leg q solver s) (hp : params = exampleParams ∨ params = exampleParamsReg) :
    (∀ st ∈ s.steps, st.yData.deformed 0 = (0, 0) ∧ st.yData.deformed 1 = (1 / 2, 0)) ∧
    (∀ k < 5, ∃ a b, s.steps[k]? = some a ∧ s.steps[k + 1]? = some b ∧
      List.Forall₂ (fun x z => |z - x| ≤ 1 / 8) a.yData.data b.yData.data ∧
      List.Forall₂ (fun x z => |z - x| ≤ 1 / 8) a.thetaData.data b.thetaData.data) ∧
    (∀ st ∈ s.steps, ∀ x ∈ st.thetaData.data, 0 ≤ x) := by
  obtain ⟨-, a0, a1, -, d0, d1, -, -⟩ := W.grid hp
  have hr : params.searchRadius = 1 / 8 := by rcases hp with rfl | rfl <;> rfl
  refine ⟨fun st hst => ⟨C57_fixed_boundary W.healthy.reachable W.fixed hst d0 a0,
    C57_fixed_boundary W.healthy.reachable W.fixed hst d1 a1⟩, fun k hk => ?_,
    fun st hst x hx => C59_nonneg W.healthy.reachable W.dom hst hx⟩
  have h1 : k < s.steps.length := by rw [W.steps]; omega
  have h2 : k + 1 < s.steps.length := by rw [W.steps]; omega
  have h := C58_step W.healthy W.bounds (List.getElem?_eq_getElem h1) (List.getElem?_eq_getElem h2)
  rw [hr] at h
  exact ⟨_, _, List.getElem?_eq_getElem h1, List.getElem?_eq_getElem h2, h⟩

/-- C57: the lower vertices also stay fixed when the recorded deformation is evaluated -/
example (W : Witness params leg q solver s) (hp : params = exampleParams ∨ params = exampleParamsReg) :
    ∀ st ∈ s.steps, st.y.call (1 / 2) 0 = .ok (vecOf ![1 / 2, 0]) := by
  obtain ⟨-, a0, a1, -, d0, d1, -, -⟩ := W.grid hp
  intro st hst
  exact C57_evaluated W.healthy.reachable W.fixed (by rcases hp with rfl | rfl <;> norm_num [exampleParams, exampleParamsReg])
    hst d1 a1

/-- C60, without regularization: the traction of the third step (at time `2/3`) at the vertex `5`, which lies at
`(1/2, 1)`, is `(2/3 + 1/2, 1)`; the external temperature is `4/9` -/
example (W : Witness exampleParams leg q solver s) : ∃ p q, s.calls[4]? = some p ∧ s.calls[5]? = some q ∧
    p.tractionAt 5 = some (2 / 3 + 1 / 2, 1) ∧ q.extTemp = some ((2 / 3) ^ 2) := by
  obtain ⟨-, -, -, a5, -, -, -, n5⟩ := W.grid (.inl rfl)
  obtain ⟨p, q, h1, h2, -, -, h3, x, h4, h5⟩ := C60_time W.healthy rfl (k := 3) (by norm_num) (by rw [W.steps]; norm_num)
  obtain ⟨z, l, a, b, h6, h7, h8, h9, h10⟩ := h3 5 n5
  obtain rfl := At.unique h6 a5
  refine ⟨p, q, h1, h2, ?_, ?_⟩
  · rw [h10]
    cases h7
    cases h8
    cases h9
    norm_num [exampleParams]
  · rw [h5]
    cases h4
    norm_num [exampleParams]

/-- C61: the fourth mechanical problem starts from step 3, its solution is the deformation of step 4 -/
example (W : Witness params leg q solver s) : ∃ a b p, s.steps[3]? = some a ∧ s.steps[4]? = some b ∧
    s.calls[6]? = some p ∧ p.IsMech ∧ p.prevY = a.yData ∧ p.prevTheta = a.thetaData ∧
    b.yData.data = p.answer (solver (s.calls.take 6) p) ∧ p.IsOptimal leg (solver (s.calls.take 6) p) := by
  have h1 : 3 < s.steps.length := by rw [W.steps]; norm_num
  have h2 : 4 < s.steps.length := by rw [W.steps]; norm_num
  obtain ⟨p, q, h3, -, h4, h5, -, h6, -, -, -, -, h7, -⟩ :=
    C61_staggered W.healthy (List.getElem?_eq_getElem h1) (List.getElem?_eq_getElem h2)
  exact ⟨_, _, p, List.getElem?_eq_getElem h1, List.getElem?_eq_getElem h2, h3, h4, h5, h6, h7, W.optimal _ _ h3⟩

/-- C62: the largest temperature is recorded; without regularization the plot limits are the range of the positions -/
example (W : Witness exampleParams leg q solver s) :
    IsGreatest {x | ∃ st ∈ s.steps, x ∈ st.thetaData.data} s.maxTemp ∧
    IsRange s.record.xlims {x | ∃ st ∈ s.steps, ∃ v ∈ s.grid.vertices, x = (st.yData.deformed v).1} :=
  ⟨C62_max_temp_recorded W.healthy.reachable W.dom, (C62_limits_partial W.healthy.reachable rfl).1⟩

/-- C64: with regularization all points of the fixed edge stay fixed, not only its two vertices -/
example (W : Witness exampleParamsReg leg q solver s) {t : ℝ} (h0 : 0 ≤ t) (h1 : t ≤ 1) :
    ∀ st ∈ s.steps, (⟨st.y.y1.base, st.y.y2.base⟩ : Deformation).onEdge (0, 1) t = .ok (vec2 ((1 - t) / 2, 0)) := by
  obtain ⟨-, a0, a1, -, -, -, d, -⟩ := W.grid (.inr rfl)
  intro st hst
  have h := (C64_simulation W.healthy.reachable W.constraints (by simp [exampleParamsReg]) hst d a0 a1 h0 h1).1
  rw [h]
  congr 2
  ext <;> simp [edgePoint]
  ring

/-- C66: the run of four steps is a run of one step followed by a run of three steps -/
example (s : Sim) : s.run solver 4 = match s.run solver 1 with
    | (.ok _, s') => s'.run solver 3
    | (.error e, s') => (.error e, s') := C66_compose (a := 1) (b := 3) (by norm_num) (by norm_num) s

/-- C56: a mechanical step of the example, with the data of a recorded step assigned to it; and an array of another shape -/
example (W : Witness params leg q solver s) : ∃ m : MechStep, m.Reachable ∧ (∃ st ∈ s.steps, ∃ m',
    m.updatePrevY st.yData = (.ok (), m') ∧ m'.prevY = st.yData ∧ m'.y = st.yData) ∧
    m.updatePrevY ⟨[7], [0, 0, 0, 0, 0, 0, 0]⟩ = (.error .valueError, m) := by
  obtain ⟨m0, t0, c, -⟩ := W.healthy.history
  obtain ⟨it, hg⟩ := c.grid
  have G : LibraryGrid s.grid _ _ params.scale := LibraryGrid.grid c.setup.facts.2.2.2.1 c.setup.width c.setup.height hg
  obtain ⟨st, hst⟩ := List.exists_mem_of_length_pos (l := s.steps) (by rw [W.steps]; norm_num)
  obtain ⟨nx, ny, k, ph, pn, -, -, -, -, E, -⟩ := step_grids W.healthy.reachable hst
  have F : RefinedOk s.refined := fun r hr => ⟨_, _, _, by rw [hr] at E; exact E⟩
  have R := MechStep.Reachable.new G F c.mech0
  obtain ⟨m', h1, h2, h3, -⟩ := C56_mech_prev_y R (c.has st hst).1
  refine ⟨m0, R, ⟨st, hst, m', h1, h2, h3⟩, C56_mech_prev_y_shape R ?_⟩
  cases m0 <;> simp [MechStep.yShape]

end Tve
