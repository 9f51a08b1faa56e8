import Verif.Lemmas.Posed
import Verif.Props.Retry

/-!
# C60, C61: recorded steps of simulations in which calls of `run` may have failed
-/

namespace Tve

section
variable {solver : Solver} {domain : RectDomain ℝ} {params : SimParams} {ext : ExtTemp} {traction : Traction} {s : Sim}

/-- **C60** (time stamps after failures). In every simulation, also if calls of `run` have failed, the `k`-th recorded step,
`k ≥ 1`, records the answers to two consecutive problems that contain the boundary traction and the external temperature at time
`(k - 1) / fps`: failed attempts do not advance the time. -/
theorem C60_time_always (hs : s.Reachable solver domain params ext traction) (hreg : params.regularization = none) {k : ℕ}
    (hk : 1 ≤ k) {b : Step} (hb : s.steps[k]? = some b) :
    ∃ i p q, s.calls[i]? = some p ∧ s.calls[i + 1]? = some q ∧ p.IsMech ∧ q.IsTherm ∧
    (solver (s.calls.take i) p).err = none ∧ (solver (s.calls.take (i + 1)) q).err = none ∧
    b.yData.data = p.answer (solver (s.calls.take i) p) ∧ b.thetaData.data = q.answer (solver (s.calls.take (i + 1)) q) ∧
    (∀ v ∈ s.grid.neumann.vertices, ∃ z l x y, s.grid.At v z ∧ traction ((k - 1 : ℝ) / params.fps) z.1 z.2 = .ok l ∧
      l[0]? = some x ∧ l[1]? = some y ∧ p.tractionAt v = some (x, y)) ∧
    ∃ x, ext ((k - 1 : ℝ) / params.fps) = .ok x ∧ q.extTemp = some x := by
  obtain ⟨m0, t0, c, -, -, idx, hl, -, H⟩ := hs.madeFrom
  obtain ⟨k, rfl⟩ : ∃ j, k = j + 1 := ⟨k - 1, by omega⟩
  have hk' := (List.getElem?_eq_some_iff.1 hb).1
  obtain ⟨i, hi⟩ : ∃ i, idx[k]? = some i := ⟨_, List.getElem?_eq_getElem (by omega)⟩
  obtain ⟨m, t, y, θ, M⟩ := H k i b hi hb
  obtain ⟨it, hg⟩ := c.grid
  obtain ⟨Sh, ⟨n, U⟩, F⟩ := c.setup.simShape hg c.refined c.mech0
  obtain ⟨a1, -, -, b1, -, b2, -⟩ := mechanicalStep_facts U F c.mech0
  obtain ⟨y', hy, ht⟩ := c.therm0
  obtain ⟨-, -, -, -, -, b3, -⟩ := thermalStep_cases U F a1.prevY.2 hy a1.prevTheta.2 ht
  have e : ((k + 1 : ℕ) : ℝ) - 1 = k := by push_cast; ring
  rw [e]
  refine ⟨i, m.problem, t.problem, M.mechCall, M.thermCall, m.problem_isMech, t.problem_isTherm, M.mechOk, M.thermOk, ?_, ?_, ?_, ?_⟩
  · rw [M.y]; exact (M.mechWF.load _).2.2.2.1
  · rw [M.theta]; exact (M.thermWF.load _).2.2.2.2.1
  · intro v hv
    have := M.mech.traction traction (by rw [MechStep.static_traction M.mechStatic]; exact (b2 hreg).1) v
      (by rw [MechStep.static_grid M.mechStatic, b1]; exact hv)
    rw [MechStep.static_grid M.mechStatic, b1] at this
    rw [MechStep.problem_tractionAt]
    exact this
  · obtain ⟨x, -, hx, hx'⟩ := M.therm.ext ext (by rw [ThermStep.static_ext M.thermStatic]; exact (b3 hreg).1)
    exact ⟨x, hx, by rw [ThermStep.problem_extTemp]; exact hx'⟩

/-- **C61** (after failures). In every simulation, also if calls of `run` have failed, every recorded step after the first records
the answers of the solver to two consecutive problems that it solved without failure, later steps to later problems: a mechanical
problem that starts at its previous deformation, and a thermal problem with the same previous deformation and temperature, and with
the new deformation. All these problems live on the grid of the simulation, with its number of steps per unit of time. -/
theorem C61_always (hs : s.Reachable solver domain params ext traction) :
    ∃ idx : List ℕ, idx.length + 1 = s.steps.length ∧ idx.Pairwise (fun i j => i + 2 ≤ j) ∧
    ∀ (k : ℕ) (i : ℕ) (b : Step), idx[k]? = some i → s.steps[k + 1]? = some b →
    ∃ p q, s.calls[i]? = some p ∧ s.calls[i + 1]? = some q ∧ p.IsMech ∧ p.y = p.prevY ∧
    q.IsTherm ∧ q.prevY = p.prevY ∧ q.y = b.yData ∧ q.prevTheta = p.prevTheta ∧
    (solver (s.calls.take i) p).err = none ∧ (solver (s.calls.take (i + 1)) q).err = none ∧
    b.yData.data = p.answer (solver (s.calls.take i) p) ∧
    b.thetaData.data = q.answer (solver (s.calls.take (i + 1)) q) ∧
    p.grid = s.grid ∧ q.grid = s.grid ∧ p.fps = params.fps ∧ q.fps = params.fps := by
  obtain ⟨m0, t0, c, -, -, idx, hl, hp, H⟩ := hs.madeFrom
  refine ⟨idx, hl, hp, fun k i b hi hb => ?_⟩
  obtain ⟨m, t, y, θ, M⟩ := H k i b hi hb
  obtain ⟨it, hg⟩ := c.grid
  obtain ⟨Sh, ⟨n, U⟩, F⟩ := c.setup.simShape hg c.refined c.mech0
  obtain ⟨a1, -, -, b1, b2, -⟩ := mechanicalStep_facts U F c.mech0
  obtain ⟨y', hy, ht⟩ := c.therm0
  obtain ⟨-, -, -, b3, b4, -⟩ := thermalStep_cases U F a1.prevY.2 hy a1.prevTheta.2 ht
  refine ⟨m.problem, t.problem, M.mechCall, M.thermCall, m.problem_isMech, ?_, t.problem_isTherm, ?_, ?_, ?_, M.mechOk,
    M.thermOk, ?_, ?_, ?_, ?_, ?_, ?_⟩
  · rw [MechStep.problem_y, MechStep.problem_prevY, M.mech.y, M.mech.prevY]
  · rw [ThermStep.problem_prevY, MechStep.problem_prevY, M.therm.prevY, M.mech.prevY]
  · rw [ThermStep.problem_y]; exact M.therm.y
  · rw [ThermStep.problem_prevTheta, MechStep.problem_prevTheta, M.therm.prevTheta, M.mech.prevTheta]
  · rw [M.y]; exact (M.mechWF.load _).2.2.2.1
  · rw [M.theta]; exact (M.thermWF.load _).2.2.2.2.1
  · rw [MechStep.problem_grid, MechStep.static_grid M.mechStatic, b1]
  · rw [ThermStep.static_grid M.thermStatic, b3]
  · rw [MechStep.static_fps M.mechStatic, b2]; rfl
  · rw [ThermStep.static_fps M.thermStatic, b4]; rfl

/-- **C58** (after failures). In every simulation, also if calls of `run` have failed, every recorded step after the first is within
one search radius of the deformation and temperature that the problems started from whose answers it records. -/
theorem C58_always (hs : s.Reachable solver domain params ext traction) (hb : solver.RespectsBounds) {k : ℕ} {b : Step}
    (hk : s.steps[k + 1]? = some b) :
    ∃ i p q, s.calls[i]? = some p ∧ s.calls[i + 1]? = some q ∧ p.IsMech ∧ q.IsTherm ∧
    b.yData.data = p.answer (solver (s.calls.take i) p) ∧ b.thetaData.data = q.answer (solver (s.calls.take (i + 1)) q) ∧
    List.Forall₂ (fun x z => |z - x| ≤ params.searchRadius) p.prevY.data b.yData.data ∧
    List.Forall₂ (fun x z => |z - x| ≤ params.searchRadius) p.prevTheta.data b.thetaData.data := by
  obtain ⟨m0, t0, c, -, -, idx, hl, -, H⟩ := hs.madeFrom
  have hk' := (List.getElem?_eq_some_iff.1 hk).1
  obtain ⟨i, hi⟩ : ∃ i, idx[k]? = some i := ⟨_, List.getElem?_eq_getElem (by omega)⟩
  obtain ⟨m, t, y, θ, M⟩ := H k i b hi hk
  obtain ⟨r1, r2⟩ := c.searchRadius
  have hr := c.setup.facts.2.1.le
  have hm := M.mech.around
  have ht := M.therm.around
  rw [MechStep.static_searchRadius M.mechStatic, r1] at hm
  rw [ThermStep.static_searchRadius M.thermStatic, r2] at ht
  have e1 : b.yData.data = m.problem.answer (solver (s.calls.take i) m.problem) := by rw [M.y]; exact (M.mechWF.load _).2.2.2.1
  have e2 : b.thetaData.data = t.problem.answer (solver (s.calls.take (i + 1)) t.problem) := by
    rw [M.theta]; exact (M.thermWF.load _).2.2.2.2.1
  refine ⟨i, m.problem, t.problem, M.mechCall, M.thermCall, m.problem_isMech, t.problem_isTherm, e1, e2, ?_, ?_⟩
  · rw [MechStep.problem_prevY, M.mech.prevY, e1]
    exact around_bounds hr hm (hb _ _ M.mechOk)
  · rw [MechStep.problem_prevTheta, M.mech.prevTheta, e2]
    exact around_bounds hr ht (hb _ _ M.thermOk)

/-- **C60** (time after failures). In every simulation the time of the next step is the number of recorded steps minus one, divided by
the number of steps per unit of time: failed attempts do not advance the time. -/
theorem C60_clock (hs : s.Reachable solver domain params ext traction) :
    s.record.currentTime = ((s.steps.length : ℝ) - 1) / params.fps := by
  obtain ⟨m0, t0, c, h, -⟩ := hs.madeFrom
  exact h

end

/-- a simulation whose first `run(1)` fails in the thermal solve and whose second one succeeds: the third recorded step was made
from the problems posed in the second attempt, with the external temperature at time `1 / fps` -/
example (it : SetIter) : ∃ (s s' s'' : Sim) (e : PyErr) (b : Step) (i : ℕ) (p q : Problem),
    s.run (failSolver 0) 1 = (.error e, s') ∧ s'.run (failSolver 0) 1 = (.ok (), s'') ∧ s''.steps[2]? = some b ∧
    s''.calls[i]? = some p ∧ s''.calls[i + 1]? = some q ∧ p.IsMech ∧ q.IsTherm ∧ q.extTemp = some (1 / (exampleParams.fps : ℝ) ^ 2) ∧
    i ≠ 2 := by
  obtain ⟨s, s', s'', e, hnew, h1, h2, -⟩ := C71_retry_false it
  have hs : s.Reachable (failSolver 0) exampleDomain exampleParams _ _ := .new exampleSetup hnew
  have hs' : s'.Reachable (failSolver 0) exampleDomain exampleParams (fun t => .ok (t ^ 2)) (fun t x y => .ok [t + x, y]) := by
    have := hs.run (n := 1)
    rwa [h1] at this
  have hs'' : s''.Reachable (failSolver 0) exampleDomain exampleParams (fun t => .ok (t ^ 2)) (fun t x y => .ok [t + x, y]) := by
    have := hs'.run (n := 1)
    rwa [h2] at this
  have l0 := C60_new exampleSetup hnew
  have l1 := (C67_failed_step hs h1).1
  have l2 := C60_run hs' h2
  have hb : 2 < s''.steps.length := by rw [l1, l0] at l2; push_cast at l2; omega
  obtain ⟨i, p, q, a1, a2, a3, a4, a5, a6, a7, a8, a9, x, a10, a11⟩ :=
    C60_time_always hs'' rfl (k := 2) (by norm_num) (List.getElem?_eq_getElem hb)
  have hx : x = 1 / (exampleParams.fps : ℝ) ^ 2 := by
    have := Except.ok.inj a10
    rw [← this]; norm_num [div_pow]
  have hlen : (s''.calls.take (i + 1)).length = i + 1 := by
    have := (List.getElem?_eq_some_iff.1 a2).1
    rw [List.length_take]; omega
  exact ⟨s, s', s'', e, _, i, p, q, h1, h2, List.getElem?_eq_getElem hb, a1, a2, a3, a4, hx ▸ a11,
    fun h => failSolver_err.1 a6 (by rw [hlen, h])⟩

/-! ### failed thermal solves and the search radius -/

/-- the upper bounds of the variables -/
noncomputable def Problem.upperValues : Problem → Outcome
  | .mechP1 m => ⟨fun i _ => (m.y1.getD i ⟨0, 0, 0, false⟩).ub, fun i _ => (m.y2.getD i ⟨0, 0, 0, false⟩).ub, fun _ => 0, none⟩
  | .mechReg m => ⟨fun i j => ((m.y1.getD i []).getD j ⟨0, 0, 0, false⟩).ub,
      fun i j => ((m.y2.getD i []).getD j ⟨0, 0, 0, false⟩).ub, fun _ => 0, none⟩
  | .thermP1 m => ⟨fun _ _ => 0, fun _ _ => 0, fun i => (m.theta.getD i ⟨0, 0, 0, false⟩).ub, none⟩
  | .thermReg m => ⟨fun _ _ => 0, fun _ _ => 0, fun i => (m.theta.getD i ⟨0, 0, 0, false⟩).ub, none⟩

theorem mapIdx_upper (l : List VarData) :
    (l.mapIdx fun i _ => (l.getD i ⟨0, 0, 0, false⟩).ub) = l.map VarData.ub := by
  apply List.ext_getElem
  · simp
  · intro i h1 h2
    have h3 : i < l.length := by simpa using h1
    simp [List.getD, h3]

theorem mapIdx2_upper (l : List (List VarData)) :
    (l.mapIdx fun i row => row.mapIdx fun j _ => ((l.getD i []).getD j ⟨0, 0, 0, false⟩).ub) =
      l.map (List.map VarData.ub) := by
  apply List.ext_getElem
  · simp
  · intro i h1 h2
    have h3 : i < l.length := by simpa using h1
    simp only [List.getElem_mapIdx, List.getElem_map]
    rw [show l.getD i [] = l[i] by simp [List.getD, h3]]
    exact mapIdx_upper _

theorem Problem.answer_upper (p : Problem) : p.answer p.upperValues = p.unknowns.map VarData.ub := by
  rcases p with m | m | m | m
  · simp only [Problem.answer, Problem.upperValues, Problem.unknowns, mapIdx_upper, interleave_map]
  · simp only [Problem.answer, Problem.upperValues, Problem.unknowns, mapIdx2_upper, List.map_flatten, interleave_map]
  · simp only [Problem.answer, Problem.upperValues, Problem.unknowns, mapIdx_upper]
  · simp only [Problem.answer, Problem.upperValues, Problem.unknowns, mapIdx_upper]

open Classical in
/-- a solver that moves all components of the deformation by the search radius, keeps the temperatures, and whose fourth call
fails -/
noncomputable def driftSolver : Solver := fun cs p =>
  if p.IsMech then p.upperValues
  else { p.currentValues with err := if cs.length ≠ 3 ∧ p.Feasible then none else some .solverError }

theorem drift_mech {p : Problem} (h : p.IsMech) (cs : List Problem) :
    (driftSolver cs p).err = none ∧ p.answer (driftSolver cs p) = p.unknowns.map VarData.ub := by
  rw [driftSolver, if_pos h]
  exact ⟨by cases p <;> rfl, p.answer_upper⟩

theorem drift_therm {p : Problem} (h : p.IsTherm) (cs : List Problem) :
    ((driftSolver cs p).err = none ↔ cs.length ≠ 3 ∧ p.Feasible) ∧ p.answer (driftSolver cs p) = p.unknowns.map VarData.value := by
  have hn : ¬p.IsMech := by cases p <;> first | exact id | cases h
  rw [driftSolver, if_neg hn]
  exact ⟨by by_cases hf : cs.length ≠ 3 ∧ p.Feasible <;> simp [hf], p.answer_current _⟩

theorem drift_contracts : driftSolver.RespectsBounds ∧ driftSolver.RespectsDomain := by
  refine ⟨fun cs p h => ?_, fun cs p ht h => ?_⟩
  · have hp : p.IsMech ∨ p.IsTherm := by cases p <;> first | exact .inl trivial | exact .inr trivial
    rcases hp with hp | hp
    · rw [(drift_mech hp cs).2]
      exact List.forall₂_map_right_iff.2 (List.forall₂_same.2 fun v _ h => ⟨h, le_refl _⟩)
    · obtain ⟨h1, h2⟩ := drift_therm hp cs
      rw [h2]
      exact forall₂_map_value fun v hv _ => (h1.1 h).2.1 v hv
  · obtain ⟨h1, h2⟩ := drift_therm ht cs
    rw [h2]
    intro x hx
    obtain ⟨v, hv, rfl⟩ := List.mem_map.1 hx
    exact (h1.1 h).2.2.1 ht v hv

/-- the starting values of all problems posed -/
theorem posed_around {solver : Solver} {domain : RectDomain ℝ} {params : SimParams} {ext : ExtTemp} {traction : Traction} {s : Sim}
    (hs : s.Reachable solver domain params ext traction) {p : Problem} (hp : p ∈ s.calls) :
    (p.IsMech → List.Forall₂ (fun (v : VarData) x => v.Around x params.searchRadius) p.unknowns p.prevY.data) ∧
    (p.IsTherm → List.Forall₂ (fun (v : VarData) x => v.Around x params.searchRadius) p.unknowns p.prevTheta.data ∧
      ∀ x ∈ p.prevTheta.data, 0 ≤ x) := by
  obtain ⟨m0, t0, c, -, H⟩ := hs.posed (fun _ _ => True) (fun _ _ _ _ => trivial) (fun _ _ _ _ _ _ _ _ _ _ _ _ _ _ _ => trivial)
  obtain ⟨r1, r2⟩ := c.searchRadius
  cases H p hp with
  | mech m w st fx rd hn _ =>
    have := rd.around
    rw [MechStep.static_searchRadius st, r1] at this
    refine ⟨fun _ => ?_, fun h => ?_⟩
    · rw [MechStep.problem_prevY, rd.prevY]; exact this
    · cases m <;> exact h.elim
  | therm t w st rd _ _ =>
    have := rd.around
    rw [ThermStep.static_searchRadius st, r2] at this
    refine ⟨fun h => ?_, fun _ => ?_⟩
    · cases t <;> exact h.elim
    · rw [ThermStep.problem_prevTheta, rd.prevTheta]; exact ⟨this, rd.nonneg⟩

/-- **C71** (search radius). After a failed thermal solve the next recorded step can be farther than the search radius from the last one,
although the solver respects the bounds of all variables: here every component of the deformation moves by twice the search
radius. -/
theorem C71_search_radius (it : SetIter) : ∃ (solver : Solver) (s s' s'' : Sim) (e : PyErr) (a b : Step),
    solver.RespectsBounds ∧ solver.RespectsDomain ∧
    Sim.new solver it exampleDomain exampleParams (fun t => .ok (t ^ 2)) (fun t x y => .ok [t + x, y]) = .ok s ∧
    s.run solver 1 = (.error e, s') ∧ s'.run solver 1 = (.ok (), s'') ∧ s''.steps[1]? = some a ∧ s''.steps[2]? = some b ∧
    a.yData.data ≠ [] ∧ List.Forall₂ (fun x z => z = x + 2 * exampleParams.searchRadius) a.yData.data b.yData.data := by
  have S := exampleSetup
  have rpos : 0 ≤ exampleParams.searchRadius := S.facts.2.1.le
  obtain ⟨s, hnew⟩ := Sim.new_ok (it := it) (solver := driftSolver) (ext := fun t => .ok (t ^ 2))
    (traction := fun t x y => .ok [t + x, y]) S (by norm_num [exampleParams])
    (fun _ _ _ m _ _ _ => (drift_mech m.problem_isMech []).1)
    (fun m t _ _ _ rd hr => (drift_therm t.problem_isTherm _).1.2 ⟨by simp, rd.feasible (by rw [hr]; exact rpos)⟩)
    (fun _ _ _ => ⟨_, rfl, by simp⟩) (fun _ => ⟨_, le_refl _, by simp⟩)
  have hs : s.Reachable driftSolver exampleDomain exampleParams (fun t => .ok (t ^ 2)) (fun t x y => .ok [t + x, y]) := .new S hnew
  have len0 := C60_new S hnew
  have R : s.Resumable driftSolver exampleDomain exampleParams (fun t => .ok (t ^ 2)) (fun t x y => .ok [t + x, y]) := .new S hnew
  have calls0 : s.calls.length = 2 := by
    have := C61_calls (Sim.Healthy.new S hnew)
    omega
  -- the first attempt
  obtain ⟨last, hl, hy, hθ⟩ := R.synced
  obtain ⟨m0, t0, c⟩ := hs.context
  have lastmem : last ∈ s.steps := List.mem_of_getLast? hl
  have θ0 : ∀ x ∈ s.therm.theta.data, 0 ≤ x := by
    intro x hx
    rw [hθ] at hx
    exact C59_nonneg hs drift_contracts.2 lastmem hx
  have run_eq : ∀ s : Sim, s.run driftSolver 1 = Sim.runSingleStep driftSolver s := fun s => by
    rw [Sim.run, if_neg (by norm_num), if_pos rfl]
  rcases hr : Sim.runSingleStep driftSolver s with ⟨res, s'⟩
  rcases runSingle_posed c θ0 (fun _ => exampleBoundary) hr with ⟨p, hp, -, h1, -⟩ | ⟨p, q, hp, hq, h1, -, h2⟩
  · exact absurd (drift_mech hp _).1 h1
  rcases res with e | ⟨⟩
  swap
  · exact absurd (by simp [calls0]) ((drift_therm hq _).1.1 (h2.1 rfl)).1
  have hs' : s'.Reachable driftSolver exampleDomain exampleParams (fun t => .ok (t ^ 2)) (fun t x y => .ok [t + x, y]) := by
    have := hs.run (n := 1)
    rwa [run_eq, hr] at this
  have k1 : s.run driftSolver 1 = (.error e, s') := (run_eq s).trans hr
  have pmem : p ∈ s'.calls := by rw [h1]; simp
  have qmem : q ∈ s'.calls := by rw [h1]; simp
  obtain ⟨last', hl', -, hpy, -, hpθ⟩ := C71_retry_partial R (n := 1) (p := p) (by rw [k1]; simp [h1])
  cases hl.symm.trans hl'
  have up : List.Forall₂ (fun x z => z = x + exampleParams.searchRadius) last.yData.data
      (p.answer (driftSolver s.calls p)) := by
    rw [(drift_mech hp _).2, ← hpy]
    exact List.forall₂_map_right_iff.2 (((posed_around hs' pmem).1 hp).flip.imp fun x v h => h.2.2)
  have qθ : q.answer (driftSolver (s.calls ++ [p]) q) = q.prevTheta.data := by
    rw [(drift_therm hq _).2]
    exact values_of_around ((posed_around hs' qmem).2 hq).1
  have θ1 : ∀ x ∈ s'.therm.theta.data, 0 ≤ x := by
    have T := Sim.runSingle_trace driftSolver c.wf
    rw [hr] at T
    simp only at T
    cases T with
    | early upd calls => rw [calls] at h1; simp at h1
    | mech m ready calls => rw [calls] at h1; simp at h1
    | between m ready calls => rw [calls] at h1; simp at h1
    | therm m t ready calls err err' y theta =>
      rw [calls] at h1
      simp only [List.append_cancel_left_eq, List.cons.injEq, and_true] at h1
      obtain ⟨rfl, rfl⟩ := h1
      rw [theta, qθ]
      exact ((posed_around hs' qmem).2 hq).2
  -- the second attempt
  obtain ⟨m1, t1, c1⟩ := hs'.context
  rcases hr' : Sim.runSingleStep driftSolver s' with ⟨res, s''⟩
  have hs'' : s''.Reachable driftSolver exampleDomain exampleParams (fun t => .ok (t ^ 2)) (fun t x y => .ok [t + x, y]) := by
    have := hs'.run (n := 1)
    rwa [run_eq, hr'] at this
  rcases runSingle_posed c1 θ1 (fun _ => exampleBoundary) hr' with ⟨r, hrm, -, h3, -⟩ | ⟨r, r', hrm, hrt, h3, -, h4⟩
  · exact absurd (drift_mech hrm _).1 h3
  have calls1 : s'.calls.length = 4 := by rw [h1]; simp [calls0]
  have r'mem : r' ∈ s''.calls := by rw [h3]; simp
  have rmem : r ∈ s''.calls := by rw [h3]; simp
  have ne3 : (s'.calls ++ [r]).length ≠ 3 := by simp [calls1]
  have feas : r'.Feasible := by
    obtain ⟨m2, t2, c2, -, H⟩ := hs''.posed (fun _ _ => True) (fun _ _ _ _ => trivial) (fun _ _ _ _ _ _ _ _ _ _ _ _ _ _ _ => trivial)
    generalize r' = r2 at hrt r'mem
    cases H r2 r'mem with
    | mech m w st fx rd hn _ => cases m <;> exact hrt.elim
    | therm t w st rd _ _ => exact rd.feasible (by rw [ThermStep.static_searchRadius st, c2.searchRadius.2]; exact rpos)
  obtain rfl : res = .ok () := h4.2 ((drift_therm hrt _).1.2 ⟨ne3, feas⟩)
  have k2 : s'.run driftSolver 1 = (.ok (), s'') := (run_eq s').trans hr'
  obtain ⟨-, hry, -⟩ := C71_thermal_failure hs k1 h1 (n := 1) (r := r) (by rw [k2]; simp [h3])
  have up' : List.Forall₂ (fun x z => z = x + exampleParams.searchRadius) (p.answer (driftSolver s.calls p))
      (r.answer (driftSolver s'.calls r)) := by
    rw [(drift_mech hrm _).2, ← hry]
    exact List.forall₂_map_right_iff.2 (((posed_around hs'' rmem).1 hrm).flip.imp fun x v h => h.2.2)
  -- the recorded steps
  have st1 := (C67_failed_step hs k1).1
  have len2 : s''.steps.length = 3 := by
    have := C60_run hs' k2
    rw [st1, len0] at this
    push_cast at this
    omega
  have pre : s''.steps[1]? = some last := by
    have h := C66_prefix hs' (n := 1)
    rw [k2, st1] at h
    rw [List.getLast?_eq_getElem?, len0] at hl
    obtain ⟨l, hl'⟩ := h
    simp only at hl'
    rw [← hl', List.getElem?_append_left (by omega)]
    exact hl
  obtain ⟨idx, a1, a2, H⟩ := C61_always hs''
  have hb : 2 < s''.steps.length := by omega
  have hi1 : idx[1]? = some idx[1] := List.getElem?_eq_getElem (by omega)
  have hi0 : idx[0]? = some idx[0] := List.getElem?_eq_getElem (by omega)
  obtain ⟨p2, q2, b1, b2, b3, -, q2t, -, -, -, -, b4, b5, -⟩ := H 1 _ _ hi1 (List.getElem?_eq_getElem hb)
  have gap : idx[0] + 2 ≤ idx[1] := List.pairwise_iff_getElem.1 a2 0 1 (by omega) (by omega) (by omega)
  have hlt : idx[1] + 1 < s''.calls.length := (List.getElem?_eq_some_iff.1 b2).1
  have calls2 : s''.calls.length = 6 := by rw [h3]; simp [calls1]
  generalize idx[1] = i at b1 b2 b4 b5 gap hlt
  have call3 : s''.calls[3]? = some q := by
    rw [h3, h1, List.getElem?_append_left (by simp [calls0]), List.getElem?_append_right (by omega), calls0]; rfl
  have call4 : s''.calls[4]? = some r := by
    rw [h3, List.getElem?_append_right (by omega), calls1]; rfl
  have hi : i = 4 := by
    have n2 : i ≠ 2 := by
      rintro rfl
      have := ((drift_therm q2t _).1.1 b4).1
      rw [List.length_take] at this
      omega
    have n3 : i ≠ 3 := by
      rintro rfl
      rw [call3] at b1
      cases b1
      cases q <;> first | exact hq.elim | exact b3.elim
    omega
  subst hi
  rw [call4] at b1
  cases b1
  have tk : s''.calls.take 4 = s'.calls := by rw [h3, List.take_append_of_le_length (by omega), List.take_of_length_le (by omega)]
  rw [tk] at b5
  refine ⟨driftSolver, s, s', s'', e, last, _, drift_contracts.1, drift_contracts.2, hnew, k1, k2, pre, List.getElem?_eq_getElem hb, ?_, ?_⟩
  · obtain ⟨it', hg⟩ := c.grid
    obtain ⟨Sh, ⟨n, U⟩, F⟩ := c.setup.simShape hg c.refined c.mech0
    have hsh := (mechanicalStep_facts U F c.mech0).2.2.2.2.2.1 rfl
    obtain ⟨h2, h3⟩ := (c.has last lastmem).1
    intro h
    have := U.pos
    rw [NdArray.Ok, h, h2, hsh.2.2.1] at h3
    simp at h3
    omega
  · rw [b5]
    have key : ∀ {xs ys zs : List ℝ}, List.Forall₂ (fun x z => z = x + exampleParams.searchRadius) xs ys →
        List.Forall₂ (fun x z => z = x + exampleParams.searchRadius) ys zs →
        List.Forall₂ (fun x z => z = x + 2 * exampleParams.searchRadius) xs zs := by
      intro xs ys zs h1 h2
      induction h1 generalizing zs with
      | nil => cases h2; exact .nil
      | cons h _ ih =>
        cases h2 with
        | cons h' t' => exact .cons (by rw [h', h]; ring) (ih t')
    exact key up up'

end Tve
