import Verif.Lemmas.ReorderSim
import Verif.Props.Grid
import Verif.Props.Usable
import Verif.Props.Sample

/-!
# C82: the iteration order of sets and the spelling of `fix` do not influence results

Python iterates over sets in an order that is not specified, and the boundary lists of a grid are built from sets.
`Grid.Reordered`, `Problem.Same`, `Step.Same` and `Sim.Same` (`Spec/Reorder.lean`) say that two grids, problems, recorded
steps or simulations agree in everything but the order of these lists. Numbers are real numbers: sums of floats in
another order may differ in the last digits.
-/

namespace Tve

/-- **C82** (grids). Two grids of the same rectangle at the same scale with the same fixed sides agree except for the order of
their boundary lists, whatever the iteration order of sets and however `fix` is spelled. -/
theorem C82_grid {it it' : SetIter} {w h s : ℝ} {fix fix' : Fix} {g g' : Grid ℝ} (hs : 0 < s) (hw : s ≤ w) (hh : s ≤ h)
    (hg : (RectDomain.mk w h fix).grid it s = .ok g) (hg' : (RectDomain.mk w h fix').grid it' s = .ok g')
    (hfix : fix.SameSides fix') : g.Reordered g' := by
  obtain ⟨h1, h2, h3, h4, h5, h6, h7, h8, h9⟩ := C13_order_irrelevant (hs.le.trans hw) (hs.le.trans hh) hs hg hg' hfix
  obtain ⟨ts, R⟩ := rectSpec_unique (d := ⟨w, h, fix⟩) (hs.le.trans hw) (hs.le.trans hh) hs hg
  obtain ⟨ts', R'⟩ := rectSpec_unique (d := ⟨w, h, fix'⟩) (hs.le.trans hw) (hs.le.trans hh) hs hg'
  obtain ⟨n1, m1, -, -⟩ := C15_neumann_vertices_partial hs hw hh hg
  obtain ⟨n2, m2, -, -⟩ := C15_neumann_vertices_partial hs hw hh hg'
  refine ⟨h1, h2, h3, h4, R.mean.trans R'.mean.symm, ⟨h5, h6 ▸ .refl _⟩, ⟨h9, h7⟩, ⟨?_, h8⟩⟩
  have hAt : ∀ v q, g.At v q ↔ g'.At v q := fun v q => by unfold Grid.At; rw [h2]
  have known : ∀ {f : FixOption} {q}, OnSide (cells w s * s) (cells h s * s) f q → ∀ st, f ≠ .unknown st := by
    rintro f q ho st rfl; exact ho
  refine (List.perm_ext_iff_of_nodup n1 n2).2 fun v => ?_
  rw [m1, m2, h5.mem_iff]
  refine and_congr_right fun _ => ?_
  constructor
  · intro H q hq f hf f' hf' ho ho'
    exact H q ((hAt v q).2 hq) f ((hfix f (known ho)).2 hf) f' ((hfix f' (known ho')).2 hf') ho ho'
  · intro H q hq f hf f' hf' ho ho'
    exact H q ((hAt v q).1 hq) f ((hfix f (known ho)).1 hf) f' ((hfix f' (known ho')).1 hf') ho ho'

/-- **C82** (refinement). Refinements of such grids by the same factor again agree except for the order of the boundary lists,
and if one raises, the other raises the same exception; the domain object passed to `refine` does not matter. -/
theorem C82_refine {D D' : RectDomain ℝ} {g g' : Grid ℝ} (h : g.Reordered g') (k : ℤ) :
    (∀ r, D.refine g k = .ok r → ∃ r', D'.refine g' k = .ok r' ∧ r.Reordered r') ∧
    (∀ e, D.refine g k = .error e → D'.refine g' k = .error e) := by
  have hr := refine_rel (D := D) (D' := D') h k
  refine ⟨fun r e => hr.ok_left e, fun e he => ?_⟩
  rw [he] at hr
  generalize D'.refine g' k = Y at hr
  cases hr
  rfl

/-- **C82** (problems). Two problems which agree except for the order of boundary lists have the same unknowns, the same
objective, the same constraints and the same optimal solutions. -/
theorem C82_problem {p p' : Problem} (h : p.Same p') (leg : LegGauss) :
    p.unknowns = p'.unknowns ∧ (∀ a, p.objective leg = .ok a ↔ p'.objective leg = .ok a) ∧
    (p.ConstraintsHold ↔ p'.ConstraintsHold) ∧ (∀ o, p.Admits o ↔ p'.Admits o) ∧
    (∀ o, p.IsOptimal leg o ↔ p'.IsOptimal leg o) ∧ ∀ o, (p.load o).Same (p'.load o) :=
  ⟨h.unknowns, fun a => (h.objective leg).ok_iff a, h.constraintsHold, h.admits, h.isOptimal leg, h.load⟩

/-- **C82** (optimal solvers). A solver that chooses among the optimal solutions does not see the order of the boundary
lists. -/
theorem C82_optimal_solver (leg : LegGauss) :
    (optimalSolver leg).OrderBlind ∧
    ∀ (cs : List Problem) (p : Problem), (∃ o, p.IsOptimal leg o) → p.IsOptimal leg (optimalSolver leg cs p) := by
  constructor
  · intro cs cs' p p' _ h
    have : p.IsOptimal leg = p'.IsOptimal leg := by
      funext o; exact propext (h.isOptimal leg o)
    unfold optimalSolver
    rw [this]
  · intro cs p h
    exact @Classical.epsilon_spec_aux Outcome ⟨⟨fun _ _ => 0, fun _ _ => 0, fun _ => 0, none⟩⟩ _ h

theorem session_rel {N : List Vertex} {solver : Solver} (hs : solver.OrderBlind) (ns : List ℤ) {s s' : Sim}
    (h : Sim.Rel N s s') : (s.session solver ns).1 = (s'.session solver ns).1 ∧
      (s.session solver ns).2.Same (s'.session solver ns).2 := by
  induction ns generalizing s s' with
  | nil => exact ⟨rfl, h.same⟩
  | cons n ns ih =>
    obtain ⟨h1, h2⟩ := Sim.run_rel hs n s s' h
    obtain ⟨h3, h4⟩ := ih h2
    exact ⟨by simp only [Sim.session]; rw [h1, h3], h4⟩

variable {solver : Solver} {w h : ℝ} {fix fix' : Fix} {params : SimParams} {ext : ExtTemp} {traction : Traction}

theorem Sim.new_reordered (it it' : SetIter) (hs : solver.OrderBlind) (S : Setup ⟨w, h, fix⟩ params)
    (hfix : fix.SameSides fix')
    (ht : params.regularization = none → ∀ t x y, ∃ a b, traction t x y = .ok [a, b]) :
    ∃ N, PyRel (Sim.Rel N) (Sim.new solver it ⟨w, h, fix⟩ params ext traction)
      (Sim.new solver it' ⟨w, h, fix'⟩ params ext traction) := by
  have S' : Setup ⟨w, h, fix'⟩ params := ⟨S.valid, S.width, S.height, S.fine⟩
  obtain ⟨g, refined, hg, hr⟩ := S.grids_ok it
  obtain ⟨g', -, hg', -⟩ := S'.grids_ok it'
  obtain ⟨G, g1, g2⟩ := S.grids hg hr
  have U := G.usable
  have hre : g.Reordered g' := C82_grid S.facts.2.2.2.1 S.width S.height hg hg' hfix
  refine ⟨_, Sim.new_rel hs hg hg' hre ?_ ht ?_⟩
  · intro v hv
    have hlt : v < (cells w params.scale + 1) * (cells h params.scale + 1) := lt_of_neumann U (mem_pySet.2 hv)
    exact ⟨g.xy v, by rw [pointArgs, U.point hlt]; rfl⟩
  · intro r hr'
    rw [hr] at hr'
    cases hr'
    exact mechanicalStep_ok U S.facts.1 (fun h => by
      obtain ⟨k, r, p, -, -, h3, -, h4, -⟩ := g2 h
      exact ⟨r, _, h3, h4.usable⟩) (fun h v _ => by
      obtain ⟨a, b, e⟩ := ht h 0 (g.xy v).1 (g.xy v).2
      exact ⟨_, e, le_refl _⟩)

/-- **C82** (simulations). Take the same rectangle with the same sides fixed, the same parameters, the same boundary data and
a solver whose answers do not depend on the order of boundary lists. Then creating a simulation succeeds for all iteration
orders of sets and spellings of `fix` or for none; and after any calls of `run` (whether they raise or not), each call has
returned or raised the same, and both simulations have the same recorded steps, times, limits and maximal temperature. -/
theorem C82_simulation (it it' : SetIter) (hs : solver.OrderBlind) (S : Setup ⟨w, h, fix⟩ params)
    (hfix : fix.SameSides fix')
    (ht : params.regularization = none → ∀ t x y, ∃ a b, traction t x y = .ok [a, b]) :
    (∀ s, Sim.new solver it ⟨w, h, fix⟩ params ext traction = .ok s →
      ∃ s', Sim.new solver it' ⟨w, h, fix'⟩ params ext traction = .ok s' ∧
        ∀ ns, (s.session solver ns).1 = (s'.session solver ns).1 ∧ (s.session solver ns).2.Same (s'.session solver ns).2) ∧
    (∀ e, Sim.new solver it ⟨w, h, fix⟩ params ext traction = .error e →
      Sim.new solver it' ⟨w, h, fix'⟩ params ext traction = .error e) := by
  obtain ⟨N, hr⟩ := Sim.new_reordered (ext := ext) it it' hs S hfix ht
  constructor
  · intro s e
    obtain ⟨s', e', h'⟩ := hr.ok_left e
    exact ⟨s', e', fun ns => session_rel hs ns h'⟩
  · intro e he
    rw [he] at hr
    generalize Sim.new solver it' ⟨w, h, fix'⟩ params ext traction = Y at hr
    cases hr
    rfl

/-- the hypotheses of C82 can be met: the two example simulations, with and without regularization, with another spelling of
`fix`, an optimal solver and a traction depending on time and place -/
example (leg : LegGauss) (it it' : SetIter) {params : SimParams} (hp : params = exampleParams ∨ params = exampleParamsReg) :
    (optimalSolver leg).OrderBlind ∧ Setup ⟨1 / 2, 1, .one .lower⟩ params ∧
    (Fix.one .lower).SameSides (.many [.lower, .unknown "bottom", .lower]) ∧
    ∀ e, Sim.new (optimalSolver leg) it ⟨1 / 2, 1, .one .lower⟩ params (fun t => .ok (t ^ 2)) (fun t x y => .ok [t + x, y]) =
      .error e → Sim.new (optimalSolver leg) it' ⟨1 / 2, 1, .many [.lower, .unknown "bottom", .lower]⟩ params
        (fun t => .ok (t ^ 2)) (fun t x y => .ok [t + x, y]) = .error e := by
  have S : Setup ⟨1 / 2, 1, .one .lower⟩ params := by
    rcases hp with rfl | rfl
    · exact exampleSetup
    · exact exampleSetupReg
  have hf : (Fix.one .lower).SameSides (.many [.lower, .unknown "bottom", .lower]) := by
    intro f hf
    cases f with
    | unknown st => exact absurd rfl (hf st)
    | _ => simp [Fix.options]
  exact ⟨(C82_optimal_solver leg).1, S, hf, (C82_simulation it it' (C82_optimal_solver leg).1 S hf fun _ t x y => ⟨_, _, rfl⟩).2⟩

/-- the solver of the examples does not see the order of the boundary lists -/
theorem stay_orderBlind : staySolver.OrderBlind := by
  intro cs cs' p p' _ h
  have hF : p.Feasible ↔ p'.Feasible := by
    unfold Problem.Feasible
    rw [h.unknowns, h.isTherm, h.constraintsHold]
  have hC : p.currentValues = p'.currentValues := by
    cases h with
    | mechP1 grid fps neumann prevY1 prevY2 prevTheta g1 g2 keys1 keys2 y1 y2 => simp only [Problem.currentValues, y1, y2]
    | mechReg grid refined fps reg prevY1 prevY2 prevTheta y1 y2 => simp only [Problem.currentValues, y1, y2]
    | thermP1 grid rest => subst rest; rfl
    | thermReg grid refined rest => subst rest; rfl
  unfold staySolver
  rw [hC]
  by_cases hp : p.Feasible
  · simp only [if_pos hp, if_pos (hF.1 hp)]
  · simp only [if_neg hp, if_neg fun h => hp (hF.2 h)]

/-- the same with a solver with which both simulations run: after `run(3)` and `run(0)` (which raises) they have recorded the
same five steps -/
example (it it' : SetIter) {params : SimParams} (hp : params = exampleParams ∨ params = exampleParamsReg) :
    ∃ s s', Sim.new staySolver it ⟨1 / 2, 1, .one .lower⟩ params (fun t => .ok (t ^ 2)) (fun t x y => .ok [t + x, y]) = .ok s ∧
      Sim.new staySolver it' ⟨1 / 2, 1, .many [.lower, .unknown "bottom", .lower]⟩ params (fun t => .ok (t ^ 2))
        (fun t x y => .ok [t + x, y]) = .ok s' ∧
      (s'.session staySolver [3, 0]).1 = [.ok (), .error .valueError] ∧
      (s.session staySolver [3, 0]).2.Same (s'.session staySolver [3, 0]).2 ∧
      (s.session staySolver [3, 0]).2.steps.length = 5 := by
  have S : Setup exampleDomain params := by
    rcases hp with rfl | rfl
    · exact exampleSetup
    · exact exampleSetupReg
  have hfps : 0 < params.fps := by rcases hp with rfl | rfl <;> norm_num [exampleParams, exampleParamsReg]
  have hf : (Fix.one .lower).SameSides (.many [.lower, .unknown "bottom", .lower]) := by
    intro f hf
    cases f with
    | unknown st => exact absurd rfl (hf st)
    | _ => simp [Fix.options]
  obtain ⟨-, -, h3, h4, h5, -⟩ := stay_contracts
  obtain ⟨s, hs⟩ := C55_usable_partial (ext := fun t => .ok (t ^ 2)) (traction := fun t x y => .ok [t + x, y]) S hfps h5 it
    fun _ => exampleBoundary
  obtain ⟨s', hs', H⟩ := (C82_simulation it it' stay_orderBlind S hf fun _ t x y => ⟨_, _, rfl⟩).1 s hs
  have hh := Sim.Healthy.new S hs
  obtain ⟨t, h6, h7⟩ := C66_succeeds hh h5 h4 h3 (fun _ => exampleBoundary) (n := 3) (by norm_num)
  have hr0 : t.run staySolver 0 = (.error .valueError, t) := by rw [Sim.run, if_pos (le_refl _)]; rfl
  have e : s.session staySolver [3, 0] = ([.ok (), .error .valueError], t) := by
    simp only [Sim.session, h6, hr0]
  refine ⟨s, s', hs, hs', by rw [← (H [3, 0]).1, e], (H [3, 0]).2, ?_⟩
  rw [e]
  show t.steps.length = 5
  have h1 := C60_run hh.reachable h6
  have h2 := C60_new S hs
  rw [h2] at h1
  push_cast at h1
  omega

end Tve
