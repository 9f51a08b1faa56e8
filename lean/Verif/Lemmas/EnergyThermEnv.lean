import Verif.Lemmas.EnergyTherm

/-!
# Thermal steps of simulations
-/

namespace Tve

open Bell

/-- a thermal step of a simulation -/
structure ThermEnv (t : ThermStep) (g : Grid ℝ) (refined : Option (RefinedGrid ℝ)) (params : SimParams) (ext : ExtTemp) :
    Prop where
  wf : ∃ ys ts, t.WF ys ts
  grid : t.problem.grid = g
  fine : t.problem.refined = refined
  fps : t.problem.fps = params.fps
  energetic : Energetic g refined
  gwf : g.WellFormed
  p1 : params.regularization = none → t.ext = some ext
  reg : params.regularization ≠ none → t.ext = none

/-- the external temperature in the model is the external temperature at the given time -/
def ThermStep.ExtAt (t : ThermStep) (time : ℝ) : Prop :=
  ∀ f, t.ext = some f → ∃ x, 0 ≤ x ∧ f time = .ok x ∧ t.extTemp = some x

theorem P1ThermModel.objective_code {m : P1ThermModel} {n : ℕ} (w : m.WF n) (W : m.grid.WellFormed) {leg : LegGauss} {r : GaussRule ℝ}
    (hr : GaussRule.new leg 1 = .ok r) :
    m.objective leg = thermCode m.grid none m.fps (P1Mech.pairs m.prevY1 m.prevY2) (P1Mech.pairs m.y1 m.y2)
      (NdArray.of1 m.prevTheta) (NdArray.of1 (varValues m.theta))
      (m.grid.edgeQuad m.grid.boundary.edges r fun ed s =>
        transferCoeff / 2 * (s * (varValues m.theta).getD ed.1 0 + (1 - s) * (varValues m.theta).getD ed.2 0
          - m.externalTemperature) ^ 2) := by
  have hc := NdArray.col_pairs w.y1 w.y2 w.pos
  have hc' := NdArray.col_pairs w.prevY1 w.prevY2 w.pos
  have hlen : (varValues m.theta).length = n := P1MechModel.varValues_length.trans w.theta
  have hp : m.grid.points.length = n := by
    have := congrArg List.length W.vertices
    rw [w.vertices] at this
    simpa using this.symm
  have hes : ∀ e ∈ m.grid.boundary.edges, e.1 < m.grid.points.length ∧ e.2 < m.grid.points.length := by
    intro e he
    have := W.edges e (W.boundary.2 e he)
    rw [W.vertices] at this
    exact ⟨List.mem_range.1 this.1, List.mem_range.1 this.2⟩
  obtain ⟨I, hI, hcall⟩ := edge_call W hr hes
  have h1 : P1Interpolation m.grid (varValues m.theta) = .ok ⟨m.grid, P1.call (varValues m.theta),
      P1.gradient m.grid (varValues m.theta), P1.hessian, P1.onEdge (varValues m.theta)⟩ := by
    obtain ⟨I, hI⟩ := P1_ok (g := m.grid) (u := varValues m.theta) (by rw [hlen, w.vertices, List.length_range])
    obtain ⟨-, rfl⟩ := P1_of hI
    exact hI
  rw [P1ThermModel.objective, thermCode, deformOf, hc'.1, bind_ok, hc'.2, bind_ok, deformOf, hc.1, bind_ok, hc.2, bind_ok]
  have e1 : (NdArray.of1 m.prevTheta).data = m.prevTheta := rfl
  have e2 : (NdArray.of1 (varValues m.theta)).data = varValues m.theta := rfl
  rw [e1, e2]
  simp only [energyGrid, energyRule]
  congr 1; funext D0
  congr 1; funext D
  congr 1; funext T0
  rw [h1, bind_ok, bind_ok]
  congr 1; funext rule
  congr 1; funext J
  rw [hI, bind_ok, Thermal.objective]
  congr 1; funext e
  congr 1; funext d
  simp only
  rw [Thermal.boundaryHeatTransfer, hcall _ (fun ed s =>
        transferCoeff / 2 * (s * (varValues m.theta).getD ed.1 0 + (1 - s) * (varValues m.theta).getD ed.2 0
          - m.externalTemperature) ^ 2), bind_ok]
  intro ed hed s
  obtain ⟨l1, l2⟩ := hes ed hed
  have p1 : ∀ v < n, pyGet (varValues m.theta) v = .ok ((varValues m.theta).getD v 0) := fun v hv => pyGet_getD (by omega) 0
  simp only [P1.onEdge, p1 _ (hp ▸ l1), p1 _ (hp ▸ l2), bind_ok, pure_eq_ok, Thermal.boundaryPotential,
    Helpers.heatTransferCoefficient, transferCoeff]

theorem RegThermModel.objective_code {m : RegThermModel} {n k : ℕ} (w : m.WF n k) :
    m.objective = thermCode m.grid (some m.refined) m.fps (RegMech.pairs m.prevY1 m.prevY2) (RegMech.pairs m.y1 m.y2)
      (NdArray.of1 m.prevTheta) (NdArray.of1 (varValues m.theta)) 0 := by
  have hc := NdArray.block_pairs w.y1.1 w.y2.1 w.y1.2 w.y2.2 w.pos
  have hc' := NdArray.block_pairs w.prevY1.1 w.prevY2.1 w.prevY1.2 w.prevY2.2 w.pos
  rw [RegThermModel.objective, thermCode, deformOf, hc'.1, bind_ok, hc'.2, bind_ok, deformOf, hc.1, bind_ok, hc.2, bind_ok]
  rfl

theorem IsBoundaryHeat.unique {leg : LegGauss} {params : SimParams} {ext : ExtTemp} {g : Grid ℝ} {time : ℝ} {θ : List ℝ} {b b' : ℝ}
    (h : IsBoundaryHeat leg params ext g time θ b) (h' : IsBoundaryHeat leg params ext g time θ b') : b = b' := by
  by_cases hr : params.regularization = none
  · obtain ⟨r, e, h1, h2, rfl⟩ := h.1 hr
    obtain ⟨r', e', h1', h2', rfl⟩ := h'.1 hr
    cases h1.symm.trans h1'
    cases h2.symm.trans h2'
    rfl
  · rw [h.2 hr, h'.2 hr]

section
variable {t : ThermStep} {g : Grid ℝ} {refined : Option (RefinedGrid ℝ)} {params : SimParams} {ext : ExtTemp}

theorem ThermEnv.lengths (M : ThermEnv t g refined params ext) :
    t.prevTheta.data.length = (energyGrid g refined).vertices.length ∧
    t.theta.data.length = (energyGrid g refined).vertices.length ∧
    t.unknowns.length = (energyGrid g refined).vertices.length := by
  obtain ⟨ys, ts, w⟩ := M.wf
  have hg := M.grid
  have hr := M.fine
  rcases t with s | s
  · obtain ⟨n, w, -, -⟩ := w
    have hg' : s.model.grid = g := hg
    subst hg'
    have hr' : refined = none := hr.symm
    subst hr'
    have hv : (energyGrid s.model.grid none).vertices.length = n := by
      show s.model.grid.vertices.length = n
      rw [w.vertices, List.length_range]
    exact ⟨w.prevTheta.trans hv.symm, (P1MechModel.varValues_length.trans w.theta).trans hv.symm, w.theta.trans hv.symm⟩
  · obtain ⟨n, k, w, -, -⟩ := w
    have hg' : s.model.grid = g := hg
    subst hg'
    have hr' : refined = some s.model.refined := hr.symm
    subst hr'
    have hv : (energyGrid s.model.grid (some s.model.refined)).vertices.length = k := w.fine
    exact ⟨w.prevTheta.trans hv.symm, (P1MechModel.varValues_length.trans w.theta).trans hv.symm, w.theta.trans hv.symm⟩

/-- the objective of the model in terms of the arrays of the step -/
theorem ThermEnv.objective_code (M : ThermEnv t g refined params ext) {leg : LegGauss} {q : GaussRule ℝ}
    (hq : GaussRule.new leg 1 = .ok q) {time : ℝ} (hT : t.ExtAt time) :
    ∃ b, IsBoundaryHeat leg params ext g time t.theta.data b ∧
      t.problem.objective leg = thermCode g refined params.fps t.prevY t.y t.prevTheta t.theta b := by
  obtain ⟨ys, ts, w⟩ := M.wf
  have hg := M.grid
  have hr := M.fine
  have hf := M.fps
  have W := M.gwf
  rcases t with s | s
  · obtain ⟨n, w, -, -⟩ := w
    have hg' : s.model.grid = g := hg
    subst hg'
    have hr' : refined = none := hr.symm
    subst hr'
    have hnone : params.regularization = none := by
      by_contra hn
      have := M.reg hn
      cases this
    have hext : s.externalTemperature = ext := Option.some.inj (M.p1 hnone)
    obtain ⟨x, -, hx, hx'⟩ := hT s.externalTemperature rfl
    have hx' : s.model.externalTemperature = x := Option.some.inj hx'
    have hf' : s.model.fps = params.fps := hf
    refine ⟨_, ⟨fun _ => ⟨q, x, hq, hext ▸ hx, rfl⟩, fun h => absurd hnone h⟩, ?_⟩
    show s.model.objective leg = _
    rw [P1ThermModel.objective_code w.toWF W hq, hf', hx']
    rfl
  · obtain ⟨n, k, w, -, -⟩ := w
    have hg' : s.model.grid = g := hg
    subst hg'
    have hr' : refined = some s.model.refined := hr.symm
    subst hr'
    have hreg : params.regularization ≠ none := by
      intro hn
      have := M.p1 hn
      cases this
    have hf' : s.model.fps = params.fps := hf
    refine ⟨0, ⟨fun h => absurd h hreg, fun _ => rfl⟩, ?_⟩
    show s.model.objective = _
    rw [RegThermModel.objective_code w.toWF, hf']
    rfl

/-- The objective in the model is the objective of the specification. -/
theorem ThermEnv.objective_iff (M : ThermEnv t g refined params ext) {leg : LegGauss} {q : GaussRule ℝ}
    (hq : GaussRule.new leg 1 = .ok q) {time : ℝ} (hT : t.ExtAt time) (v : ℝ) :
    t.problem.objective leg = .ok v ↔
      IsThermObjective leg params ext g refined time t.prevY t.y t.prevTheta t.theta v := by
  obtain ⟨b, hb, hc⟩ := M.objective_code hq hT
  rw [hc]
  exact thermCode_iff M.energetic M.lengths.1 M.lengths.2.1 hb (fun b' hb' => hb'.unique hb) v

theorem ThermEnv.objective_oriented (M : ThermEnv t g refined params ext) {leg : LegGauss} {q : GaussRule ℝ}
    (hq : GaussRule.new leg 1 = .ok q) {time : ℝ} (hT : t.ExtAt time) :
    (∃ v, t.problem.objective leg = .ok v) ↔ Oriented g refined t.prevY ∧ Oriented g refined t.y := by
  obtain ⟨b, hb, hc⟩ := M.objective_code hq hT
  constructor
  · rintro ⟨v, hv⟩
    exact ((M.objective_iff hq hT v).1 hv).oriented
  · rintro ⟨h0, h1⟩
    obtain ⟨v, hv⟩ := thermObjective_exists M.energetic h0 h1 M.lengths.1 M.lengths.2.1 hb
    exact ⟨v, (M.objective_iff hq hT v).2 hv⟩

theorem ThermStep.ExtAt.load {time : ℝ} (h : t.ExtAt time) (o : Outcome) : (t.load o).ExtAt time := by
  rcases t with s | s <;> exact h

theorem ThermStep.load_problem (o : Outcome) : (t.load o).problem = t.problem.load o := by
  rcases t with s | s <;> rfl

end

section
variable {domain : RectDomain ℝ} {params : SimParams} {ext : ExtTemp} {traction : Traction} {s : Sim} {m0 : MechStep}
  {t0 : ThermStep}

theorem Sim.Context.thermEnv (c : s.Context domain params ext traction m0 t0) {t : ThermStep} {ys ts : List ℕ} (w : t.WF ys ts)
    (ht : t.static = t0.static) : ThermEnv t s.grid s.refined params ext := by
  obtain ⟨it, hg⟩ := c.grid
  obtain ⟨Sh, ⟨n, U⟩, F⟩ := c.setup.simShape hg c.refined c.mech0
  obtain ⟨a1, -⟩ := mechanicalStep_facts U F c.mech0
  obtain ⟨y, hy, h0⟩ := c.therm0
  obtain ⟨-, -, -, b1, b2, b3, b4⟩ := thermalStep_cases U F a1.prevY.2 hy a1.prevTheta.2 h0
  obtain ⟨G, h1, h2⟩ := c.setup.grids hg c.refined
  refine ⟨⟨ys, ts, w⟩, (ThermStep.static_grid ht).trans b1, ?_, (ThermStep.static_fps ht).trans b2, c.energetic, U.wf,
    fun hr => ?_, fun hr => ?_⟩
  · rw [ThermStep.static_refined ht]
    by_cases hr : params.regularization = none
    · rw [(b3 hr).2, h1 hr]
    · exact (b4 hr).2
  · rw [ThermStep.static_ext ht]; exact (b3 hr).1
  · rw [ThermStep.static_ext ht]; exact (b4 hr).1

theorem ThermReady.extAt {t : ThermStep} {y0 y1 θ : NdArray} {time : ℝ} (h : ThermReady t y0 y1 θ time) : t.ExtAt time :=
  h.ext

end

end Tve
