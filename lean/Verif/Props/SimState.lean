import Verif.Lemmas.SimInitial
import Verif.Lemmas.SimRanges
import Verif.Props.Simulation
import Verif.Props.Grid

/-!
# Properties of simulations: C57, C59, C62, C72
-/

namespace Tve
open Sim

section
variable {solver : Solver} {domain : RectDomain ℝ} {params : SimParams} {ext : ExtTemp} {traction : Traction} {s : Sim}

/-! ### C57 -/

/-- **C57** (what is fixed). In a newly created mechanical step exactly the deformed positions of the Dirichlet vertices are
fixed: the variables `y1[v]`, `y2[v]` (with regularization `y1[v, 1]`, `y2[v, 1]`) of a vertex `v` are fixed if and only if `v`
is a Dirichlet vertex. -/
theorem C57_fixed_variables {g : Grid ℝ} {nx ny : ℕ} {h : ℝ} (G : LibraryGrid g nx ny h) {mp : MechParams}
    {refined : Option (RefinedGrid ℝ)} (F : RefinedOk refined) {m : MechStep}
    (hm : mechanicalStep g mp refined traction = .ok m) {v : Vertex} (hv : v ∈ g.vertices) :
    (∀ s, m = .p1 s → s.model.y1[v]?.map VarData.fixed = some (decide (v ∈ g.dirichlet.vertices)) ∧
        s.model.y2[v]?.map VarData.fixed = some (decide (v ∈ g.dirichlet.vertices))) ∧
    ∀ s, m = .reg s → ∀ j < 6,
        (s.model.y1[v]?.bind fun row => row[j]?).map VarData.fixed = some (decide (v ∈ g.dirichlet.vertices ∧ j = 0)) ∧
        (s.model.y2[v]?.bind fun row => row[j]?).map VarData.fixed = some (decide (v ∈ g.dirichlet.vertices ∧ j = 0)) := by
  have U := G.usable
  have F' : ∀ r, refined = some r → ∃ k, r.toGrid.Usable k := by
    intro r hr
    obtain ⟨_, _, _, R⟩ := F r hr
    exact ⟨_, R.usable⟩
  have hv' := List.mem_range.1 (U.vertices ▸ hv)
  rcases (mechanicalStep_cases U F' hm).2 with ⟨h1, G1, G2, h2, rfl⟩ | ⟨reg, f, k, h1, h2, hk, rfl⟩
  · refine ⟨fun s hs => ?_, fun s hs => by cases hs⟩
    cases hs
    exact ⟨flags_p1 _ (by simp [xsOf]) _ hv', flags_p1 _ (by simp [ysOf]) _ hv'⟩
  · refine ⟨fun s hs => (by cases hs), fun s hs j hj => ?_⟩
    cases hs
    exact ⟨flags_reg U _ (by simp [c1xs]) (by simp [c1xs]) _ hv' hj,
      flags_reg U _ (by simp [c1ys]) (by simp [c1ys]) _ hv' hj⟩

/-- **C57**. If the solver leaves fixed variables alone, the deformation of every recorded step, of every simulation and
whatever failed on the way, is the identity at all Dirichlet vertices. -/
theorem C57_fixed_boundary (hs : s.Reachable solver domain params ext traction) (hf : solver.RespectsFixed) {st : Step}
    (hst : st ∈ s.steps) {v : Vertex} (hv : v ∈ s.grid.dirichlet.vertices) {z : ℝ × ℝ} (hz : s.grid.At v z) :
    st.yData.deformed v = z := by
  obtain ⟨m0, t0, c, -, h⟩ := hs.agree hf
  obtain ⟨it, hg⟩ := c.grid
  obtain ⟨Sh, ⟨n, U⟩, F⟩ := c.setup.simShape hg c.refined c.mech0
  have hv' : v < n := by rw [← U.num]; exact at_lt hz
  obtain ⟨f1, f2, f3⟩ := mechanicalStep_fixed U F c.mech0 hv'
  rw [decide_eq_true hv] at f1
  have e0 := h st hst _ (f1 0 (by norm_num))
  have e1 := h st hst _ (f1 1 (by norm_num))
  rw [f2] at e0
  rw [f3] at e1
  rw [xy_of_at hz] at e0 e1
  rw [deformed_eq (c.has st hst).1.1, List.getD_eq_getElem?_getD, List.getD_eq_getElem?_getD, e0, e1]
  rfl

/-- **C57** (as seen by evaluation). The recorded deformation, evaluated at the position of a Dirichlet vertex, returns this
position. The scale is assumed to be larger than the absolute tolerance of the point location. -/
theorem C57_evaluated (hs : s.Reachable solver domain params ext traction) (hf : solver.RespectsFixed)
    (hh : 15 / 10 ^ 6 < params.scale) {st : Step} (hst : st ∈ s.steps) {v : Vertex} (hv : v ∈ s.grid.dirichlet.vertices)
    {z : ℝ × ℝ} (hz : s.grid.At v z) : st.y.call z.1 z.2 = .ok (vecOf ![z.1, z.2]) := by
  obtain ⟨m0, t0, c⟩ := hs.context
  obtain ⟨it, hg⟩ := c.grid
  obtain ⟨Sh, -, F⟩ := c.setup.simShape hg c.refined c.mech0
  have G := (c.setup.grids hg c.refined).1
  have h := makeStep_eval Sh G hh (c.has st hst).1 (c.has st hst).2 (c.made st hst) hz
  rw [C57_fixed_boundary hs hf hst hv hz] at h
  exact h

/-! ### C59 -/

/-- **C59**. If the solver respects the domain of the temperature variables, all recorded temperatures are nonnegative. -/
theorem C59_nonneg (hs : s.Reachable solver domain params ext traction) (hd : solver.RespectsDomain) {st : Step}
    (hst : st ∈ s.steps) {x : ℝ} (hx : x ∈ st.thetaData.data) : 0 ≤ x := by
  have key : ∀ st ∈ s.steps, ∀ x ∈ st.thetaData.data, 0 ≤ x := by
    refine hs.induct (fun s => ∀ st ∈ s.steps, ∀ x ∈ st.thetaData.data, 0 ≤ x) ?_ ?_
    · intro it s S h
      obtain ⟨m, t, step0, step1, r1, r2, w, c⟩ := Sim.of_new S h
      obtain ⟨Sh, ⟨n, U⟩, F⟩ := S.simShape c.grid c.refined c.mech
      obtain ⟨a1, a2, -⟩ := mechanicalStep_facts U F c.mech
      have w1 := a1.load (solver [] m.problem)
      obtain ⟨c1, c2, -⟩ := thermalStep_cases U F a1.prevY.2 w1.1.y.2 a1.prevTheta.2 c.therm
      have w2 := c1.load (solver [m.problem] t.problem)
      have hst : s.steps = [step0, step1] := by rw [Sim.steps, c.eq, c.steps]
      have ht : s.therm = t.load (solver [m.problem] t.problem) := by rw [c.eq]
      intro st hmem x hx
      rw [hst] at hmem
      simp only [List.mem_cons, List.not_mem_nil, or_false] at hmem
      rcases hmem with rfl | rfl
      · rw [c.stepTheta0] at hx; exact c2.nonneg x hx
      · rw [c.stepTheta1, ht, w2.2.2.2.2.1] at hx
        exact hd _ _ t.problem_isTherm c.thermOk x hx
    · intro s m0 t0 c ih
      rcases runSingle_any solver c.wf with ⟨m, t, step, r, s', e1, w, h⟩ | ⟨e, s', e1, w, h⟩
      · have hst : s'.steps = s.steps ++ [step] := by rw [Sim.steps, h.eq, h.steps]; rfl
        have ht : s'.therm = t.load (solver (s.calls ++ [m.problem]) t.problem) := by rw [h.eq]
        simp only [e1, hst]
        intro st hmem x hx
        simp only [List.mem_append, List.mem_singleton] at hmem
        rcases hmem with hmem | rfl
        · exact ih st hmem x hx
        · rw [h.stepTheta, ht, (h.thermWF.load _).2.2.2.2.1] at hx
          exact hd _ _ t.problem_isTherm h.thermOk x hx
      · have hst : s'.steps = s.steps := by rw [Sim.steps, h.record]; rfl
        simp only [e1, hst]
        exact ih
  exact key st hst x hx

/-- **C59** (updates). Updating the steps of the simulation with recorded temperatures never fails, and `prev_theta()` then
returns these temperatures. -/
theorem C59_update (hs : s.Reachable solver domain params ext traction) (hd : solver.RespectsDomain) {st : Step}
    (hst : st ∈ s.steps) :
    (∃ m, s.mech.updatePrevTheta st.thetaData = (.ok (), m) ∧ m.prevTheta = st.thetaData) ∧
    ∃ t, s.therm.updatePrevTheta st.thetaData = (.ok (), t) ∧ t.prevTheta = st.thetaData ∧ t.theta = st.thetaData := by
  obtain ⟨m0, t0, c⟩ := hs.context
  have h0 : ∀ x ∈ st.thetaData.data, 0 ≤ x := fun x hx => C59_nonneg hs hd hst hx
  obtain ⟨m, h1, -, h2, -⟩ := c.wf.mech.updatePrevTheta_ok (c.has st hst).2 h0
  obtain ⟨t, h3, -, h4, h5, -⟩ := c.wf.therm.updatePrevTheta_ok (c.has st hst).2 h0
  exact ⟨⟨m, h1, h2⟩, t, h3, h4, h5⟩

/-! ### C62 -/

/-- **C62** (temperature). `max_temp()` is the largest of 0 and all recorded temperatures. -/
theorem C62_max_temp (hs : s.Reachable solver domain params ext traction) :
    IsGreatest ({0} ∪ {x | ∃ st ∈ s.steps, x ∈ st.thetaData.data}) s.maxTemp := hs.ranges.1

/-- **C62** (temperature). If the solver respects the domain of the temperatures, `max_temp()` is the largest recorded
temperature. -/
theorem C62_max_temp_recorded (hs : s.Reachable solver domain params ext traction) (hd : solver.RespectsDomain) :
    IsGreatest {x | ∃ st ∈ s.steps, x ∈ st.thetaData.data} s.maxTemp := by
  obtain ⟨h1, h2⟩ := C62_max_temp hs
  refine ⟨?_, fun x hx => h2 (Or.inr hx)⟩
  rcases h1 with h1 | h1
  · obtain ⟨m0, t0, c⟩ := hs.context
    obtain ⟨st, hst, -⟩ := c.first
    have hmem : st ∈ s.steps := List.mem_of_getElem? hst
    have hne : st.thetaData.data ≠ [] := by
      obtain ⟨it, hg⟩ := c.grid
      obtain ⟨Sh, -, -⟩ := c.setup.simShape hg c.refined c.mech0
      have h := (c.has st hmem).2
      unfold SimShape at Sh
      split at Sh
      · obtain ⟨n, U, -, e⟩ := Sh
        rw [e] at h
        exact Has.ne_nil h U.pos
      · obtain ⟨n, k, r, p, -, -, F, -, -, e⟩ := Sh
        rw [e] at h
        exact Has.ne_nil h F.pos
    obtain ⟨x, hx⟩ := List.exists_mem_of_ne_nil _ hne
    have a := C59_nonneg hs hd hmem hx
    have b := h2 (Or.inr ⟨st, hmem, hx⟩)
    rw [Set.mem_singleton_iff] at h1
    rw [h1] at b
    obtain rfl : x = 0 := le_antisymm b a
    rw [h1]
    exact ⟨st, hmem, hx⟩
  · exact h1

/-- **C62** (axis limits), without regularization: the axis limits are exactly the bounding box of all recorded vertex
positions. With regularization this is false, see `C62_regularized_false`. -/
theorem C62_limits_partial (hs : s.Reachable solver domain params ext traction) (hreg : params.regularization = none) :
    IsRange s.record.xlims {x | ∃ st ∈ s.steps, ∃ v ∈ s.grid.vertices, x = (st.yData.deformed v).1} ∧
    IsRange s.record.ylims {x | ∃ st ∈ s.steps, ∃ v ∈ s.grid.vertices, x = (st.yData.deformed v).2} := by
  obtain ⟨-, h1, h2⟩ := hs.ranges
  obtain ⟨m0, t0, c⟩ := hs.context
  obtain ⟨it, hg⟩ := c.grid
  obtain ⟨Sh, -, -⟩ := c.setup.simShape hg c.refined c.mech0
  have e0 : s.entries 0 = {x | ∃ st ∈ s.steps, ∃ v ∈ s.grid.vertices, x = (st.yData.deformed v).1} := by
    ext x
    simp only [Sim.entries, Set.mem_setOf_eq]
    refine exists_congr fun st => and_congr_right fun hst => ?_
    have h := (slice_mem Sh (c.has st hst).1).1 hreg
    obtain ⟨l, hl, -⟩ := slice_ok Sh (c.has st hst).1 (j := 0) (by norm_num)
    rw [← h.1 l hl x]
    exact ⟨fun ⟨l', h1, h2⟩ => by rw [hl] at h1; cases h1; exact h2, fun h => ⟨l, hl, h⟩⟩
  have e1 : s.entries 1 = {x | ∃ st ∈ s.steps, ∃ v ∈ s.grid.vertices, x = (st.yData.deformed v).2} := by
    ext x
    simp only [Sim.entries, Set.mem_setOf_eq]
    refine exists_congr fun st => and_congr_right fun hst => ?_
    have h := (slice_mem Sh (c.has st hst).1).1 hreg
    obtain ⟨l, hl, -⟩ := slice_ok Sh (c.has st hst).1 (j := 1) (by norm_num)
    rw [← h.2 l hl x]
    exact ⟨fun ⟨l', h1, h2⟩ => by rw [hl] at h1; cases h1; exact h2, fun h => ⟨l, hl, h⟩⟩
  rw [← e0, ← e1]
  exact ⟨h1, h2⟩

/-- **C62** (axis limits), with regularization: the axis limits are the range of all recorded values *and derivatives* of the
component up to second order. In particular they cover all recorded positions. -/
theorem C62_regularized_partial (hs : s.Reachable solver domain params ext traction) (hreg : params.regularization ≠ none) :
    IsRange s.record.xlims {x | ∃ st ∈ s.steps, ∃ v ∈ s.grid.vertices, ∃ k < 6, x = st.yData.at3 2 6 v 0 k} ∧
    IsRange s.record.ylims {x | ∃ st ∈ s.steps, ∃ v ∈ s.grid.vertices, ∃ k < 6, x = st.yData.at3 2 6 v 1 k} ∧
    ∀ st ∈ s.steps, ∀ v ∈ s.grid.vertices,
      s.record.xlims.1 ≤ ((st.yData.deformed v).1 : WithTop ℝ) ∧ ((st.yData.deformed v).1 : WithBot ℝ) ≤ s.record.xlims.2 ∧
      s.record.ylims.1 ≤ ((st.yData.deformed v).2 : WithTop ℝ) ∧ ((st.yData.deformed v).2 : WithBot ℝ) ≤ s.record.ylims.2 := by
  obtain ⟨-, h1, h2⟩ := hs.ranges
  obtain ⟨m0, t0, c⟩ := hs.context
  obtain ⟨it, hg⟩ := c.grid
  obtain ⟨Sh, ⟨n, U⟩, F⟩ := c.setup.simShape hg c.refined c.mech0
  have e0 : s.entries 0 = {x | ∃ st ∈ s.steps, ∃ v ∈ s.grid.vertices, ∃ k < 6, x = st.yData.at3 2 6 v 0 k} := by
    ext x
    simp only [Sim.entries, Set.mem_setOf_eq]
    refine exists_congr fun st => and_congr_right fun hst => ?_
    have h := (slice_mem Sh (c.has st hst).1).2 hreg
    obtain ⟨l, hl, -⟩ := slice_ok Sh (c.has st hst).1 (j := 0) (by norm_num)
    rw [← h.1 l hl x]
    exact ⟨fun ⟨l', h1, h2⟩ => by rw [hl] at h1; cases h1; exact h2, fun h => ⟨l, hl, h⟩⟩
  have e1 : s.entries 1 = {x | ∃ st ∈ s.steps, ∃ v ∈ s.grid.vertices, ∃ k < 6, x = st.yData.at3 2 6 v 1 k} := by
    ext x
    simp only [Sim.entries, Set.mem_setOf_eq]
    refine exists_congr fun st => and_congr_right fun hst => ?_
    have h := (slice_mem Sh (c.has st hst).1).2 hreg
    obtain ⟨l, hl, -⟩ := slice_ok Sh (c.has st hst).1 (j := 1) (by norm_num)
    rw [← h.2 l hl x]
    exact ⟨fun ⟨l', h1, h2⟩ => by rw [hl] at h1; cases h1; exact h2, fun h => ⟨l, hl, h⟩⟩
  rw [e0] at h1
  rw [e1] at h2
  refine ⟨h1, h2, ?_⟩
  intro st hst v hv
  have hshape : ∃ a, st.yData.shape = [a, 2, 6] := by
    obtain ⟨-, -, -, -, -, -, a7⟩ := mechanicalStep_facts U F c.mech0
    obtain ⟨-, -, r, k, -, -, h, -⟩ := a7 hreg
    exact ⟨_, (c.has st hst).1.1.trans h⟩
  obtain ⟨a, ha⟩ := hshape
  obtain ⟨lo, hi, e, l1, l2⟩ := h1
  obtain ⟨lo', hi', e', l3, l4⟩ := h2
  rw [e, e']
  have d : st.yData.deformed v = (st.yData.at3 2 6 v 0 0, st.yData.at3 2 6 v 1 0) := by
    unfold NdArray.deformed; rw [ha]
  rw [d]
  simp only [WithTop.coe_le_coe, WithBot.coe_le_coe]
  exact ⟨l1.2 ⟨st, hst, v, hv, 0, by norm_num, rfl⟩, l2.2 ⟨st, hst, v, hv, 0, by norm_num, rfl⟩,
    l3.2 ⟨st, hst, v, hv, 0, by norm_num, rfl⟩, l4.2 ⟨st, hst, v, hv, 0, by norm_num, rfl⟩⟩

/-- **C62** (axis limits), with regularization, is false: as the initial data contain the derivative 1, the upper limit of the
first axis is at least 1, and for a narrow domain this is more than every recorded position. -/
theorem C62_regularized_false (hs : s.Healthy solver domain params ext traction) (hreg : params.regularization ≠ none)
    (hb : solver.RespectsBounds) (hw : domain.width + (s.steps.length - 1) * params.searchRadius < 1) :
    ¬ IsRange s.record.xlims {x | ∃ st ∈ s.steps, ∃ v ∈ s.grid.vertices, x = (st.yData.deformed v).1} := by
  obtain ⟨h1, -, -⟩ := C62_regularized_partial hs.reachable hreg
  obtain ⟨m0, t0, c⟩ := hs.reachable.context
  obtain ⟨it, hg⟩ := c.grid
  obtain ⟨Sh, -, F⟩ := c.setup.simShape hg c.refined c.mech0
  have hsc := c.setup.facts.2.2.2.1
  have G := (c.setup.grids hg c.refined).1
  have U := G.usable
  have hrect := (C10_points_in_rectangle (hsc.le.trans c.setup.width) (hsc.le.trans c.setup.height) hsc hg).1
  obtain ⟨i1, -, -, i2⟩ := mechanicalStep_initial U F c.mech0
  obtain ⟨-, -, i3⟩ := i2 hreg
  obtain ⟨st0, f1, f2, -⟩ := c.first
  rintro ⟨lo, hi, e, -, hhi, -⟩
  obtain ⟨lo', hi', e', -, -, hub⟩ := h1
  rw [e] at e'
  simp only [Prod.mk.injEq, WithTop.coe_inj, WithBot.coe_inj] at e'
  have one : (1 : ℝ) ≤ hi := by
    rw [e'.2]
    refine hub ⟨st0, List.mem_of_getElem? f1, 0, ?_, 1, by norm_num, ?_⟩
    · rw [U.vertices]; exact List.mem_range.2 U.pos
    · rw [f2, (i3 0 U.pos 1 (by norm_num)).1]; rfl
  obtain ⟨st, hst, v, hv, rfl⟩ := hhi
  obtain ⟨k, hk⟩ := List.mem_iff_getElem?.1 hst
  have hk' : k < s.steps.length := (List.getElem?_eq_some_iff.1 hk).1
  have h58 := (C58_steps hs hb f1 (i := 0) (k := k) (by rw [zero_add]; exact hk)).1
  have hv' : v < (cells domain.width params.scale + 1) * (cells domain.height params.scale + 1) := by
    rw [U.vertices] at hv; exact List.mem_range.1 hv
  have hpos : (st0.yData.deformed v).1 ≤ domain.width := by
    rw [f2, i1 v hv']
    exact (hrect v _ (at_xy U.wf (U.num.symm ▸ hv'))).2.1
  have hdiff : (st.yData.deformed v).1 - (st0.yData.deformed v).1 ≤ k * params.searchRadius := by
    rw [deformed_eq (c.has st hst).1.1, deformed_eq (c.has st0 (List.mem_of_getElem? f1)).1.1]
    simp only
    rw [List.forall₂_iff_get] at h58
    by_cases hlt : valueIndex m0.yShape v 0 < st0.yData.data.length
    · have := h58.2 _ hlt (h58.1 ▸ hlt)
      simp only [List.get_eq_getElem] at this
      rw [List.getD_eq_getElem?_getD, List.getD_eq_getElem?_getD, List.getElem?_eq_getElem hlt,
        List.getElem?_eq_getElem (h58.1 ▸ hlt)]
      exact (le_abs_self _).trans this
    · rw [List.getD_eq_getElem?_getD, List.getD_eq_getElem?_getD, List.getElem?_eq_none (by have := h58.1; omega),
        List.getElem?_eq_none (by have := h58.1; omega)]
      simp only [Option.getD_none, sub_self]
      have := c.setup.facts.2.1
      positivity
  have hkr : (k : ℝ) ≤ s.steps.length - 1 := by
    have : (k : ℝ) + 1 ≤ s.steps.length := by exact_mod_cast hk'
    linarith
  have := mul_le_mul_of_nonneg_right hkr c.setup.facts.2.1.le
  linarith

end

end Tve
