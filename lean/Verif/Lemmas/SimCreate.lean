import Verif.Lemmas.SimFixed

/-!
# Helper lemmas: creating and running a simulation succeeds
-/

namespace Tve
open Sim

section
variable {domain : RectDomain ℝ} {params : SimParams}

theorem Setup.grids_ok (S : Setup domain params) (it : SetIter) :
    ∃ g refined, domain.grid it params.scale = .ok g ∧ refineIf domain g params.refinementFactor = .ok refined := by
  have hs := S.facts.2.2.2.1
  obtain ⟨g, ts, hg, -⟩ := rect_grid_spec it domain (hs.le.trans S.width) (hs.le.trans S.height) hs
  by_cases hr : params.regularization = none
  · exact ⟨g, none, hg, by rw [S.facts.2.2.2.2.1 hr]; rfl⟩
  · obtain ⟨n, hn, hf⟩ := S.facts.2.2.2.2.2 hr
    have G := LibraryGrid.grid hs S.width S.height hg
    obtain ⟨P, dg, E, T, BV, BE, DV, DE, NV, NE, hl⟩ := G.lgrid
    obtain ⟨r, hr, -⟩ := refine_ok hn domain hl.lat (S.fine' hf).2 hl.pd hl.pn
    exact ⟨g, some r, hg, by rw [hf, refineIf, hr]; rfl⟩

end

section
variable {g : Grid ℝ} {n : ℕ}

theorem mechanicalStep_ok (U : g.Usable n) {params : MechParams} {refined : Option (RefinedGrid ℝ)} {tr : Traction}
    (h0 : 0 ≤ params.initialTemperature)
    (hr : params.regularization ≠ none → ∃ r k, refined = some r ∧ r.toGrid.Usable k)
    (ht : params.regularization = none → ∀ v ∈ g.neumann.vertices, ∃ l, tr 0 (g.xy v).1 (g.xy v).2 = .ok l ∧ 2 ≤ l.length) :
    ∃ m, mechanicalStep g params refined tr = .ok m := by
  unfold mechanicalStep
  split
  · rename_i hreg
    have key : ∀ v ∈ g.neumann.vertices, ∃ l a b, tr 0 (g.xy v).1 (g.xy v).2 = .ok l ∧ l[0]? = some a ∧ l[1]? = some b := by
      intro v hv
      obtain ⟨l, h1, h2⟩ := ht hreg v hv
      exact ⟨l, l[0], l[1], h1, List.getElem?_eq_getElem _, List.getElem?_eq_getElem _⟩
    classical
    let G1 : Vertex → ℝ := fun v => if h : v ∈ g.neumann.vertices then (key v h).choose_spec.choose else 0
    let G2 : Vertex → ℝ := fun v => if h : v ∈ g.neumann.vertices then (key v h).choose_spec.choose_spec.choose else 0
    have kk : ∀ v ∈ g.neumann.vertices, ∃ l, tr 0 (g.xy v).1 (g.xy v).2 = .ok l ∧ l[0]? = some (G1 v) ∧
        l[1]? = some (G2 v) := by
      intro v hv
      have := (key v hv).choose_spec.choose_spec.choose_spec
      exact ⟨_, this.1, by simp only [G1, dif_pos hv]; exact this.2.1, by simp only [G2, dif_pos hv]; exact this.2.2⟩
    have e := P1MechModel.new_eq U (r := params.searchRadius) (fps := params.fps) h0 kk
    exact ⟨_, by rw [P1Mech.new, e]; rfl⟩
  · rename_i reg hreg
    obtain ⟨r, k, rfl, F⟩ := hr (by rw [hreg]; simp)
    have e := RegMechModel.new_eq U F (r := params.searchRadius) (fps := params.fps) (reg := reg) h0
    exact ⟨_, by simp only [RegMech.new]; rw [e]; rfl⟩

theorem thermalStep_ok (U : g.Usable n) {params : ThermParams} {refined : Option (RefinedGrid ℝ)} {ext : ExtTemp}
    {a a' t : NdArray} (h0 : ∀ x ∈ t.data, 0 ≤ x)
    (hp : params.regularization = none → a.Has [n, 2] ∧ a'.Has [n, 2] ∧ t.Has [n] ∧ ∃ e, 0 ≤ e ∧ ext 0 = .ok e)
    (hr : params.regularization ≠ none → ∃ r k, refined = some r ∧ r.toGrid.Usable k ∧ a.Has [n, 2, 6] ∧ a'.Has [n, 2, 6] ∧
      t.Has [k]) :
    ∃ m, thermalStep g a a' t params ext refined = .ok m := by
  unfold thermalStep
  split
  · rename_i hreg
    obtain ⟨h1, h2, h3, e, he, hext⟩ := hp hreg
    obtain ⟨A, B, hA, hB, rfl⟩ := NdArray.exists_cols h1 U.pos
    obtain ⟨A', B', hA', hB', rfl⟩ := NdArray.exists_cols h2 U.pos
    obtain ⟨ht1, ht2⟩ := NdArray.of1_data h3
    have e1 := P1ThermModel.new_eq U hA hB hA' hB' ht2 h0 (r := params.searchRadius) (fps := params.fps) he
    rw [ht1] at e1
    exact ⟨_, by rw [P1Therm.new, hext, bind_ok, e1]; rfl⟩
  · rename_i reg hreg
    obtain ⟨r, k, rfl, F, h1, h2, h3⟩ := hr (by rw [hreg]; simp)
    obtain ⟨A, B, hA, hB, hA6, hB6, rfl⟩ := NdArray.exists_blocks h1 U.pos
    obtain ⟨A', B', hA', hB', hA6', hB6', rfl⟩ := NdArray.exists_blocks h2 U.pos
    obtain ⟨ht1, ht2⟩ := NdArray.of1_data h3
    have e1 := RegThermModel.new_eq U F hA hB hA' hB' hA6 hB6 hA6' hB6' ht2 h0 (r := params.searchRadius) (fps := params.fps)
    rw [ht1] at e1
    exact ⟨_, by simp only [RegTherm.new]; rw [e1]; rfl⟩

end

section
variable {solver : Solver} {it : SetIter} {domain : RectDomain ℝ} {params : SimParams} {ext : ExtTemp}
  {traction : Traction}

theorem Sim.new_ok (S : Setup domain params) (hfps : params.fps ≠ 0)
    (hs1 : ∀ g n refined m, g.Usable n → (∀ r, refined = some r → ∃ k, r.toGrid.Usable k) →
      mechanicalStep g params.mechanicalStepParams refined traction = .ok m → (solver [] m.problem).err = none)
    (hs2 : ∀ (m : MechStep) (t : ThermStep) y0 y1 θ, ThermReady t y0 y1 θ 0 → t.searchRadius = params.searchRadius →
      (solver [m.problem] t.problem).err = none)
    (ht : params.regularization = none → ∀ x y, ∃ l, traction 0 x y = .ok l ∧ 2 ≤ l.length)
    (he : params.regularization = none → ∃ e, 0 ≤ e ∧ ext 0 = .ok e) :
    ∃ s, Sim.new solver it domain params ext traction = .ok s := by
  obtain ⟨g, refined, hg, hr⟩ := S.grids_ok it
  obtain ⟨G, g1, g2⟩ := S.grids hg hr
  have U := G.usable
  obtain ⟨m, hm⟩ := mechanicalStep_ok U (params := params.mechanicalStepParams) (refined := refined) (tr := traction)
    S.facts.1 (fun h => by
      obtain ⟨k, r, p, -, -, h3, -, h4, -⟩ := g2 h
      exact ⟨r, _, h3, h4.usable⟩) (fun h v _ => ht h _ _)
  obtain ⟨Sh, -, F⟩ := S.simShape hg hr hm
  obtain ⟨a1, a2, -, -, -, a6, a7⟩ := mechanicalStep_facts U F hm
  set o1 := solver [] m.problem with ho1
  have w1 := a1.load o1
  have hprevY := w1.2.1
  have hprevT := w1.2.2.1
  obtain ⟨step0, r1, e1, -⟩ := appendStep_ok Sh (hprevY ▸ a1.prevY) (hprevT ▸ a1.prevTheta)
    (⟨[], 1 / params.fps, -(1 / params.fps), 0, (⊤, ⊥), (⊤, ⊥)⟩ : Record)
  have hT0 : ∀ x ∈ m.prevTheta.data, 0 ≤ x := by
    have h0 := S.facts.1
    rcases (mechanicalStep_cases U F hm).2 with ⟨-, G1, G2, -, rfl⟩ | ⟨reg, f, k, -, -, -, rfl⟩
    · intro x hx
      simp only [MechStep.prevTheta, P1Mech.prevTheta, initialP1Mech, NdArray.of1, List.mem_replicate] at hx
      rw [hx.2]; exact h0
    · intro x hx
      simp only [MechStep.prevTheta, RegMech.prevTheta, initialRegMech, NdArray.of1, List.mem_replicate] at hx
      rw [hx.2]; exact h0
  obtain ⟨t, htherm⟩ := thermalStep_ok U (params := params.thermalStepParams) (refined := refined) (ext := ext)
    (a := m.prevY) (a' := (m.load o1).y) (t := m.prevTheta) hT0 (fun h => by
      obtain ⟨-, -, h3, h4⟩ := a6 h
      exact ⟨h3 ▸ a1.prevY, h3 ▸ w1.1.y, h4 ▸ a1.prevTheta, he h⟩) (fun h => by
      obtain ⟨-, -, r, k, h3, h4, h5, h6⟩ := a7 h
      exact ⟨r, k, h3, h4, h5 ▸ a1.prevY, h5 ▸ w1.1.y, h6 ▸ a1.prevTheta⟩)
  obtain ⟨c1, c2, c3, -⟩ := thermalStep_cases U F a1.prevY.2 w1.1.y.2 a1.prevTheta.2 htherm
  rw [a1.prevY.1, a1.prevTheta.1] at c1
  have ok1 : o1.err = none := hs1 g _ refined m U F hm
  have ok2 : (solver [m.problem] t.problem).err = none := hs2 m t _ _ _ c2 c3
  set o2 := solver [m.problem] t.problem with ho2
  have w2 := c1.load o2
  obtain ⟨step1, r2, e2, -⟩ := appendStep_ok Sh w2.1.y w2.1.theta r1
  have hdiv : pyDiv 1 params.fps = .ok (1 / params.fps) := by rw [pyDiv, if_neg hfps]
  refine ⟨⟨domain, params, g, refined, m.load o1, t.load o2, r2, [m.problem, t.problem]⟩, ?_⟩
  unfold Sim.new
  rw [hg, bind_ok, hr, bind_ok, hm, bind_ok]
  simp only [← ho1]
  rw [Outcome.result_ok ok1, bind_ok, hdiv, bind_ok]
  simp only [e1]
  rw [bind_ok, hprevY, hprevT, htherm, bind_ok]
  simp only [← ho2]
  rw [Outcome.result_ok ok2, bind_ok]
  simp only [e2]
  rfl

/-! ### running a step -/

variable {s : Sim} {ys ts : List ℕ}

theorem MechStep.WF.updateBoundaryTraction_ok {m : MechStep} (h : m.WF ys ts) {time : ℝ}
    (ht : ∀ f, m.traction = some f → ∀ v ∈ m.grid.neumann.vertices, ∃ z a b, m.grid.At v z ∧ f time z.1 z.2 = .ok [a, b]) :
    (m.updateBoundaryTraction time).1 = .ok () := by
  rcases m with s | s
  · obtain ⟨n, w, -, -⟩ := h
    have key : ∀ v ∈ s.model.neumannVertices, ∃ p a b, pointArgs s.grid v = .ok p ∧ s.traction time p.1 p.2 = .ok [a, b] := by
      intro v hv
      rw [w.nv] at hv
      obtain ⟨z, a, b, h1, h2⟩ := ht s.traction rfl v (mem_pySet.1 hv)
      have h1' : s.grid.points[v]? = some (vec2 z) := by
        rw [w.grid]; exact h1
      refine ⟨z, a, b, ?_, h2⟩
      rw [pointArgs, pyGet_eq_ok.2 h1']; rfl
    classical
    let G1 : ℕ → ℝ := fun v => if hv : v ∈ s.model.neumannVertices then (key v hv).choose_spec.choose else 0
    let G2 : ℕ → ℝ := fun v => if hv : v ∈ s.model.neumannVertices then (key v hv).choose_spec.choose_spec.choose else 0
    have kk : ∀ v ∈ s.model.neumannVertices, ∃ p, pointArgs s.grid v = .ok p ∧
        s.traction time p.1 p.2 = .ok [G1 v, G2 v] := by
      intro v hv
      have := (key v hv).choose_spec.choose_spec.choose_spec
      exact ⟨_, this.1, by simp only [G1, G2, dif_pos hv]; exact this.2⟩
    have e := P1Mech.updateBoundaryTraction_eq w G1 G2 kk
    show (P1Mech.updateBoundaryTraction time s).1 = _
    rw [e]
  · rfl

theorem ThermStep.updateExternalTemperature_ok {m : ThermStep} {time : ℝ}
    (ht : ∀ f, m.ext = some f → ∃ e, 0 ≤ e ∧ f time = .ok e) : (m.updateExternalTemperature time).1 = .ok () := by
  rcases m with s | s
  · obtain ⟨e, he, h⟩ := ht s.externalTemperature rfl
    show (P1Therm.updateExternalTemperature time s).1 = _
    rw [P1Therm.updateExternalTemperature_eq h he]
  · rfl

theorem Sim.updateMech_ok (hm : s.mech.WF ys ts) (ht : s.therm.WF ys ts) (h0 : ∀ x ∈ s.therm.theta.data, 0 ≤ x)
    (htr : ∀ f, s.mech.traction = some f → ∀ v ∈ s.mech.grid.neumann.vertices, ∃ z a b, s.mech.grid.At v z ∧
      f s.record.currentTime z.1 z.2 = .ok [a, b]) : (updateMechanicalStep s).1 = .ok () := by
  obtain ⟨m1, e1, w1, a1, a2, a3, a4, a5⟩ := hm.updatePrevY_ok ht.y
  have st1 := MechStep.static_of_eraseY a5
  have q1 : onMech (MechStep.updatePrevY s.therm.y) s = (.ok (), { s with mech := m1 }) := by
    rw [onMech, PyS.onAttr_apply, e1]
  obtain ⟨m2, e2, w2, b1, b2⟩ := w1.updatePrevTheta_ok ht.theta h0
  have st2 := MechStep.static_of_eraseTheta b2
  have q2 : onMech (MechStep.updatePrevTheta s.therm.theta) { s with mech := m1 } =
      (.ok (), { s with mech := m2 }) := by rw [onMech, PyS.onAttr_apply, e2]
  have st := st2.trans st1
  rw [updateMechanicalStep, PyS.get_bind, PyS.bind_of_ok q1, PyS.get_bind, PyS.bind_of_ok q2, PyS.get_bind, onMech,
    PyS.onAttr_apply]
  refine w2.updateBoundaryTraction_ok fun f hf => ?_
  rw [MechStep.static_traction st] at hf
  rw [MechStep.static_grid st]
  exact htr f hf

theorem Sim.updateTherm_ok (hm : s.mech.WF ys ts) (ht : s.therm.WF ys ts) (h0 : ∀ x ∈ s.mech.prevTheta.data, 0 ≤ x)
    (he : ∀ f, s.therm.ext = some f → ∃ e, 0 ≤ e ∧ f s.record.currentTime = .ok e) : (updateThermalStep s).1 = .ok () := by
  obtain ⟨m1, e1, w1, a1, a2⟩ := ht.updatePrevY_ok hm.prevY
  have st1 := ThermStep.static_of_erasePrevY a2
  have q1 : onTherm (ThermStep.updatePrevY s.mech.prevY) s = (.ok (), { s with therm := m1 }) := by
    rw [onTherm, PyS.onAttr_apply, e1]
  obtain ⟨m2, e2, w2, b1, b2, b3, b4, b5⟩ := w1.updatePrevTheta_ok hm.prevTheta h0
  have st2 := ThermStep.static_of_eraseTheta b5
  have q2 : onTherm (ThermStep.updatePrevTheta s.mech.prevTheta) { s with therm := m1 } =
      (.ok (), { s with therm := m2 }) := by rw [onTherm, PyS.onAttr_apply, e2]
  obtain ⟨m3, e3, w3, c1, c2⟩ := w2.updateY_ok hm.y
  have st3 := ThermStep.static_of_eraseY c2
  have q3 : onTherm (ThermStep.updateY s.mech.y) { s with therm := m2 } =
      (.ok (), { s with therm := m3 }) := by rw [onTherm, PyS.onAttr_apply, e3]
  rw [updateThermalStep, PyS.get_bind, PyS.bind_of_ok q1, PyS.get_bind, PyS.bind_of_ok q2, PyS.get_bind,
    PyS.bind_of_ok q3, PyS.get_bind, onTherm, PyS.onAttr_apply]
  refine ThermStep.updateExternalTemperature_ok fun f hf => ?_
  rw [ThermStep.static_ext (st3.trans (st2.trans st1))] at hf
  exact he f hf

/-- the only reasons for a step to fail: a negative temperature, the boundary data, or the solver -/
theorem Sim.runSingle_ok (w : s.WF ys ts) (h0 : ∀ x ∈ s.therm.theta.data, 0 ≤ x)
    (htr : ∀ f, s.mech.traction = some f → ∀ v ∈ s.mech.grid.neumann.vertices, ∃ z a b, s.mech.grid.At v z ∧
      f s.record.currentTime z.1 z.2 = .ok [a, b])
    (he : ∀ f, s.therm.ext = some f → ∃ e, 0 ≤ e ∧ f s.record.currentTime = .ok e)
    (hs1 : ∀ m : MechStep, m.WF ys ts → m.static = s.mech.static →
      MechReady m s.therm.y s.therm.theta s.record.currentTime → (solver s.calls m.problem).err = none)
    (hs2 : ∀ (m : MechStep) (t : ThermStep) y0 y1 θ, ThermReady t y0 y1 θ s.record.currentTime →
      t.static = s.therm.static → (solver (s.calls ++ [m.problem]) t.problem).err = none) : ∃ s', runSingleStep solver s = (.ok (), s') := by
  rcases runSingle_any solver w with ⟨m, t, step, r, s', h, -⟩ | ⟨e, s', h, -, hf⟩
  · exact ⟨s', h⟩
  exfalso
  obtain ⟨m, res, e1, w1, st1, fx1, rd1⟩ := updateMech_any w.mech w.therm
  have hm := updateMech_ok w.mech w.therm h0 htr
  rw [e1] at hm
  simp only at hm
  subst hm
  set o1 := solver s.calls m.problem with ho1
  have w2 := w1.load o1
  have e2 : solveMech solver { s with mech := m } =
      (.ok (), { s with mech := m.load o1, calls := s.calls ++ [m.problem] }) := by
    have : solveMech solver { s with mech := m } =
      (o1.result, { s with mech := m.load o1, calls := s.calls ++ [m.problem] }) := rfl
    rw [this, Outcome.result_ok (hs1 m w1 st1 (rd1 rfl))]
  obtain ⟨t, res, e3, w3, st3, hy3, rd3⟩ := updateTherm_any
    (s := { s with mech := m.load o1, calls := s.calls ++ [m.problem] }) w2.1 w.therm
  have ht := updateTherm_ok (s := { s with mech := m.load o1, calls := s.calls ++ [m.problem] }) w2.1 w.therm
    (by simp only [w2.2.2.1, (rd1 rfl).prevTheta]; exact h0) he
  rw [e3] at ht
  simp only at ht
  subst ht
  set o2 := solver (s.calls ++ [m.problem]) t.problem with ho2
  have w4 := w3.load o2
  have e4 : solveTherm solver { s with mech := m.load o1, therm := t, calls := s.calls ++ [m.problem] } =
      (.ok (), { s with mech := m.load o1, therm := t.load o2, calls := s.calls ++ [m.problem, t.problem] }) := by
    have ok : o2.result = .ok () := Outcome.result_ok (hs2 m t _ _ _ (rd3 rfl) st3)
    rw [← ok, solveTherm_apply]; simp [ho2]
  obtain ⟨step, r', e5, -⟩ := appendStep_ok w.shape w4.1.y w4.1.theta s.record
  rw [runSingleStep, PyS.bind_of_ok e1, PyS.bind_of_ok e2, PyS.bind_of_ok e3, PyS.bind_of_ok e4, PyS.get_bind,
      PyS.get_bind, append, PyS.onAttr_apply] at h
  simp only [e5] at h
  cases h

end

end Tve
