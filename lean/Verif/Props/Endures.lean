import Verif.Lemmas.Endures

/-!
# C112: bodies at rest stay at rest, and cold bodies transform, also after failures
-/

namespace Tve
open Helpers

section
variable {solver : Solver} {domain : RectDomain ℝ} {params : SimParams} {ext : ExtTemp} {traction : Traction} {s : Sim}
  {leg : LegGauss} {q : GaussRule ℝ} {m0 m : MechStep} {t0 t : ThermStep} {b : Step} {time : ℝ} {i : ℕ} {y0 θ0 : NdArray}

/-- a thermal problem of a body whose strains do not change, with uniform temperature -/
theorem made_thermal_rest (hq : GaussRule.new leg 1 = .ok q) (c : s.Context domain params ext traction m0 t0)
    (S : Sim.MadeFrom solver m0 t0 s.calls b time i m t y0 θ0) (hw : ∀ w ∈ q.weights, 0 ≤ w) (hd : solver.Decreases leg)
    (hn : solver.RespectsDomain) (oa : Oriented s.grid s.refined y0) (hm : ModerateStrain s.grid s.refined b.yData)
    (hsame : SameStrain s.grid s.refined y0 b.yData) {x : ℝ} (hθ : ∀ z ∈ θ0.data, z = x)
    (he : params.regularization = none → ext time = .ok x) : b.thetaData.data = θ0.data := by
  have cx := c
  have E := cx.energetic
  have hf := c.fps_pos
  have st2 := S.thermStatic
  obtain ⟨n, hnv, hu, hth, V, hV, hder⟩ := made_therm_value hq c S oa hm.oriented
  have hnone : params.regularization = none → s.refined = none := c.grids
  have w := S.thermWF
  have M := cx.thermEnv w st2
  have hul : t.theta.data.length = t.unknowns.length := M.lengths.2.1.trans M.lengths.2.2.symm
  have hlen : θ0.data.length = n := by
    rw [← S.therm.theta, hul, ← hu]
    cases t <;> rfl
  set sol := solver (s.calls.take (i + 1)) t.problem with hsol
  have hb0 : b.thetaData.data = nodalList n sol.theta := by
    rw [S.theta, (w.load sol).2.2.2.2.1, therm_answer hth, hu]
  set f : ℕ → ℝ := (staySolver [] t.problem).theta with hfd
  have hst := stay_load [] t.problem
  have ha0 : θ0.data = nodalList n f := by
    rw [← S.therm.theta, ← hu, ← therm_answer hth, ← (w.load _).2.2.2.2.1]
    congr 1
    rcases t with t | t
    · simp only [ThermStep.load, ThermStep.problem, Problem.load] at *
      injection hst with hst
      rw [hst]
    · simp only [ThermStep.load, ThermStep.problem, Problem.load] at *
      injection hst with hst
      rw [hst]
  have hfc : ∀ z ∈ nodalList n f, z = x := by rw [← ha0]; exact hθ
  set η : ℕ → ℝ := fun i => sol.theta i - f i with hη
  have hobj : t.problem.objective leg = .ok (V f) := by rw [← hV, hst]
  obtain ⟨v, hv, hv'⟩ := hd _ _ S.thermOk _ hobj
  have hle : V sol.theta ≤ V f := by
    cases (hV sol).symm.trans hv'
    exact hv
  have hf0 : ∀ i < n, 0 ≤ f i := by
    intro i hi
    refine S.therm.nonneg _ ?_
    rw [ha0]
    exact List.mem_map.2 ⟨i, List.mem_range.2 hi, rfl⟩
  have hs0 : ∀ i < n, 0 ≤ sol.theta i := by
    intro i hi
    refine hn _ _ hth S.thermOk _ ?_
    rw [therm_answer hth, hu]
    exact List.mem_map.2 ⟨i, List.mem_range.2 hi, rfl⟩
  have hdv : ∀ τ : ℝ, ∃ R, HasDerivAt (fun τ => V fun i => f i + τ * η i) R τ ∧
      IsHeatBalance 2 leg params ext s.grid s.refined (time) y0 b.yData θ0
          (NdArray.of1 (nodalList n fun i => f i + τ * η i)) (NdArray.of1 (nodalList n η)) R := by
    intro τ
    obtain ⟨R, r1, r2⟩ := hder (fun i => f i + τ * η i) η
    refine ⟨R, ?_, r2⟩
    have r3 := HasDerivAt.comp (h := fun x : ℝ => x - τ) τ (by simpa using r1) ((hasDerivAt_id τ).sub_const τ)
    rw [mul_one] at r3
    refine r3.congr_of_eventuallyEq (Filter.Eventually.of_forall fun x => ?_)
    simp only [Function.comp]
    congr 1
    funext i
    ring
  by_contra hne
  have hne' : ∃ i < n, η i ≠ 0 := by
    by_contra hall
    push Not at hall
    apply hne
    rw [ha0, hb0, nodalList, nodalList]
    refine List.map_congr_left fun i hi => ?_
    have := hall i (List.mem_range.1 hi)
    simp only [hη] at this
    linarith
  obtain ⟨R0, -, b0⟩ := hdv 0
  simp only [zero_mul, add_zero] at b0
  have hR0 : R0 = 0 := b0.rest E hf (by simp [NdArray.of1, nodalList, hnv]) hsame hθ hfc hnone he
  choose R hR hRb using hdv
  have hmono : StrictMonoOn (fun τ => V fun i => f i + τ * η i) (Set.Icc 0 1) := by
    refine strictMonoOn_of_deriv_pos (convex_Icc 0 1) (fun τ _ => (hR τ).continuousAt.continuousWithinAt) fun τ hτ => ?_
    rw [interior_Icc] at hτ
    rw [(hR τ).deriv]
    by_contra hneg
    push Not at hneg
    have key := IsHeatBalance.strictMono E (κ := 2) (by norm_num) hf hq hw hm hnv hτ.1 hf0
      (fun i hi => by
        have h3 : f i + τ * η i = (1 - τ) * f i + τ * sol.theta i := by simp only [hη]; ring
        rw [h3]
        have h4 := hτ.1
        have h5 : 0 ≤ 1 - τ := by linarith [hτ.2]
        have := hf0 i hi
        have := hs0 i hi
        positivity) b0 (hRb τ) (by rw [hR0]; exact hneg)
    obtain ⟨i, hi, h3⟩ := hne'
    exact h3 (key i hi)
  have := hmono (Set.left_mem_Icc.2 zero_le_one) (Set.right_mem_Icc.2 zero_le_one) zero_lt_one
  simp only [zero_mul, add_zero, one_mul] at this
  have e : (fun i => f i + η i) = sol.theta := by funext i; simp only [hη]; ring
  rw [e] at this
  linarith

/-- an optimal answer to a mechanical problem is at least as good as any admissible deformation -/
theorem solve_beats (hq : GaussRule.new leg 1 = .ok q) (c : s.Context domain params ext traction m0 t0)
    {m : MechStep} (w : m.WF m0.yShape m0.thetaShape) (st1 : m.static = m0.static)
    (fx : m.unknowns.map VarData.fixed = m0.unknowns.map VarData.fixed) {y0 θ0 : NdArray} {time : ℝ} (rd : MechReady m y0 θ0 time)
    {sol : Outcome} (hopt : m.problem.IsOptimal leg sol) {y' : NdArray} (hy : y'.Has (deformShape s.grid s.refined))
    (hnear : ∀ (i : ℕ) (u v : ℝ), y0.data[i]? = some u → y'.data[i]? = some v → |v - u| ≤ params.searchRadius)
    (hfix : ∀ (i : ℕ) (u v : ℝ), vertexOf (deformShape s.grid s.refined) i ∈ s.grid.dirichlet.vertices →
      (s.refined ≠ none → i % 6 = 0) → y0.data[i]? = some u → y'.data[i]? = some v → v = u)
    (hdir : s.refined ≠ none → DirichletId s.grid y') (hor : Oriented s.grid s.refined y') :
    ∃ v w, IsMechObjective leg params traction s.grid s.refined time y0 (m.load sol).y θ0 v ∧
      IsMechObjective leg params traction s.grid s.refined time y0 y' θ0 w ∧ v ≤ w := by
  have haY : y0.Has m0.yShape := by rw [← rd.prevY]; exact w.prevY
  rw [c.yShape_eq] at w haY
  obtain ⟨it, hg⟩ := c.grid
  obtain ⟨Sh, ⟨n, U⟩, F⟩ := c.setup.simShape hg c.refined c.mech0
  obtain ⟨a1, a2, a3, a4, a5, a6, a7⟩ := mechanicalStep_facts U F c.mech0
  have hrad : m.searchRadius = params.searchRadius := (MechStep.static_searchRadius st1).trans a3
  have hM : ∀ o, MechEnv (m.load o) s.grid s.refined params traction := fun o =>
    c.mechEnv (w.load o).1 (by rw [← st1]; cases m <;> rfl)
  have hobj : ∀ o v, (m.problem.load o).objective leg = .ok v ↔
      IsMechObjective leg params traction s.grid s.refined (time) y0 (m.load o).y θ0 v := by
    intro o v
    have w' := w.load o
    have i1 := ((hM o).objective_iff hq (rd.tractionAt.load o)).1 v
    rwa [w'.2.1, w'.2.2.1, MechStep.load_problem, rd.prevY, rd.prevTheta] at i1
  obtain ⟨o, ho⟩ := w.exists_outcome hy
  have hdef := ((hM o).objective_oriented hq (rd.tractionAt.load o)).2 (by rw [ho]; exact hor)
  rw [MechStep.load_problem] at hdef
  obtain ⟨v', hv'⟩ := hdef
  obtain ⟨hadm, v, hv, hmin⟩ := hopt
  have hnt : ¬ m.problem.IsTherm := by cases m <;> simp [MechStep.problem, Problem.IsTherm]
  have hans : m.problem.answer o = y'.data := by rw [← (w.load o).2.2.2.1, ho]
  have hA : m.problem.Admits o := by
    refine ⟨?_, fun h => absurd h hnt, ?_⟩
    · rw [hans]
      have e2 := rd.around
      have lz := has_length haY hy
      rw [List.forall₂_iff_get] at e2 ⊢
      refine ⟨e2.1.trans lz, fun i i1 i2 => ?_⟩
      have i3 : i < y0.data.length := e2.1 ▸ i1
      obtain ⟨f3, f4, f5⟩ := e2.2 i i1 i3
      simp only [List.get_eq_getElem] at f3 f4 f5 ⊢
      have hn := hnear i _ _ (List.getElem?_eq_getElem i3) (List.getElem?_eq_getElem i2)
      rw [abs_le] at hn
      rw [hrad] at f4 f5
      have f3' : m.problem.unknowns[i].value = y0.data[i] := f3
      have f4' : m.problem.unknowns[i].lb = y0.data[i] - params.searchRadius := f4
      have f5' : m.problem.unknowns[i].ub = y0.data[i] + params.searchRadius := f5
      refine ⟨by rw [f4']; linarith, by rw [f5']; linarith, fun hfx => ?_⟩
      have hflag : (m0.unknowns.map VarData.fixed)[i]? = some true := by
        rw [← fx, List.getElem?_map]
        show Option.map VarData.fixed m.problem.unknowns[i]? = _
        rw [List.getElem?_eq_getElem i1]
        exact congrArg some hfx
      have hm := mechanicalStep_flags U F c.mech0 hflag
      rw [c.yShape_eq] at hm
      rw [f3']
      exact hfix i _ _ hm.1 (fun hne => hm.2 (by
        rcases hR : s.refined with _ | r
        · exact absurd hR hne
        · rfl)) (List.getElem?_eq_getElem i3) (List.getElem?_eq_getElem i2)
    · rw [← MechStep.load_problem, (hM o).constraints_iff, ho]
      exact hdir
  refine ⟨v, v', ?_, ?_, hmin o v' hA hv'⟩
  · exact (hobj _ v).1 hv
  · have := (hobj o v').1 hv'
    rwa [ho] at this

theorem Undeformed.oriented {g : Grid ℝ} {refined : Option (RefinedGrid ℝ)} {y : NdArray} (h : Undeformed g refined y) :
    Oriented g refined y := by
  obtain ⟨D, r, u1, u2, u3⟩ := h
  exact ⟨D, r, u1, u2, fun t ht b hb => ⟨1, u3 t ht b hb, by simp⟩⟩

theorem Sim.Context.regularization_nonneg (c : s.Context domain params ext traction m0 t0) {κ : ℝ}
    (h : params.regularization = some κ) : 0 ≤ κ := by
  obtain ⟨_, _, _, _, _, _, h'⟩ := c.setup.valid
  obtain ⟨-, -, -, -, -, -, -, -, h5, h6, -⟩ := simParams_ok h'
  exact h6 κ (h5.symm.trans h)

theorem Sim.Context.no_work (c : s.Context domain params ext traction m0 t0) (hreg : params.regularization = none)
    (ht : NoTraction params traction s.grid time) {y : NdArray} {w : ℝ} (h : IsBoundaryWork leg s.grid traction time y w) : w = 0 := by
  obtain ⟨it, hg⟩ := c.grid
  have hN := (C15_neumann_vertices_partial c.setup.facts.2.2.2.1 c.setup.width c.setup.height hg).2.2.1
  exact h.zero hN (ht hreg)

/-- the hyper elastic energy is not negative -/
theorem Sim.Context.hyper_nonneg (c : s.Context domain params ext traction m0 t0) {y θ : NdArray} {E h : ℝ} {r : RefinedGrid ℝ}
    (hr : s.refined = some r) (hE : IsElasticEnergy s.grid s.refined y θ E) (hh : IsHyperEnergy s.grid r y h) : 0 ≤ h := by
  obtain ⟨D, T, rr, W, q1, -⟩ := hE
  have en := c.energetic
  rw [hr] at en q1
  obtain ⟨x, -, z1, z2⟩ := hyperCode_ok en q1
  cases hh.unique z1
  exact z2

/-- a mechanical solve for a body at rest -/
theorem Sim.Context.rests (c : s.Context domain params ext traction m0 t0) (hq : GaussRule.new leg 1 = .ok q)
    (hd : solver.Decreases leg) {ys ts : List ℕ} (w : m.WF ys ts) (hm : m.static = m0.static) {y θ : NdArray}
    (rd : MechReady m y θ time) (hr : AtRest params s.grid s.refined y)
    (hθ : ∀ x ∈ θ.data, 0 ≤ x ∧ ∃ α, austenitePercentage x = .ok α ∧ 1 ≤ 3 * α + 2 * params.fps)
    (ht : NoTraction params traction s.grid time) (cs : List Problem) (ok : (solver cs m.problem).err = none) :
    AtRest params s.grid s.refined (m.load (solver cs m.problem)).y := by
  obtain ⟨hu, hh⟩ := hr
  obtain ⟨e0, e1, d, ⟨E0, a1, a2, a3⟩, ⟨E1, b1, b2, b3⟩, k3, k4, k5⟩ := c.descent hq hd w hm rd hu.oriented cs ok
  have hf := c.fps_pos
  obtain ⟨gain, g2⟩ := stay_gain c.energetic hf hu hθ a1 b1 k3
  rcases hreg : params.regularization with _ | κ
  · obtain ⟨w0, f1, rfl⟩ := a2 hreg
    obtain ⟨w1, f2, rfl⟩ := b2 hreg
    rw [c.no_work hreg ht f1, c.no_work hreg ht f2] at k5
    exact ⟨g2 (by linarith), by intro κ h; rw [hreg] at h; cases h⟩
  · obtain ⟨r, x0, r1, f1, rfl⟩ := a3 κ hreg
    obtain ⟨r', x1, r2, f2, rfl⟩ := b3 κ hreg
    cases r1.symm.trans r2
    obtain ⟨r'', x0', r3, l2, l3⟩ := hh κ hreg
    cases r1.symm.trans r3
    cases l2.unique f1
    have hκ := c.regularization_nonneg hreg
    have hx := mul_nonneg hκ (c.hyper_nonneg r1 b1 f2)
    refine ⟨g2 (by linarith), fun κ' h => ?_⟩
    cases hreg.symm.trans h
    exact ⟨r, x1, r1, f2, by linarith⟩

variable {a : Step}

/-- **C112** (bodies that stay). Let the solver not increase objectives and load nothing when a thermal solve fails. In every simulation,
also if calls of `run` have failed: if a recorded deformation is at rest, no traction acts and for every recorded temperature three times
the austenite fraction plus twice the number of steps per time is at least one, then the next recorded deformation is at rest. -/
theorem C112_stays (hs : s.Reachable solver domain params ext traction) (hk : solver.KeepsTemperature)
    (hq : GaussRule.new leg 1 = .ok q) (hd : solver.Decreases leg) {k : ℕ} (ha : s.steps[k]? = some a)
    (hb : s.steps[k + 1]? = some b) (hr : AtRest params s.grid s.refined a.yData)
    (hθ : ∀ x ∈ a.thetaData.data, 0 ≤ x ∧ ∃ α, austenitePercentage x = .ok α ∧ 1 ≤ 3 * α + 2 * params.fps)
    (ht : NoTraction params traction s.grid (k / params.fps)) : AtRest params s.grid s.refined b.yData := by
  set Q : Step → ℝ → NdArray → Prop := fun a' τ y => a' = a → τ = k / params.fps → AtRest params s.grid s.refined y with hQ
  have := (hs.chain hk Q Q (fun _ _ _ h => h) (fun k a' _ h _ => h ▸ hr) ?_).2 k a b ha hb rfl rfl
  · exact this
  · intro m0 t0 c j a' _ m y cs w1 w2 _ rd ok _ hy e1 e2
    exact c.rests hq hd w1 w2 rd (hy e1 e2) (e1 ▸ hθ) (e2 ▸ ht) cs ok

/-- an optimal step of a cold undeformed body -/
theorem Sim.Context.gains (hs : s.Reachable solver domain params ext traction) (c : s.Context domain params ext traction m0 t0)
    (hq : GaussRule.new leg 1 = .ok q) {k : ℕ} {st : Step} (ha : s.steps[k]? = some a) (hst : s.steps[0]? = some st)
    (hya : a.yData = st.yData) (hsl : CanSlide domain params) {τ : ℝ} (hcold : 3 * (1 - Real.exp (-5 * τ)) + 2 * params.fps < 1)
    {θ : NdArray} (hθ : ∀ x ∈ θ.data, x ≤ τ) (ht : NoTraction params traction s.grid time)
    {m : MechStep} (w : m.WF m0.yShape m0.thetaShape) (st1 : m.static = m0.static)
    (fx : m.unknowns.map VarData.fixed = m0.unknowns.map VarData.fixed) (rd : MechReady m a.yData θ time)
    {sol : Outcome} (hopt : m.problem.IsOptimal leg sol) : HasGained params s.grid s.refined a.yData (m.load sol).y θ := by
  have hf := c.fps_pos
  obtain ⟨δ, δ0, hδ⟩ := shear_key hcold
  obtain ⟨y', D, S, cc, y1, y2, y3, y4, y5, y6, y7, y8, y9⟩ := slide_candidate hs ha hst hya hsl δ0
  obtain ⟨r, hr, R⟩ := energyRule_good s.refined
  have hor : Oriented s.grid s.refined y' := by
    refine ⟨D, r, y5, hr, fun t ht b hb => ⟨_, y6 t ht b (R.inside b hb).1, ?_⟩⟩
    obtain ⟨z1, z2⟩ := y7 t ht
    rw [(hδ _ z1 _ le_rfl _ z2).1]
    exact one_pos
  obtain ⟨v, w, ⟨E1, d, b1, b2, b3, b4⟩, ⟨E2, d2, c1, c2, c3, c4⟩, hle⟩ :=
    solve_beats hq c w st1 fx rd hopt y1 y2 (fun i u v h _ => y3 i u v h) y4 hor
  obtain ⟨st', hst', -, -, D0, hD0, hI⟩ := C68_initial hs
  cases hst.symm.trans hst'
  rw [← hya] at hD0
  have hu : Undeformed s.grid s.refined a.yData := ⟨D0, r, hD0, hr, fun t ht b hb => (hI t ht b (R.inside b hb).1).2.1⟩
  obtain ⟨D1, T, r1, W1, q1, q2, q3⟩ := id b1
  obtain ⟨E0, e0⟩ := hu.oriented.energy c.energetic.wf q2
  have drop := cold_drop c.energetic hu e0 c1 c2 hθ hδ y5 y6 y7 y8
  obtain ⟨d', -, f1, f2, -⟩ := dissCode_ok c.energetic hD0 q1
  cases b2.unique f1
  have hm : IsMotion s.grid s.refined a.yData (m.load sol).y d := by
    have := IsMotion.move .rest b2
    rwa [zero_add] at this
  refine ⟨E0, E1, d, e0, b1, hm, f2, ?_⟩
  rcases hreg : params.regularization with _ | κ
  · refine ⟨?_, fun κ h => by cases h⟩
    obtain ⟨w1, k1, rfl⟩ := b3 hreg
    obtain ⟨w2, k2, rfl⟩ := c3 hreg
    rw [c.no_work hreg ht k1, c.no_work hreg ht k2] at hle
    linarith
  · obtain ⟨rf, h1, k1, k2, rfl⟩ := b4 κ hreg
    obtain ⟨rf', h2, k3, k4, rfl⟩ := c4 κ hreg
    cases k1.symm.trans k3
    have x2 := c.hyper_nonneg k1 b1 k2
    rw [k1] at y5
    have h20 : h2 = 0 := by
      obtain ⟨D', r', W', l1, l2, l3, rfl⟩ := k4
      cases y5.symm.trans l1
      obtain ⟨r5, m1, R5⟩ := dunavant5_good
      cases l2.symm.trans m1
      have z : ∀ t ∈ rf.toGrid.triangles, ∀ b ∈ r'.points, W' t b = 0 := by
        intro t ht b hb
        obtain ⟨Hh, n1, n2⟩ := l3 t ht b hb
        have n3 := y9 (by rw [hreg]; simp) t (by rw [k1]; exact ht) b (R5.inside b hb).1
        cases n1.symm.trans n3
        rw [n2, (C70_value _).2.1]
        simp
      rw [quad_congr z]
      have := quad_const (G := rf.toGrid) R5.len 0
      rw [this]
      ring
    rw [h20] at hle
    have := mul_nonneg (c.regularization_nonneg hreg) x2
    refine ⟨by linarith, fun κ' h => ?_⟩
    cases h
    exact ⟨rf, _, k1, k2, x2, by linarith⟩

/-- further steps keep what was gained -/
theorem Sim.Context.keeps_gain (c : s.Context domain params ext traction m0 t0)
    (hq : GaussRule.new leg 1 = .ok q) (hd : solver.Decreases leg) {ys ts : List ℕ} (w : m.WF ys ts) (hm : m.static = m0.static)
    {y θ : NdArray} (rd : MechReady m y θ time) (ht : NoTraction params traction s.grid time)
    (cs : List Problem) (ok : (solver cs m.problem).err = none) (h : HasGained params s.grid s.refined y0 y θ) :
    HasGained params s.grid s.refined y0 (m.load (solver cs m.problem)).y θ := by
  obtain ⟨E0, E1, d, a1, a2, a3, a4, a5, a6⟩ := h
  obtain ⟨e1, e2, d', ⟨E1', b1, b2, b3⟩, ⟨E2, k1, k2, k3⟩, k4, k5, k6⟩ := c.descent hq hd w hm rd (a2.oriented c.energetic) cs ok
  cases a2.unique b1
  have hf := c.fps_pos
  refine ⟨E0, E2, d + d', a1, k1, a3.move k4, by linarith, ?_⟩
  rcases hreg : params.regularization with _ | κ
  · obtain ⟨w0, f1, rfl⟩ := b2 hreg
    obtain ⟨w1, f2, rfl⟩ := k2 hreg
    rw [c.no_work hreg ht f1, c.no_work hreg ht f2] at k6
    exact ⟨by linarith, fun κ h => by cases h⟩
  · obtain ⟨r, x0, r1, f1, rfl⟩ := b3 κ hreg
    obtain ⟨r', x1, r2, f2, rfl⟩ := k3 κ hreg
    cases r1.symm.trans r2
    obtain ⟨r'', x0', r3, l2, l3, l4⟩ := a6 κ hreg
    cases r1.symm.trans r3
    cases l2.unique f1
    have hx := c.hyper_nonneg r1 k1 f2
    have := mul_nonneg (c.regularization_nonneg hreg) hx
    refine ⟨by linarith, fun κ' h => ?_⟩
    cases h
    exact ⟨r, x1, r1, f2, hx, by linarith⟩

/-- **C112** (bodies that transform). Let the solver answer mechanical problems optimally or fail, not increase objectives and load
nothing when a thermal solve fails. In every simulation, also if calls of `run` have failed: if a recorded deformation is the initial one,
the body can slide, no traction acts and, at a temperature that no recorded temperature exceeds, three times the austenite fraction plus
twice the number of steps per time is less than one, then the motion to the next recorded deformation gains more elastic energy than it
dissipates, and the next recorded deformation no longer has the strain 1. -/
theorem C112_transforms (hs : s.Reachable solver domain params ext traction) (hk : solver.KeepsTemperature)
    (hq : GaussRule.new leg 1 = .ok q) (hd : solver.Decreases leg) (hopt : s.MechOptimal solver leg) {k : ℕ} {st : Step}
    (ha : s.steps[k]? = some a) (hb : s.steps[k + 1]? = some b) (hst : s.steps[0]? = some st) (hya : a.yData = st.yData)
    (hsl : CanSlide domain params) {τ α : ℝ} (hα : austenitePercentage τ = .ok α) (hcold : 3 * α + 2 * params.fps < 1)
    (hθ : ∀ x ∈ a.thetaData.data, x ≤ τ) (ht : NoTraction params traction s.grid (k / params.fps)) :
    HasGained params s.grid s.refined a.yData b.yData a.thetaData ∧ Undeformed s.grid s.refined a.yData ∧
      ¬ Undeformed s.grid s.refined b.yData := by
  have hα' : α = 1 - Real.exp (-5 * τ) := Except.ok.inj (hα.symm.trans (aust_eq τ))
  rw [hα'] at hcold
  set R : Step → ℝ → NdArray → Prop := fun a' τ y => a' = a → τ = k / params.fps →
    HasGained params s.grid s.refined a.yData y a.thetaData with hR
  set Q : Step → ℝ → NdArray → Prop := fun a' τ y => a' = a → τ = k / params.fps →
    y = a.yData ∨ HasGained params s.grid s.refined a.yData y a.thetaData with hQ
  have main := (hs.chain hk Q R (fun _ _ _ h e1 e2 => .inr (h e1 e2)) (fun k a' _ h _ => .inl (by rw [h])) ?_).2 k a b ha hb rfl rfl
  swap
  · intro m0 t0 c j a' _ m y cs w1 w2 w3 rd ok hp hy e1 e2
    rw [e1, e2] at rd
    rcases hy e1 e2 with rfl | hy
    · exact c.gains hs hq ha hst hya hsl hcold hθ ht w1 w2 w3 rd (hopt _ hp (by cases m <;> trivial) cs ok)
    · exact c.keeps_gain hq hd w1 w2 rd ht cs ok hy
  obtain ⟨r, hr, R⟩ := energyRule_good s.refined
  obtain ⟨st', hst', -, -, D0, hD0, hI⟩ := C68_initial hs
  cases hst.symm.trans hst'
  rw [← hya] at hD0
  have hu : Undeformed s.grid s.refined a.yData := ⟨D0, r, hD0, hr, fun t ht b hb => (hI t ht b (R.inside b hb).1).2.1⟩
  refine ⟨main, hu, fun hub => ?_⟩
  obtain ⟨E0, E1, d, a1, a2, a3, a4, a5, -⟩ := main
  obtain ⟨m0, t0, c⟩ := hs.context
  have := a2.unique (undeformed_energy hu hub a1)
  have := mul_nonneg c.fps_pos.le a4
  linarith

/-- the initial step is at rest and has the initial temperature -/
theorem initial_rest (hs : s.Reachable solver domain params ext traction) {st : Step} (hst : s.steps[0]? = some st) :
    AtRest params s.grid s.refined st.yData ∧ ∀ x ∈ st.thetaData.data, x = params.initialTemperature := by
  obtain ⟨st0, k1, -, k2, D, k3, k4⟩ := C68_initial hs
  obtain ⟨st0', a, E, l1, -, -, -, -, l2⟩ := C68_energy hs
  cases k1.symm.trans hst
  cases l1.symm.trans hst
  obtain ⟨r, hr, Rg⟩ := energyRule_good s.refined
  refine ⟨⟨⟨D, r, k3, hr, fun t ht b hb => (k4 t ht b (Rg.inside b hb).1).2.1⟩, fun κ hκ => ?_⟩, fun x hx => ?_⟩
  · obtain ⟨r, h1, h2⟩ := l2 (by rw [hκ]; simp)
    exact ⟨r, 0, h1, h2, mul_zero _⟩
  · rw [k2] at hx
    exact List.eq_of_mem_replicate hx

/-- warm bodies satisfy the condition for staying -/
theorem warm_stays {f T : ℝ} (hf : 0 < f) (hT : transitionTemperature ≤ T) :
    ∃ α, austenitePercentage T = .ok α ∧ 1 ≤ 3 * α + 2 * f := by
  obtain ⟨α, h1, h2⟩ := C96_percentage (t := T)
  exact ⟨α, h1, by have := h2.2 hT; linarith⟩

theorem Sim.Context.initial_nonneg (c : s.Context domain params ext traction m0 t0) : 0 ≤ params.initialTemperature := by
  obtain ⟨_, _, _, _, _, _, h⟩ := c.setup.valid
  obtain ⟨h1, -, -, -, h2, -⟩ := simParams_ok h
  rw [h2]; exact h1

/-- all states of a simulation without failures that starts with short steps or a warm body -/
theorem stay_healthy (hs : s.Healthy solver domain params ext traction)
    (hq : GaussRule.new leg 1 = .ok q) (hw : ∀ w ∈ q.weights, 0 ≤ w) (hd : solver.Decreases leg) (hn : solver.RespectsDomain)
    (hα : ∃ α, austenitePercentage params.initialTemperature = .ok α ∧ 1 ≤ 3 * α + 2 * params.fps)
    (ht : params.regularization = none → ∀ time x y, traction time x y = .ok [0, 0])
    (he : params.regularization = none → ∀ time, ext time = .ok params.initialTemperature) {st : Step} (hst : st ∈ s.steps) :
    AtRest params s.grid s.refined st.yData ∧ ∀ x ∈ st.thetaData.data, x = params.initialTemperature := by
  obtain ⟨k, hk, rfl⟩ := List.mem_iff_getElem.1 hst
  obtain ⟨m0, t0, c⟩ := hs.reachable.context
  induction k with
  | zero => exact initial_rest hs.reachable (List.getElem?_eq_getElem hk)
  | succ k ih =>
    have ha := List.getElem?_eq_getElem (show k < s.steps.length by omega)
    have hb := List.getElem?_eq_getElem hk
    obtain ⟨r1, r2⟩ := ih (by omega) (List.getElem_mem _)
    obtain ⟨m1, m2⟩ := C99_stays hs hq hd ha hb r1.1 r1.2 (fun x hx => by
      rw [r2 x hx]; exact ⟨c.initial_nonneg, hα⟩) fun hr v _ => ht hr _ _ _
    refine ⟨⟨m1, m2⟩, ?_⟩
    rw [C97_thermal hs hq hw hd hn ha hb m1.moderate (r1.1.same m1) r2 fun hr => he hr _]
    exact r2

/-- all states of a simulation that starts with short steps or a warm body -/
theorem stay_all (hs : s.Reachable solver domain params ext traction) (hk : solver.KeepsTemperature)
    (hq : GaussRule.new leg 1 = .ok q) (hw : ∀ w ∈ q.weights, 0 ≤ w) (hd : solver.Decreases leg) (hn : solver.RespectsDomain)
    (hα : ∃ α, austenitePercentage params.initialTemperature = .ok α ∧ 1 ≤ 3 * α + 2 * params.fps)
    (ht : params.regularization = none → ∀ time x y, traction time x y = .ok [0, 0])
    (he : params.regularization = none → ∀ time, ext time = .ok params.initialTemperature) :
    AtRest params s.grid s.refined s.therm.y ∧ ∀ st ∈ s.steps, AtRest params s.grid s.refined st.yData ∧
      ∀ x ∈ st.thetaData.data, x = params.initialTemperature := by
  refine hs.singles (P := fun s => AtRest params s.grid s.refined s.therm.y ∧ ∀ st ∈ s.steps,
    AtRest params s.grid s.refined st.yData ∧ ∀ x ∈ st.thetaData.data, x = params.initialTemperature) ?_ ?_
  · rintro s hh ⟨last, l1, l2, -⟩
    have key : ∀ st ∈ s.steps, AtRest params s.grid s.refined st.yData ∧
        ∀ x ∈ st.thetaData.data, x = params.initialTemperature := fun st hst => stay_healthy hh hq hw hd hn hα ht he hst
    exact ⟨by rw [l2]; exact (key _ (List.mem_of_getLast? l1)).1, key⟩
  · rintro s hs ⟨p1, p2⟩
    obtain ⟨m0, t0, last, c, l1, l2, -, hcase⟩ := hs.single_cases hk
    have c' : (Sim.runSingleStep solver s).2.Context domain params ext traction m0 t0 := c.single
    obtain ⟨hg, hr, -, hcase⟩ := hcase _ rfl
    generalize (Sim.runSingleStep solver s).2 = s' at *
    rcases hcase with ⟨h, -, h''⟩ | ⟨m, w1, w2, w3, w4, w5, w6, w7, h⟩
    · rw [h, h'', hg, hr]
      exact ⟨p1, p2⟩
    · have hθ := (p2 last (List.mem_of_getLast? l1)).2
      have hR : AtRest params s.grid s.refined s'.therm.y := by
        rw [w7]
        refine c.rests hq hd w1 w2 w4 p1 (fun x hx => ?_) (fun hreg v _ => ht hreg _ _ _) _ w5
        rw [l2] at hx
        rw [hθ x hx]
        exact ⟨c.initial_nonneg, hα⟩
      rcases h with ⟨h, -⟩ | ⟨t, step, h, hy, -, M⟩
      · rw [h, hg, hr]
        exact ⟨hR, p2⟩
      · rw [h, hg, hr]
        refine ⟨hR, fun st hst => ?_⟩
        rcases List.mem_append.1 hst with hst | hst
        · exact p2 st hst
        · rw [List.mem_singleton] at hst
          subst hst
          rw [hy]
          refine ⟨hR, ?_⟩
          have e : st.thetaData.data = s.therm.theta.data := by
            refine made_thermal_rest hq c' M hw hd hn ?_ ?_ ?_ (by rw [l2]; exact hθ) (fun hreg => he hreg _)
            · rw [hg, hr]; exact p1.1.oriented
            · rw [hg, hr, hy]; exact hR.1.moderate
            · rw [hg, hr, hy]; exact p1.1.same hR.1
          rw [e, l2]
          exact hθ

/-- **C112** (equilibrium). Let the solver not increase objectives, keep to nonnegative temperatures and load nothing when a thermal solve
fails. A simulation that starts at least at the transition temperature, without traction and with an external temperature equal to the
initial one (both only act without regularization), never leaves its initial state, however often calls of `run` fail: in every recorded
step the strain at the quadrature points is 1, all temperatures are the initial temperature, and without regularization, if part of the
boundary is fixed and the solver respects this, all vertices are where they were. -/
theorem C112_equilibrium (hs : s.Reachable solver domain params ext traction) (hk : solver.KeepsTemperature)
    (hq : GaussRule.new leg 1 = .ok q) (hw : ∀ w ∈ q.weights, 0 ≤ w) (hd : solver.Decreases leg) (hn : solver.RespectsDomain)
    (hT : transitionTemperature ≤ params.initialTemperature)
    (ht : params.regularization = none → ∀ time x y, traction time x y = .ok [0, 0])
    (he : params.regularization = none → ∀ time, ext time = .ok params.initialTemperature) {st : Step} (hst : st ∈ s.steps) :
    Undeformed s.grid s.refined st.yData ∧ (∀ x ∈ st.thetaData.data, x = params.initialTemperature) ∧
    (params.regularization = none → solver.RespectsFixed → (∃ f ∈ domain.fix.options, ∀ name, f ≠ .unknown name) →
      ∀ v ∈ s.grid.vertices, st.yData.deformed v = s.grid.xy v) := by
  obtain ⟨m0, t0, c⟩ := hs.context
  obtain ⟨h1, h2⟩ := (stay_all hs hk hq hw hd hn (warm_stays c.fps_pos hT) ht he).2 st hst
  exact ⟨h1.1, h2, fun hreg => (C97_positions hs hreg hst h1.1).2⟩

end

/-- A warm body without traction, with optimal answers of the solver, whose fourth call, a thermal one, fails: `run(1)` raises, then
`run(2)` records two further steps; all steps are at rest. -/
example (it : SetIter) {params : SimParams} (hp : params = exampleParams ∨ params = exampleParamsReg) :
    ∃ (leg : LegGauss) (q : GaussRule ℝ) (solver : Solver) (s s' s'' : Sim) (e : PyErr),
    GaussRule.new leg 1 = .ok q ∧ s.run solver 1 = (.error e, s') ∧ s'.run solver 2 = (.ok (), s'') ∧ s''.steps.length = 4 ∧
    ∀ st ∈ s''.steps, Undeformed s''.grid s''.refined st.yData ∧ (∀ x ∈ st.thetaData.data, x = 1) ∧
        (params = exampleParams → ∀ v ∈ s''.grid.vertices, st.yData.deformed v = s''.grid.xy v) := by
  have S : Setup exampleDomain params := by
    rcases hp with rfl | rfl
    · exact exampleSetup
    · exact exampleSetupReg
  have hf : 0 < params.fps := by rcases hp with rfl | rfl <;> norm_num [exampleParams, exampleParamsReg]
  have hT : params.initialTemperature = 1 := by rcases hp with rfl | rfl <;> rfl
  have hlog : transitionTemperature ≤ params.initialTemperature := by
    rw [hT, transitionTemperature]
    have := Real.log_le_sub_one_of_pos (show (0 : ℝ) < 3 / 2 by norm_num)
    linarith
  obtain ⟨leg, q, F, s, s', s'', e, hq, hw, hk, hd, hc, hn, hfx, h1, h2, h3, h4, -⟩ := failing_run_of it S hf
    (ext := fun _ => .ok 1) (traction := fun _ _ _ => .ok [0, 0]) fun _ => ⟨fun _ _ _ => ⟨_, _, rfl⟩, fun _ => ⟨1, zero_le_one, rfl⟩⟩
  refine ⟨leg, q, F, s, s', s'', e, hq, h1, h2, h4, fun st hst => ?_⟩
  obtain ⟨k1, k2, k3⟩ := C112_equilibrium h3 hk hq hw hd hn hlog (fun _ _ _ _ => rfl) (fun _ _ => by rw [hT]) hst
  refine ⟨k1, by rw [← hT]; exact k2, fun e => k3 (by rw [e]; rfl) hfx ⟨.lower, ?_, by simp⟩⟩
  simp [exampleDomain, Fix.options]

/-- In the same situation, the second recorded step is at rest and C112 applies to the next one, which was recorded after the failure. -/
example (it : SetIter) {params : SimParams} (hp : params = exampleParams ∨ params = exampleParamsReg) :
    ∃ (solver : Solver) (s s' s'' : Sim) (e : PyErr) (a b : Step),
    s.run solver 1 = (.error e, s') ∧ s'.run solver 2 = (.ok (), s'') ∧ s''.steps[1]? = some a ∧ s''.steps[2]? = some b ∧
    AtRest params s''.grid s''.refined a.yData ∧ AtRest params s''.grid s''.refined b.yData := by
  have S : Setup exampleDomain params := by
    rcases hp with rfl | rfl
    · exact exampleSetup
    · exact exampleSetupReg
  have hf : 0 < params.fps := by rcases hp with rfl | rfl <;> norm_num [exampleParams, exampleParamsReg]
  have hf1 : 1 ≤ 2 * params.fps := by rcases hp with rfl | rfl <;> norm_num [exampleParams, exampleParamsReg]
  have hT : params.initialTemperature = 1 := by rcases hp with rfl | rfl <;> rfl
  have hlog : transitionTemperature ≤ params.initialTemperature := by
    rw [hT, transitionTemperature]
    have := Real.log_le_sub_one_of_pos (show (0 : ℝ) < 3 / 2 by norm_num)
    linarith
  obtain ⟨leg, q, F, s, s', s'', e, hq, hw, hk, hd, hc, hn, hfx, h1, h2, h3, h4, -⟩ := failing_run_of it S hf
    (ext := fun _ => .ok 1) (traction := fun _ _ _ => .ok [0, 0]) fun _ => ⟨fun _ _ _ => ⟨_, _, rfl⟩, fun _ => ⟨1, zero_le_one, rfl⟩⟩
  have ea := List.getElem?_eq_getElem (by omega : 1 < s''.steps.length)
  have eb := List.getElem?_eq_getElem (by omega : 1 + 1 < s''.steps.length)
  have hr := ((stay_all h3 hk hq hw hd hn (warm_stays hf hlog) (fun _ _ _ _ => rfl) (fun _ _ => by rw [hT])).2 _ (List.mem_of_getElem? ea))
  refine ⟨F, s, s', s'', e, _, _, h1, h2, ea, eb, hr.1, C112_stays h3 hk hq hd ea eb hr.1 (fun x hx => ?_) fun _ _ _ => rfl⟩
  rw [hr.2 x hx, hT]
  refine ⟨zero_le_one, _, aust_eq _, ?_⟩
  have : Real.exp (-5 * 1) ≤ 1 := Real.exp_le_one_iff.2 (by norm_num)
  linarith

/-- A cold body with optimal answers of the solver, whose fourth call fails: it has left its initial state in the first step. -/
example (it : SetIter) : ∃ (solver : Solver) (s s' s'' : Sim) (e : PyErr) (a b : Step),
    s.run solver 1 = (.error e, s') ∧ s'.run solver 2 = (.ok (), s'') ∧ s''.steps[0]? = some a ∧ s''.steps[1]? = some b ∧
    Undeformed s''.grid s''.refined a.yData ∧ ¬ Undeformed s''.grid s''.refined b.yData := by
  obtain ⟨leg, q, F, s, s', s'', e, hq, hw, hk, hd, hc, hn, hfx, h1, h2, h3, h4, h5⟩ := failing_run_of it coldSetup
    (by norm_num [coldParams]) (ext := fun _ => .ok 0) (traction := fun _ _ _ => .ok [0, 0])
    fun _ => ⟨fun _ _ _ => ⟨0, 0, rfl⟩, fun _ => ⟨0, le_rfl, rfl⟩⟩
  have ea := List.getElem?_eq_getElem (by omega : 0 < s''.steps.length)
  have eb := List.getElem?_eq_getElem (by omega : 0 + 1 < s''.steps.length)
  obtain ⟨st, k1, -, k2, -⟩ := C68_initial h3
  cases ea.symm.trans k1
  have := C112_transforms h3 hk hq hd (fun p hp _ cs h => h5 p hp cs h) ea eb ea rfl
    ⟨fun _ => Or.inl ⟨by simp [exampleDomain, Fix.options], by norm_num [coldParams, exampleDomain]⟩, fun h => absurd rfl h⟩
    (aust_eq 0) (by norm_num [coldParams]) (fun x hx => by
      rw [k2] at hx
      rw [List.eq_of_mem_replicate hx]
      norm_num [coldParams]) (fun _ _ _ => rfl)
  exact ⟨F, s, s', s'', e, _, _, h1, h2, ea, eb, this.2⟩

end Tve
