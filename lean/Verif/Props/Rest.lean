import Verif.Lemmas.Rest

/-!
# C97: equilibria
-/

namespace Tve
open Helpers

variable {solver : Solver} {domain : RectDomain ℝ} {params : SimParams} {ext : ExtTemp} {traction : Traction} {s : Sim}
  {leg : LegGauss} {q : GaussRule ℝ}

theorem IsBoundaryWork.zero {g : Grid ℝ} {time : ℝ} {y : NdArray} {w : ℝ}
    (hN : ∀ v, IsEndpoint v g.neumann.edges → v ∈ g.neumann.vertices)
    (h0 : ∀ v ∈ g.neumann.vertices, traction time (g.xy v).1 (g.xy v).2 = .ok [0, 0]) (h : IsBoundaryWork leg g traction time y w) : w = 0 := by
  obtain ⟨r, T, h1, h2, rfl⟩ := h
  have h3 : ∀ v, IsEndpoint v g.neumann.edges → T v = 0 := by
    intro v hv
    obtain ⟨l, a1, a2, a3⟩ := h2 v (hN v hv)
    cases (h0 v (hN v hv)).symm.trans a1
    simp only [List.getElem?_cons_zero, List.getElem?_cons_succ, Option.some.injEq] at a2 a3
    exact Prod.ext a2.symm a3.symm
  rw [Grid.edgeQuad]
  apply List.sum_eq_zero
  intro x hx
  obtain ⟨e, he, rfl⟩ := List.mem_map.1 hx
  have e1 : T e.1 = 0 := h3 _ ⟨e, he, .inl rfl⟩
  have e2 : T e.2 = 0 := h3 _ ⟨e, he, .inr rfl⟩
  simp [e1, e2, GaussRule.value]

/-- **C97** (mechanical). A warm undeformed body to which no traction is applied stays undeformed: if the solver does not
increase the objective and all temperatures of a recorded step are at least the transition temperature, its deformation has
strain 1 at the quadrature points and (without regularization) the traction vanishes at the time of the step, then the
next recorded deformation has strain 1 at the quadrature points. -/
theorem C97_mechanical (hs : s.Healthy solver domain params ext traction) (hq : GaussRule.new leg 1 = .ok q)
    (hd : solver.Decreases leg) {k : ℕ} {a b : Step} (ha : s.steps[k]? = some a) (hb : s.steps[k + 1]? = some b)
    (hu : Undeformed s.grid s.refined a.yData) (hh : NoHyperEnergy params s.grid s.refined a.yData)
    (hθ : ∀ x ∈ a.thetaData.data, transitionTemperature ≤ x)
    (ht : params.regularization = none → ∀ v ∈ s.grid.neumann.vertices,
      traction (k / params.fps) (s.grid.xy v).1 (s.grid.xy v).2 = .ok [0, 0]) :
    Undeformed s.grid s.refined b.yData ∧ NoHyperEnergy params s.grid s.refined b.yData := by
  obtain ⟨m0, t0, c, -⟩ := hs.history
  have hf := hs.fps_pos
  rcases hreg : params.regularization with _ | κ
  · obtain ⟨E0, E1, w0, w1, d, k1, k2, k3, k4, k5, k6, k7, k8⟩ := C63_energy_decreases hs hq hd hreg ha hb
    obtain ⟨it, hg⟩ := c.grid
    have hN := (C15_neumann_vertices_partial c.setup.facts.2.2.2.1 c.setup.width c.setup.height hg).2.2.1
    rw [k3.zero hN (ht hreg), k4.zero hN (ht hreg)] at k7
    have := undeformed_of_le c.energetic hf le_rfl hu hθ k1 k2 k5 (by linarith)
    exact ⟨this.1, by intro κ h; rw [hreg] at h; cases h⟩
  · obtain ⟨r, hr, E0, E1, h0, h1, d, k1, k2, k3, k4, k5, k6, k7, k8, k9⟩ := C63_energy_decreases_regularized hs hq hd hreg ha hb
    obtain ⟨r', h0', l1, l2, l3⟩ := hh κ hreg
    cases hr.symm.trans l1
    cases l2.unique k3
    have hκ : 0 ≤ κ := by
      obtain ⟨_, _, _, _, _, _, h⟩ := c.setup.valid
      obtain ⟨-, -, -, -, -, -, -, -, h5, h6, -⟩ := simParams_ok h
      exact h6 κ (h5.symm.trans hreg)
    have := undeformed_of_le c.energetic hf (mul_nonneg hκ k5) hu hθ k1 k2 k6 (by linarith)
    refine ⟨this.1, fun κ' h => ?_⟩
    cases hreg.symm.trans h
    exact ⟨r, h1, hr, k4, this.2⟩

/-- The heat balance holds if the strains do not change and the temperature is uniform, does not change and is the external one. -/
theorem IsHeatBalance.rest (E : Energetic s.grid s.refined) {κ c time R : ℝ} (hf : 0 < params.fps)
    {y0 y θ0 θ η : NdArray} (hl : θ.data.length = (energyGrid s.grid s.refined).vertices.length)
    (hsame : SameStrain s.grid s.refined y0 y) (h0 : ∀ x ∈ θ0.data, x = c) (h1 : ∀ x ∈ θ.data, x = c)
    (hnone : params.regularization = none → s.refined = none) (he : params.regularization = none → ext time = .ok c)
    (h : IsHeatBalance κ leg params ext s.grid s.refined time y0 y θ0 θ η R) : R = 0 := by
  obtain ⟨r, F0, F, K, x0, x, z, qq, u, u0, G, H, b, a1, a2, a3, a4, a5, a6, rfl⟩ := h
  obtain ⟨D0, D, r', d1, d2, d3, d4⟩ := hsame
  cases a1.symm.trans d3
  obtain ⟨r', k1, Rg⟩ := energyRule_good s.refined
  cases a1.symm.trans k1
  obtain ⟨D0', D', T0, c1, c2, c3, c4⟩ := a2
  cases d1.symm.trans c1
  cases d2.symm.trans c2
  obtain ⟨T, b1, b2⟩ := a3
  obtain ⟨nx, ny, sc, L⟩ := E.lib
  have uni : ∀ {u : List ℝ} {T : Interp}, P1Interpolation (energyGrid s.grid s.refined) u = .ok T → (∀ x ∈ u, x = c) →
      ∀ t ∈ (energyGrid s.grid s.refined).triangles, ∀ b ∈ r.points, T.call t b = .ok c ∧ T.gradient t b = .ok (vecOf ![0, 0]) :=
    fun hT hu t ht b hb => E.const_field hT hu ht (Rg.inside b hb).1
  have hb : b = 0 := by
    by_cases hr : params.regularization = none
    · obtain ⟨r1, e, f1, f2, rfl⟩ := a6.1 hr
      cases (he hr).symm.trans f2
      rw [Grid.edgeQuad]
      apply List.sum_eq_zero
      intro x hx
      obtain ⟨ed, hed, rfl⟩ := List.mem_map.1 hx
      have W := E.wf
      rw [hnone hr] at W hl
      have hv := W.edges ed (W.boundary.2 ed hed)
      have key : ∀ v ∈ s.grid.vertices, θ.data.getD v 0 = c := by
        intro v hv
        have hl' : θ.data.length = s.grid.vertices.length := hl
        have hv' : v < θ.data.length := by
          rw [hl']
          have e : s.grid.vertices = List.range s.grid.points.length := W.vertices
          rw [e] at hv ⊢
          simpa using hv
        simp only [List.getD_eq_getElem?_getD, hv', List.getElem?_eq_getElem, Option.getD_some]
        exact h1 _ (List.getElem_mem _)
      have e : ∀ a : ℝ, a * θ.data.getD ed.1 0 + (1 - a) * θ.data.getD ed.2 0 - c = 0 := by
        intro a
        rw [key _ hv.1, key _ hv.2]
        ring
      simp only [e, GaussRule.value, mul_zero, zero_mul]
      simp
    · exact a6.2 hr
  have hp : ∀ t ∈ (energyGrid s.grid s.refined).triangles, ∀ b ∈ r.points, u t b = u0 t b ∧ qq t b = 0 ∧ G t b = 0 := by
    intro t ht b hb
    obtain ⟨p1, p2, p3⟩ := c4 t ht b hb
    obtain ⟨q1, q2, q3⟩ := a5 t ht b hb
    obtain ⟨p4, p5⟩ := b2 t ht b hb
    have e1 : F0 t b = F t b := matOf_inj (Except.ok.inj (p1.symm.trans ((d4 t ht b hb).trans p2)))
    have e2 : x0 t b = c := Except.ok.inj (p3.symm.trans (uni c3 h0 t ht b hb).1)
    have e3 : x t b = c := Except.ok.inj (p4.symm.trans (uni b1 h1 t ht b hb).1)
    have e4 : G t b = ![0, 0] := vecOf_inj (Except.ok.inj (p5.symm.trans (uni b1 h1 t ht b hb).2))
    rw [e3] at q2
    rw [e1, e2] at q3
    refine ⟨Except.ok.inj (q2.symm.trans q3), ?_, by rw [e4]; ext i; fin_cases i <;> rfl⟩
    obtain ⟨-, ξ, A, f1, -, f3⟩ := q1
    rw [e1] at f1
    obtain ⟨d, g1, -, g2, -⟩ := C51_quadratic (F t b) (F t b)
    rw [g2 rfl] at g1
    rw [C51_rate _ _ _ _ hf.ne' g1] at f1
    rw [f3, ← Except.ok.inj f1, e1]
    simp
  rw [hb, quad_zero Rg fun t ht b hb => by rw [(hp t ht b hb).1]; simp, quad_zero Rg fun t ht b hb => by rw [(hp t ht b hb).2.1]; simp,
    quad_zero Rg fun t ht b hb => by rw [(hp t ht b hb).2.2]; simp]
  simp

/-- **C97** (thermal). If the strains of a step do not change and are moderate, and the temperature before the step is uniform
and (without regularization) the external one, then the temperature does not change: a solver that does not increase the
objective and keeps to nonnegative temperatures returns the same temperatures. -/
theorem C97_thermal (hs : s.Healthy solver domain params ext traction) (hq : GaussRule.new leg 1 = .ok q)
    (hw : ∀ w ∈ q.weights, 0 ≤ w) (hd : solver.Decreases leg) (hn : solver.RespectsDomain) {k : ℕ} {a b : Step}
    (ha : s.steps[k]? = some a) (hb : s.steps[k + 1]? = some b) (hm : ModerateStrain s.grid s.refined b.yData)
    (hsame : SameStrain s.grid s.refined a.yData b.yData) {c : ℝ} (hθ : ∀ x ∈ a.thetaData.data, x = c)
    (he : params.regularization = none → ext (k / params.fps) = .ok c) : b.thetaData.data = a.thetaData.data := by
  obtain ⟨m0, t0, cx, Hi⟩ := hs.history
  obtain ⟨m, t, h1, h2, st1, st2, -, S⟩ := Hi.each k a b ha hb
  have E := cx.energetic
  have hf := hs.fps_pos
  have oa : Oriented s.grid s.refined a.yData := C73_oriented hs.reachable hq hd a (List.mem_of_getElem? ha)
  obtain ⟨n, hnv, hu, hth, V, hV, hder⟩ := therm_value hs hq ha hb oa hm.oriented h2
  have hnone : params.regularization = none → s.refined = none := by
    obtain ⟨it, hg⟩ := cx.grid
    exact (cx.setup.grids hg cx.refined).2.1
  have w := S.thermWF
  have M := cx.thermEnv w st2
  have hul : t.theta.data.length = t.unknowns.length := M.lengths.2.1.trans M.lengths.2.2.symm
  have hlen : a.thetaData.data.length = n := by
    rw [← S.therm.theta, hul, ← hu]
    cases t <;> rfl
  set sol := solver (s.calls.take (2 * k) ++ [m.problem]) t.problem with hsol
  have hb0 : b.thetaData.data = nodalList n sol.theta := by
    rw [S.theta, (w.load sol).2.2.2.2.1, therm_answer hth, hu]
  set f : ℕ → ℝ := (staySolver [] t.problem).theta with hfd
  have hst := stay_load [] t.problem
  have ha0 : a.thetaData.data = nodalList n f := by
    rw [← S.therm.theta, ← hu, ← therm_answer hth, ← (w.load _).2.2.2.2.1]
    congr 1
    rcases t with t | t
    · simp only [ThermStep.load, ThermStep.problem, Problem.load] at *
      injection hst with hst
      rw [hst]
    · simp only [ThermStep.load, ThermStep.problem, Problem.load] at *
      injection hst with hst
      rw [hst]
  have hfc : ∀ x ∈ nodalList n f, x = c := by rw [← ha0]; exact hθ
  set η : ℕ → ℝ := fun i => sol.theta i - f i with hη
  have hobj : t.problem.objective leg = .ok (V f) := by rw [← hV, hst]
  obtain ⟨v, hv, hv'⟩ := hd _ _ S.thermOk _ hobj
  have hle : V sol.theta ≤ V f := by
    cases (hV sol).symm.trans hv'
    exact hv
  have hf0 : ∀ i < n, 0 ≤ f i := by
    intro i hi
    refine S.therm.nonneg _ ?_
    rw [ha0]
    exact List.mem_map.2 ⟨i, List.mem_range.2 hi, rfl⟩
  have hs0 : ∀ i < n, 0 ≤ sol.theta i := by
    intro i hi
    refine hn _ _ hth S.thermOk _ ?_
    rw [therm_answer hth, hu]
    exact List.mem_map.2 ⟨i, List.mem_range.2 hi, rfl⟩
  have hdv : ∀ τ : ℝ, ∃ R, HasDerivAt (fun τ => V fun i => f i + τ * η i) R τ ∧
      IsHeatBalance 2 leg params ext s.grid s.refined (k / params.fps) a.yData b.yData a.thetaData
          (NdArray.of1 (nodalList n fun i => f i + τ * η i)) (NdArray.of1 (nodalList n η)) R := by
    intro τ
    obtain ⟨R, r1, r2⟩ := hder (fun i => f i + τ * η i) η
    refine ⟨R, ?_, r2⟩
    have r3 := HasDerivAt.comp (h := fun x : ℝ => x - τ) τ (by simpa using r1) ((hasDerivAt_id τ).sub_const τ)
    rw [mul_one] at r3
    refine r3.congr_of_eventuallyEq (Filter.Eventually.of_forall fun x => ?_)
    simp only [Function.comp]
    congr 1
    funext i
    ring
  by_contra hne
  have hne' : ∃ i < n, η i ≠ 0 := by
    by_contra hall
    push Not at hall
    apply hne
    rw [ha0, hb0, nodalList, nodalList]
    refine List.map_congr_left fun i hi => ?_
    have := hall i (List.mem_range.1 hi)
    simp only [hη] at this
    linarith
  obtain ⟨R0, -, b0⟩ := hdv 0
  simp only [zero_mul, add_zero] at b0
  have hR0 : R0 = 0 := b0.rest E hf (by simp [NdArray.of1, nodalList, hnv]) hsame hθ hfc hnone he
  choose R hR hRb using hdv
  have hmono : StrictMonoOn (fun τ => V fun i => f i + τ * η i) (Set.Icc 0 1) := by
    refine strictMonoOn_of_deriv_pos (convex_Icc 0 1) (fun τ _ => (hR τ).continuousAt.continuousWithinAt) fun τ hτ => ?_
    rw [interior_Icc] at hτ
    rw [(hR τ).deriv]
    by_contra hneg
    push Not at hneg
    have key := IsHeatBalance.strictMono E (κ := 2) (by norm_num) hf hq hw hm hnv hτ.1 hf0
      (fun i hi => by
        have h3 : f i + τ * η i = (1 - τ) * f i + τ * sol.theta i := by simp only [hη]; ring
        rw [h3]
        have h4 := hτ.1
        have h5 : 0 ≤ 1 - τ := by linarith [hτ.2]
        have := hf0 i hi
        have := hs0 i hi
        positivity) b0 (hRb τ) (by rw [hR0]; exact hneg)
    obtain ⟨i, hi, h3⟩ := hne'
    exact h3 (key i hi)
  have := hmono (Set.left_mem_Icc.2 zero_le_one) (Set.right_mem_Icc.2 zero_le_one) zero_lt_one
  simp only [zero_mul, add_zero, one_mul] at this
  have e : (fun i => f i + η i) = sol.theta := by funext i; simp only [hη]; ring
  rw [e] at this
  linarith

theorem Undeformed.same {g : Grid ℝ} {refined : Option (RefinedGrid ℝ)} {y0 y : NdArray} (h0 : Undeformed g refined y0)
    (h : Undeformed g refined y) : SameStrain g refined y0 y := by
  obtain ⟨D0, r, a1, a2, a3⟩ := h0
  obtain ⟨D, r', b1, b2, b3⟩ := h
  cases a2.symm.trans b2
  exact ⟨D0, D, r, a1, b1, a2, fun t ht b hb => by rw [a3 t ht b hb, b3 t ht b hb]⟩

theorem Undeformed.moderate {g : Grid ℝ} {refined : Option (RefinedGrid ℝ)} {y : NdArray} (h : Undeformed g refined y) :
    ModerateStrain g refined y := by
  obtain ⟨D, r, a1, a2, a3⟩ := h
  refine ⟨D, r, a1, a2, fun t ht b hb => ⟨1, _, _, a3 t ht b hb, austPot_eq (by simp), martPot_eq (by simp), ?_⟩⟩
  have e : wM 1 ≤ 1 ∧ wA 1 = 0 := by constructor <;> norm_num [wA, wM, fsq, Matrix.one_apply]
  have := Real.add_one_le_exp 1
  linarith

theorem equilibrium (hs : s.Healthy solver domain params ext traction) (hq : GaussRule.new leg 1 = .ok q)
    (hw : ∀ w ∈ q.weights, 0 ≤ w) (hd : solver.Decreases leg) (hn : solver.RespectsDomain)
    (hT : transitionTemperature ≤ params.initialTemperature)
    (ht : params.regularization = none → ∀ time x y, traction time x y = .ok [0, 0])
    (he : params.regularization = none → ∀ time, ext time = .ok params.initialTemperature) (k : ℕ) {st : Step} (hst : s.steps[k]? = some st) :
    Undeformed s.grid s.refined st.yData ∧ NoHyperEnergy params s.grid s.refined st.yData ∧
      ∀ x ∈ st.thetaData.data, x = params.initialTemperature := by
  induction k generalizing st with
  | zero =>
    obtain ⟨st0, k1, -, k2, D, k3, k4⟩ := C68_initial hs.reachable
    obtain ⟨st0', a, E, l1, -, -, -, -, l2⟩ := C68_energy hs.reachable
    cases k1.symm.trans hst
    cases l1.symm.trans hst
    obtain ⟨r, hr, Rg⟩ := energyRule_good s.refined
    refine ⟨⟨D, r, k3, hr, fun t ht b hb => (k4 t ht b (Rg.inside b hb).1).2.1⟩, fun κ hκ => ?_, fun x hx => ?_⟩
    · obtain ⟨r, h1, h2⟩ := l2 (by rw [hκ]; simp)
      exact ⟨r, 0, h1, h2, mul_zero _⟩
    · rw [k2] at hx
      exact List.eq_of_mem_replicate hx
  | succ k ih =>
    have hk : k < s.steps.length := by have := (List.getElem?_eq_some_iff.1 hst).1; omega
    have hk := List.getElem?_eq_getElem hk
    obtain ⟨i1, i2, i3⟩ := ih hk
    obtain ⟨m1, m2⟩ := C97_mechanical hs hq hd hk hst i1 i2 (fun x hx => by rw [i3 x hx]; exact hT) fun hr v _ => ht hr _ _ _
    refine ⟨m1, m2, ?_⟩
    rw [C97_thermal hs hq hw hd hn hk hst m1.moderate (i1.same m1) i3 fun hr => he hr _]
    exact i3

/-- **C97** (equilibrium). A simulation that starts at least at the transition temperature, without traction and with an
external temperature equal to the initial temperature (both only act without regularization), never leaves its initial
state: in every recorded step the strain at the quadrature points is 1 and all temperatures are the initial temperature. -/
theorem C97_equilibrium (hs : s.Healthy solver domain params ext traction) (hq : GaussRule.new leg 1 = .ok q)
    (hw : ∀ w ∈ q.weights, 0 ≤ w) (hd : solver.Decreases leg) (hn : solver.RespectsDomain)
    (hT : transitionTemperature ≤ params.initialTemperature)
    (ht : params.regularization = none → ∀ time x y, traction time x y = .ok [0, 0])
    (he : params.regularization = none → ∀ time, ext time = .ok params.initialTemperature) {st : Step} (hst : st ∈ s.steps) :
    Undeformed s.grid s.refined st.yData ∧ ∀ x ∈ st.thetaData.data, x = params.initialTemperature := by
  obtain ⟨k, hk, rfl⟩ := List.mem_iff_getElem.1 hst
  obtain ⟨h1, -, h2⟩ := equilibrium hs hq hw hd hn hT ht he k (List.getElem?_eq_getElem hk)
  exact ⟨h1, h2⟩

/-- **C97** (positions). Without regularization an undeformed body is translated: all vertices have the same displacement. If
part of the boundary is fixed (and the solver respects this), the body is where it was. -/
theorem C97_positions (hs : s.Reachable solver domain params ext traction) (hreg : params.regularization = none) {st : Step}
    (hst : st ∈ s.steps) (hu : Undeformed s.grid s.refined st.yData) :
    (∃ c : ℝ × ℝ, ∀ v ∈ s.grid.vertices, st.yData.deformed v = s.grid.xy v + c) ∧
    (solver.RespectsFixed → (∃ f ∈ domain.fix.options, ∀ name, f ≠ .unknown name) → ∀ v ∈ s.grid.vertices, st.yData.deformed v = s.grid.xy v) := by
  obtain ⟨m0, t0, c⟩ := hs.context
  obtain ⟨it, hg⟩ := c.grid
  obtain ⟨G, h1, -⟩ := c.setup.grids hg c.refined
  obtain ⟨Sh, ⟨n, U⟩, F⟩ := c.setup.simShape hg c.refined c.mech0
  obtain ⟨a1, a2, a3, a4, a5, a6, a7⟩ := mechanicalStep_facts U F c.mech0
  have hy := (c.has st hst).1
  rw [(a6 hreg).2.2.1] at hy
  rw [h1 hreg] at hu
  obtain ⟨d, hd⟩ := p1_undeformed G hy (by rw [U.vertices, List.length_range]) hu
  refine ⟨⟨d, hd⟩, fun hf hne v hv => ?_⟩
  have hs0 := c.setup.facts.2.2.2.1
  obtain ⟨w, hw⟩ : ∃ w, w ∈ s.grid.dirichlet.vertices := by
    have hD := (C14_dirichlet_vertices hs0 c.setup.width c.setup.height hg).2.1
    have hP := C10_points (hs0.le.trans c.setup.width) (hs0.le.trans c.setup.height) hs0 hg
    obtain ⟨f, hf1, hf2⟩ := hne
    rcases f with _ | _ | _ | _ | name
    · exact ⟨_, (hD _).2 ⟨_, (hP _ _).2 ⟨0, 0, by simp, by simp, rfl, rfl⟩, _, hf1, by simp [OnSide]⟩⟩
    · exact ⟨_, (hD _).2 ⟨_, (hP _ _).2 ⟨_, 0, le_rfl, by simp, rfl, rfl⟩, _, hf1, by simp [OnSide]⟩⟩
    · exact ⟨_, (hD _).2 ⟨_, (hP _ _).2 ⟨0, _, by simp, le_rfl, rfl, rfl⟩, _, hf1, by simp [OnSide]⟩⟩
    · exact ⟨_, (hD _).2 ⟨_, (hP _ _).2 ⟨0, 0, by simp, by simp, rfl, rfl⟩, _, hf1, by simp [OnSide]⟩⟩
    · exact absurd rfl (hf2 name)
  have hw' := G.wellFormed.dirichlet.1 w hw
  have hat : s.grid.At w (s.grid.xy w) := WF.at_xy G.wellFormed hw'
  have e := C57_fixed_boundary hs hf hst hw hat
  rw [hd w hw'] at e
  have : d = 0 := by simpa using e
  rw [hd v hv, this, add_zero]

/-- the hypotheses of C97 hold in an example, for an optimal solver -/
theorem example_rest (it : SetIter) {params : SimParams} (hp : params = exampleParams ∨ params = exampleParamsReg) :
    ∃ (solver : Solver) (s : Sim), s.Healthy solver exampleDomain params (fun _ => .ok 1) (fun _ _ _ => .ok [0, 0]) ∧
      s.steps.length = 6 ∧ ∀ st ∈ s.steps, Undeformed s.grid s.refined st.yData ∧ (∀ x ∈ st.thetaData.data, x = 1) ∧
        (params = exampleParams → ∀ v ∈ s.grid.vertices, st.yData.deformed v = s.grid.xy v) := by
  have S : Setup exampleDomain params := by
    rcases hp with rfl | rfl
    · exact exampleSetup
    · exact exampleSetupReg
  have hf : 0 < params.fps := by rcases hp with rfl | rfl <;> norm_num [exampleParams, exampleParamsReg]
  have hB : BoundaryDataOk (fun _ => .ok 1) (fun _ _ _ => .ok [0, 0]) := ⟨fun _ _ _ => ⟨_, _, rfl⟩, fun _ => ⟨1, zero_le_one, rfl⟩⟩
  have hq := gauss_new_ok (lg := fun _ => .ok ([0], [2])) (n := 1) (P := [0]) (W := [2]) rfl
  have hw : ∀ w ∈ [(2 : ℝ)].map (fun w => w / 2), 0 ≤ w := by simp
  obtain ⟨solver, h1, h2, h3, h4, h5, h6, h7⟩ := C78_optimal_solver _ hq
  obtain ⟨s, hs⟩ := C55_usable_partial S hf h5 it fun _ => hB
  have hh := Sim.Healthy.new S hs
  obtain ⟨s', h8, h9⟩ := C66_succeeds hh h5 h4 h3 (fun _ => hB) (n := 4) (by norm_num)
  have hl : s'.steps.length = 6 := by
    have := C60_run hh.reachable h8
    rw [C60_new S hs] at this
    push_cast at this
    omega
  have hT : params.initialTemperature = 1 := by rcases hp with rfl | rfl <;> rfl
  have hlog : transitionTemperature ≤ params.initialTemperature := by
    rw [hT, transitionTemperature]
    have := Real.log_le_sub_one_of_pos (show (0 : ℝ) < 3 / 2 by norm_num)
    linarith
  refine ⟨solver, s', h9, hl, fun st hst => ?_⟩
  obtain ⟨k1, k2⟩ := C97_equilibrium h9 hq hw h6 h3 hlog (fun _ _ _ _ => rfl) (fun _ _ => by rw [hT]) hst
  refine ⟨k1, by rw [← hT]; exact k2, fun e => ?_⟩
  refine (C97_positions h9.reachable (by rw [e]; rfl) hst k1).2 h1 ⟨.lower, ?_, by simp⟩
  simp [exampleDomain, Fix.options]

end Tve
