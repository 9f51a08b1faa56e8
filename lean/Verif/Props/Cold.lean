import Verif.Lemmas.Cold
import Verif.Lemmas.Converge
import Verif.Props.Force
import Verif.Props.HeatCapacity
import Verif.Props.Rest
import Verif.Spec.Cold

/-!
# C99: when an undeformed body transforms
-/

namespace Tve
open Helpers

/-- the deformation of a grid in which the vertex at `z` moves to `z + u z` -/
noncomputable def Grid.displaced (g : Grid ℝ) (u : ℝ × ℝ → ℝ × ℝ) : NdArray :=
  P1Mech.pairs (g.vertices.map fun v => (g.xy v).1 + (u (g.xy v)).1) (g.vertices.map fun v => (g.xy v).2 + (u (g.xy v)).2)

theorem displaced_has {g : Grid ℝ} (u : ℝ × ℝ → ℝ × ℝ) (h : 0 < g.vertices.length) : (g.displaced u).Has [g.vertices.length, 2] :=
  NdArray.has_pairs (by simp) (by simp) h

theorem displaced_at {g : Grid ℝ} (W : g.WellFormed) (u : ℝ × ℝ → ℝ × ℝ) (h : 0 < g.vertices.length) {v : Vertex}
    (hv : v < g.vertices.length) : (g.displaced u).at2 2 v 0 = (g.xy v).1 + (u (g.xy v)).1 ∧
      (g.displaced u).at2 2 v 1 = (g.xy v).2 + (u (g.xy v)).2 := by
  obtain ⟨p1, p2⟩ := NdArray.at2_pairs (a := g.vertices.map fun v => (g.xy v).1 + (u (g.xy v)).1)
    (b := g.vertices.map fun v => (g.xy v).2 + (u (g.xy v)).2) (n := g.vertices.length) (by simp) (by simp) hv
  have e : g.vertices[v]? = some v := by
    have e : g.vertices = List.range g.points.length := W.vertices
    rw [e] at hv ⊢
    rw [List.getElem?_range (by simpa using hv)]
  rw [Grid.displaced, p1, p2]
  simp [List.getD_eq_getElem?_getD, e]

/-- sliding the rows or the columns of a grid -/
theorem p1_slide {g : Grid ℝ} {nx ny : ℕ} {s : ℝ} (G : LibraryGrid g nx ny s) (φ : ℝ → ℝ) :
    (∃ D, deformOf g none (g.displaced fun z => (φ z.2, 0)) = .ok D ∧
      D.Strains g fun t _ => !![1, (φ (g.xy t.2.2).2 - φ (g.xy t.2.1).2) / ((g.xy t.2.2).2 - (g.xy t.2.1).2); 0, 1]) ∧
    (∃ D, deformOf g none (g.displaced fun z => (0, φ z.1)) = .ok D ∧
      D.Strains g fun t _ => !![1, 0; (φ (g.xy t.2.1).1 - φ (g.xy t.1).1) / ((g.xy t.2.1).1 - (g.xy t.1).1), 1]) := by
  have W := G.wellFormed
  have hlen : 0 < g.vertices.length := by rw [(C22_structure G).2.2.2.1]; simp
  have s0 := (C22_structure G).1
  have main : ∀ u : ℝ × ℝ → ℝ × ℝ, ∃ D, deformOf g none (g.displaced u) = .ok D ∧ ∀ t ∈ g.triangles, ∀ b : Bary ℝ, b.Normalized →
      ∀ S : Matrix (Fin 2) (Fin 2) ℝ,
        ((g.xy t.2.1).1 - (g.xy t.1).1) * S 0 0 =
          ((g.xy t.2.1).1 + (u (g.xy t.2.1)).1) - ((g.xy t.1).1 + (u (g.xy t.1)).1) →
        ((g.xy t.2.2).2 - (g.xy t.2.1).2) * S 0 1 =
          ((g.xy t.2.2).1 + (u (g.xy t.2.2)).1) - ((g.xy t.2.1).1 + (u (g.xy t.2.1)).1) →
        ((g.xy t.2.1).1 - (g.xy t.1).1) * S 1 0 =
          ((g.xy t.2.1).2 + (u (g.xy t.2.1)).2) - ((g.xy t.1).2 + (u (g.xy t.1)).2) →
        ((g.xy t.2.2).2 - (g.xy t.2.1).2) * S 1 1 =
          ((g.xy t.2.2).2 + (u (g.xy t.2.2)).2) - ((g.xy t.2.1).2 + (u (g.xy t.2.1)).2) →
        D.strain t b = .ok (matOf S) := by
    intro u
    have hy := displaced_has u hlen
    obtain ⟨τ, L, M, F⟩ := (Energetic.coarse G).forms
    obtain ⟨D, hD, -, -⟩ := F.deform (g.displaced u) hy
    refine ⟨D, hD, fun t ht b hb S h00 h01 h10 h11 => ?_⟩
    rw [deformOf, bind_eq_ok] at hD
    obtain ⟨A, hA, hD⟩ := hD
    rw [bind_eq_ok] at hD
    obtain ⟨B, hB, hD⟩ := hD
    rw [p1_strains G hD t ht b hb]
    obtain ⟨v1, v2, v3⟩ := W.triangles t ht
    have hAB : ∀ v ∈ g.vertices, A.getD v 0 = (g.xy v).1 + (u (g.xy v)).1 ∧ B.getD v 0 = (g.xy v).2 + (u (g.xy v)).2 := by
      intro v hv
      have hv' : v < g.vertices.length := by
        have e : g.vertices = List.range g.points.length := W.vertices
        rw [e] at hv ⊢
        simpa using hv
      rw [NdArray.col_eq hy (by norm_num)] at hA hB
      cases hA
      cases hB
      have := displaced_at W u hlen hv'
      simpa [List.getD_eq_getElem?_getD, hv'] using this
    obtain ⟨f1, f2, -, -, -, -, -, f3⟩ := tri_frame G ht
    have kd : Bell.twoD (g.corners t) = ((g.xy t.2.1).1 - (g.xy t.1).1) * ((g.xy t.2.2).2 - (g.xy t.2.1).2) := by
      show cross (g.xy t.1) (g.xy t.2.1) (g.xy t.2.2) = _
      rw [cross, ← f2, f1]
      ring
    have nz : ((g.xy t.2.1).1 - (g.xy t.1).1) * ((g.xy t.2.2).2 - (g.xy t.2.1).2) ≠ 0 := by
      rw [← kd]
      show cross (g.xy t.1) (g.xy t.2.1) (g.xy t.2.2) ≠ 0
      rw [f3]
      positivity
    have b0 : Bell.bb (g.corners t) 0 = (g.xy t.2.1).2 - (g.xy t.2.2).2 := rfl
    have b1 : Bell.bb (g.corners t) 1 = (g.xy t.2.2).2 - (g.xy t.1).2 := rfl
    have b2 : Bell.bb (g.corners t) 2 = (g.xy t.1).2 - (g.xy t.2.1).2 := rfl
    have k0 : Bell.cc (g.corners t) 0 = (g.xy t.2.2).1 - (g.xy t.2.1).1 := rfl
    have k1 : Bell.cc (g.corners t) 1 = (g.xy t.1).1 - (g.xy t.2.2).1 := rfl
    have k2 : Bell.cc (g.corners t) 2 = (g.xy t.2.1).1 - (g.xy t.1).1 := rfl
    have t0 : t.get 0 = t.1 := rfl
    have t1 : t.get 1 = t.2.1 := rfl
    have t2 : t.get 2 = t.2.2 := rfl
    congr 2
    have ent : ∀ (X : List ℝ) (x0 x1 x2 p q : ℝ), X.getD t.1 0 = x0 → X.getD t.2.1 0 = x1 → X.getD t.2.2 0 = x2 →
        ((g.xy t.2.1).1 - (g.xy t.1).1) * p = x1 - x0 → ((g.xy t.2.2).2 - (g.xy t.2.1).2) * q = x2 - x1 →
        ∑ j, Bell.bb (g.corners t) j * X.getD (t.get j) 0 / Bell.twoD (g.corners t) = p ∧
        ∑ j, Bell.cc (g.corners t) j * X.getD (t.get j) 0 / Bell.twoD (g.corners t) = q := by
      intro X x0 x1 x2 p q e0 e1 e2 hp hq
      simp only [← Finset.sum_div, Fin.sum_univ_three]
      rw [b0, b1, b2, k0, k1, k2, t0, t1, t2, e0, e1, e2, kd, div_eq_iff nz, div_eq_iff nz]
      constructor
      · rw [f1]
        linear_combination (-((g.xy t.2.2).2 - (g.xy t.2.1).2)) * hp
      · rw [← f2]
        linear_combination (-((g.xy t.2.1).1 - (g.xy t.1).1)) * hq
    obtain ⟨r00, r01⟩ := ent A _ _ _ _ _ (hAB _ v1).1 (hAB _ v2).1 (hAB _ v3).1 h00 h01
    obtain ⟨r10, r11⟩ := ent B _ _ _ _ _ (hAB _ v1).2 (hAB _ v2).2 (hAB _ v3).2 h10 h11
    ext i j
    fin_cases i <;> fin_cases j
    · exact r00
    · exact r01
    · exact r10
    · exact r11
  constructor
  · obtain ⟨D, h1, h2⟩ := main fun z => (φ z.2, 0)
    refine ⟨D, h1, fun t ht b hb => h2 t ht b hb _ ?_ ?_ ?_ ?_⟩
    all_goals
      obtain ⟨f1, f2, -, f4, -⟩ := tri_frame G ht
      have nz : (g.xy t.2.2).2 - (g.xy t.2.1).2 ≠ 0 := by rw [← abs_pos, f4]; exact s0
      simp only [Matrix.cons_val', Matrix.cons_val_zero, Matrix.cons_val_one, Matrix.of_apply, Matrix.cons_val_fin_one, f1, f2]
    · ring
    · rw [mul_div_cancel₀ _ nz]; ring
    · ring
    · ring
  · obtain ⟨D, h1, h2⟩ := main fun z => (0, φ z.1)
    refine ⟨D, h1, fun t ht b hb => h2 t ht b hb _ ?_ ?_ ?_ ?_⟩
    all_goals
      obtain ⟨f1, f2, f4, -⟩ := tri_frame G ht
      have nz : (g.xy t.2.1).1 - (g.xy t.1).1 ≠ 0 := by rw [← abs_pos, f4]; exact s0
      simp only [Matrix.cons_val', Matrix.cons_val_zero, Matrix.cons_val_one, Matrix.of_apply, Matrix.cons_val_fin_one, f1]
    · ring
    · rw [f2]; ring
    · rw [mul_div_cancel₀ _ nz]; ring
    · rw [f2]; ring

section
variable {solver : Solver} {domain : RectDomain ℝ} {params : SimParams} {ext : ExtTemp} {traction : Traction} {s : Sim}
  {leg : LegGauss} {q : GaussRule ℝ}

/-- a recorded step is at least as good as every admissible deformation -/
theorem mech_beats (hs : s.Healthy solver domain params ext traction) (hq : GaussRule.new leg 1 = .ok q) {k : ℕ}
    {a b : Step} (ha : s.steps[k]? = some a) (hb : s.steps[k + 1]? = some b) {p : Problem} (hp : s.calls[2 * k]? = some p)
    (hopt : p.IsOptimal leg (solver (s.calls.take (2 * k)) p)) {y' : NdArray} (hy : y'.Has (deformShape s.grid s.refined))
    (hnear : ∀ (i : ℕ) (u v : ℝ), a.yData.data[i]? = some u → y'.data[i]? = some v → |v - u| ≤ params.searchRadius)
    (hfix : ∀ (i : ℕ) (u v : ℝ), vertexOf (deformShape s.grid s.refined) i ∈ s.grid.dirichlet.vertices →
      (s.refined ≠ none → i % 6 = 0) → a.yData.data[i]? = some u → y'.data[i]? = some v → v = u)
    (hdir : s.refined ≠ none → DirichletId s.grid y') (hor : Oriented s.grid s.refined y') :
    ∃ v w, IsMechObjective leg params traction s.grid s.refined (k / params.fps) a.yData b.yData a.thetaData v ∧
      IsMechObjective leg params traction s.grid s.refined (k / params.fps) a.yData y' a.thetaData w ∧ v ≤ w := by
  obtain ⟨m0, t0, c, H⟩ := hs.history
  obtain ⟨m, t, h1, h2, st1, st2, fx, S⟩ := H.each k _ _ ha hb
  cases h1.symm.trans hp
  have w := S.mechWF
  have haY := (c.has a (List.mem_of_getElem? ha)).1
  rw [c.yShape_eq] at w haY
  obtain ⟨it, hg⟩ := c.grid
  obtain ⟨Sh, ⟨n, U⟩, F⟩ := c.setup.simShape hg c.refined c.mech0
  obtain ⟨a1, a2, a3, a4, a5, a6, a7⟩ := mechanicalStep_facts U F c.mech0
  have hrad : m.searchRadius = params.searchRadius := (MechStep.static_searchRadius st1).trans a3
  have hM : ∀ o, MechEnv (m.load o) s.grid s.refined params traction := fun o =>
    c.mechEnv (w.load o).1 (by rw [← st1]; cases m <;> rfl)
  have hobj : ∀ o v, (m.problem.load o).objective leg = .ok v ↔
      IsMechObjective leg params traction s.grid s.refined (k / params.fps) a.yData (m.load o).y a.thetaData v := by
    intro o v
    have w' := w.load o
    have i1 := ((hM o).objective_iff hq (S.mech.tractionAt.load o)).1 v
    rwa [w'.2.1, w'.2.2.1, MechStep.load_problem, S.mech.prevY, S.mech.prevTheta] at i1
  obtain ⟨o, ho⟩ := w.exists_outcome hy
  have hdef := ((hM o).objective_oriented hq (S.mech.tractionAt.load o)).2 (by rw [ho]; exact hor)
  rw [MechStep.load_problem] at hdef
  obtain ⟨v', hv'⟩ := hdef
  obtain ⟨hadm, v, hv, hmin⟩ := hopt
  have hnt : ¬ m.problem.IsTherm := by cases m <;> simp [MechStep.problem, Problem.IsTherm]
  have hans : m.problem.answer o = y'.data := by rw [← (w.load o).2.2.2.1, ho]
  have hA : m.problem.Admits o := by
    refine ⟨?_, fun h => absurd h hnt, ?_⟩
    · rw [hans]
      have e2 := S.mech.around
      have lz := has_length haY hy
      rw [List.forall₂_iff_get] at e2 ⊢
      refine ⟨e2.1.trans lz, fun i i1 i2 => ?_⟩
      have i3 : i < a.yData.data.length := e2.1 ▸ i1
      obtain ⟨f3, f4, f5⟩ := e2.2 i i1 i3
      simp only [List.get_eq_getElem] at f3 f4 f5 ⊢
      have hn := hnear i _ _ (List.getElem?_eq_getElem i3) (List.getElem?_eq_getElem i2)
      rw [abs_le] at hn
      rw [hrad] at f4 f5
      have f3' : m.problem.unknowns[i].value = a.yData.data[i] := f3
      have f4' : m.problem.unknowns[i].lb = a.yData.data[i] - params.searchRadius := f4
      have f5' : m.problem.unknowns[i].ub = a.yData.data[i] + params.searchRadius := f5
      refine ⟨by rw [f4']; linarith, by rw [f5']; linarith, fun hfx => ?_⟩
      have hflag : (m0.unknowns.map VarData.fixed)[i]? = some true := by
        rw [← fx, List.getElem?_map]
        show Option.map VarData.fixed m.problem.unknowns[i]? = _
        rw [List.getElem?_eq_getElem i1]
        exact congrArg some hfx
      have hm := mechanicalStep_flags U F c.mech0 hflag
      rw [c.yShape_eq] at hm
      rw [f3']
      exact hfix i _ _ hm.1 (fun hne => hm.2 (by
        rcases hR : s.refined with _ | r
        · exact absurd hR hne
        · rfl)) (List.getElem?_eq_getElem i3) (List.getElem?_eq_getElem i2)
    · rw [← MechStep.load_problem, (hM o).constraints_iff, ho]
      exact hdir
  refine ⟨v, v', ?_, ?_, hmin o v' hA hv'⟩
  · have := (hobj _ v).1 hv
    rwa [← S.y] at this
  · have := (hobj o v').1 hv'
    rwa [ho] at this

/-- if an undeformed body is warm or its steps are short, every change of the deformation costs more than it gains -/
theorem stay_gain {g : Grid ℝ} {refined : Option (RefinedGrid ℝ)} (E : Energetic g refined) {y0 y θ : NdArray} {f : ℝ} (hf : 0 < f)
    (hu : Undeformed g refined y0)
    (hθ : ∀ x ∈ θ.data, 0 ≤ x ∧ ∃ α, austenitePercentage x = .ok α ∧ 1 ≤ 3 * α + 2 * f) {E0 E1 d : ℝ}
    (e0 : IsElasticEnergy g refined y0 θ E0) (e1 : IsElasticEnergy g refined y θ E1) (e2 : IsDissipation g refined y0 y d) :
    E0 ≤ E1 + f * d ∧ (E1 + f * d ≤ E0 → Undeformed g refined y) := by
  obtain ⟨D, T, r, F, X, hD, hT, hr, hF, hsum⟩ := E.from_one (f := f) hu e0 e1 e2
  obtain ⟨r', k1, R⟩ := energyRule_good refined
  cases hr.symm.trans k1
  have hlen : θ.data ≠ [] := by
    obtain ⟨l, -⟩ := P1_of hT
    obtain ⟨nx, ny, sc, L⟩ := E.lib
    intro h0
    rw [h0] at l
    rw [(C22_structure L).2.2.2.1] at l
    simp at l
  obtain ⟨mn, hmn, hle'⟩ : ∃ mn ∈ θ.data, ∀ x ∈ θ.data, mn ≤ x := by
    have hne : θ.data.toFinset.Nonempty := by
      obtain ⟨x, hx⟩ := List.exists_mem_of_ne_nil _ hlen
      exact ⟨x, by simpa using hx⟩
    obtain ⟨mn, h1, h2⟩ := θ.data.toFinset.exists_min_image id hne
    exact ⟨mn, by simpa using h1, fun x hx => h2 x (by simpa using hx)⟩
  obtain ⟨m0', α, mα, m1⟩ := hθ mn hmn
  have hα : α = 1 - Real.exp (-5 * mn) := Except.ok.inj (mα.symm.trans (aust_eq mn))
  have pt : ∀ t ∈ (energyGrid g refined).triangles, ∀ b ∈ r.points, 0 ≤ (1 - Real.exp (-5 * X t b)) * wA (F t b) +
      (1 - (1 - Real.exp (-5 * X t b))) * (wM (F t b) - 1 / 16) + f * dissOne (F t b) ∧
      ((1 - Real.exp (-5 * X t b)) * wA (F t b) +
      (1 - (1 - Real.exp (-5 * X t b))) * (wM (F t b) - 1 / 16) + f * dissOne (F t b) ≤ 0 → F t b = 1) := by
    intro t ht b hb
    obtain ⟨f1, f2, f3⟩ := hF t ht b hb
    obtain ⟨x', f10, f11⟩ := temp_ge E.wf hT hle' ht (R.inside b hb)
    cases f3.symm.trans f10
    have e1 : Real.exp (-5 * X t b) ≤ Real.exp (-5 * mn) := Real.exp_le_exp.2 (by linarith)
    have e2 : Real.exp (-5 * mn) ≤ 1 := Real.exp_le_one_iff.2 (by linarith)
    have e3 := Real.exp_pos (-5 * X t b)
    exact stay_key f2 (by linarith) (by linarith) hf (by linarith)
  have q1 := quad_nonneg R (G := energyGrid g refined) fun t ht b hb => (pt t ht b hb).1
  rw [← hsum] at q1
  refine ⟨by linarith, fun hle => ⟨D, r, hD, hr, fun t ht b hb => ?_⟩⟩
  obtain ⟨κ1, p1, p2⟩ := quad_term R E.area_pos ht hb
  have p5 := p2 _ fun t ht b hb => (pt t ht b hb).1
  rw [← hsum] at p5
  rw [(hF t ht b hb).1, (pt t ht b hb).2 (by
    by_contra hn
    push Not at hn
    have := mul_pos p1 hn
    linarith)]

/-- **C99** (bodies that stay). If a recorded deformation has the strain 1, no traction acts, and for every recorded temperature
three times the austenite fraction plus twice the number of steps per time is at least one, then the next recorded deformation has
the strain 1, whatever solver is used, as long as it does not increase the objective. -/
theorem C99_stays (hs : s.Healthy solver domain params ext traction) (hq : GaussRule.new leg 1 = .ok q)
    (hd : solver.Decreases leg) {k : ℕ} {a b : Step} (ha : s.steps[k]? = some a) (hb : s.steps[k + 1]? = some b)
    (hu : Undeformed s.grid s.refined a.yData) (hh : NoHyperEnergy params s.grid s.refined a.yData)
    (hθ : ∀ x ∈ a.thetaData.data, 0 ≤ x ∧ ∃ α, austenitePercentage x = .ok α ∧ 1 ≤ 3 * α + 2 * params.fps)
    (ht : params.regularization = none → ∀ v ∈ s.grid.neumann.vertices,
      traction (k / params.fps) (s.grid.xy v).1 (s.grid.xy v).2 = .ok [0, 0]) :
    Undeformed s.grid s.refined b.yData ∧ NoHyperEnergy params s.grid s.refined b.yData := by
  obtain ⟨m0, t0, c, -⟩ := hs.history
  have hf := hs.fps_pos
  have key : ∀ {E0 E1 d x : ℝ}, IsElasticEnergy s.grid s.refined a.yData a.thetaData E0 →
      IsElasticEnergy s.grid s.refined b.yData a.thetaData E1 → IsDissipation s.grid s.refined a.yData b.yData d → 0 ≤ x →
      E1 + x + params.fps * d ≤ E0 → Undeformed s.grid s.refined b.yData ∧ x = 0 := by
    intro E0 E1 d x e0 e1 e2 hx hle
    obtain ⟨g1, g2⟩ := stay_gain c.energetic hf hu hθ e0 e1 e2
    exact ⟨g2 (by linarith), by linarith⟩
  rcases hreg : params.regularization with _ | κ
  · obtain ⟨E0, E1, w0, w1, d, k1, k2, k3, k4, k5, k6, k7, k8⟩ := C63_energy_decreases hs hq hd hreg ha hb
    obtain ⟨it, hg⟩ := c.grid
    have hN := (C15_neumann_vertices_partial c.setup.facts.2.2.2.1 c.setup.width c.setup.height hg).2.2.1
    rw [k3.zero hN (ht hreg), k4.zero hN (ht hreg)] at k7
    have := key k1 k2 k5 le_rfl (by linarith)
    exact ⟨this.1, by intro κ h; rw [hreg] at h; cases h⟩
  · obtain ⟨r, hr, E0, E1, h0, h1, d, k1, k2, k3, k4, k5, k6, k7, k8, k9⟩ := C63_energy_decreases_regularized hs hq hd hreg ha hb
    obtain ⟨r', h0', l1, l2, l3⟩ := hh κ hreg
    cases hr.symm.trans l1
    cases l2.unique k3
    have hκ : 0 ≤ κ := by
      obtain ⟨_, _, _, _, _, _, h⟩ := c.setup.valid
      obtain ⟨-, -, -, -, -, -, -, -, h5, h6, -⟩ := simParams_ok h
      exact h6 κ (h5.symm.trans hreg)
    have := key k1 k2 k6 (mul_nonneg hκ k5) (by linarith)
    refine ⟨this.1, fun κ' h => ?_⟩
    cases hreg.symm.trans h
    exact ⟨r, h1, hr, k4, this.2⟩

/-- **C99** (staying is optimal). Under the conditions of `C99_stays`, if the solver respects the constraints, the answer that
repeats the recorded deformation is an optimal solution of the mechanical problem of the next step. -/
theorem C99_optimal (hs : s.Healthy solver domain params ext traction) (hq : GaussRule.new leg 1 = .ok q)
    (hc : solver.RespectsConstraints) {k : ℕ} {a b : Step} (ha : s.steps[k]? = some a) (hb : s.steps[k + 1]? = some b)
    (hu : Undeformed s.grid s.refined a.yData) (hh : NoHyperEnergy params s.grid s.refined a.yData)
    (hθ : ∀ x ∈ a.thetaData.data, 0 ≤ x ∧ ∃ α, austenitePercentage x = .ok α ∧ 1 ≤ 3 * α + 2 * params.fps)
    (ht : params.regularization = none → ∀ v ∈ s.grid.neumann.vertices,
      traction (k / params.fps) (s.grid.xy v).1 (s.grid.xy v).2 = .ok [0, 0]) :
    ∃ p, s.calls[2 * k]? = some p ∧ (∃ o, p.answer o = a.yData.data) ∧
      ∀ o, p.answer o = a.yData.data → p.IsOptimal leg o := by
  obtain ⟨m0, t0, c, H⟩ := hs.history
  obtain ⟨m, t, h1, -, st1, -, -, S⟩ := H.each k _ _ ha hb
  have hf := hs.fps_pos
  have w := S.mechWF
  have hou : Oriented s.grid s.refined a.yData := by
    obtain ⟨D, r, u1, u2, u3⟩ := id hu
    exact ⟨D, r, u1, u2, fun t ht b hb => ⟨1, u3 t ht b hb, by simp⟩⟩
  have hM : ∀ o, MechEnv (m.load o) s.grid s.refined params traction := fun o =>
    c.mechEnv (w.load o).1 (by rw [← st1]; cases m <;> rfl)
  have hobj : ∀ o v, (m.problem.load o).objective leg = .ok v ↔
      IsMechObjective leg params traction s.grid s.refined (k / params.fps) a.yData (m.load o).y a.thetaData v := by
    intro o v
    have w' := w.load o
    have i1 := ((hM o).objective_iff hq (S.mech.tractionAt.load o)).1 v
    rwa [w'.2.1, w'.2.2.1, MechStep.load_problem, S.mech.prevY, S.mech.prevTheta] at i1
  have haY := (c.has a (List.mem_of_getElem? ha)).1
  refine ⟨m.problem, h1, ?_, fun o ho => ?_⟩
  · obtain ⟨o, ho⟩ := w.exists_outcome (y := m.y) w.y
    exact ⟨o, by rw [← (w.load o).2.2.2.1, ho, S.mech.y]⟩
  have hy : (m.load o).y = a.yData := by
    have e1 := (w.load o).1.y.1
    have e2 := haY.1
    have e3 := (w.load o).2.2.2.1.trans ho
    generalize (m.load o).y = A at e1 e3
    generalize a.yData = B at e2 e3
    cases A; cases B
    simp only at e1 e2 e3
    rw [e1, e2, e3]
  obtain ⟨v, hv⟩ := ((hM o).objective_oriented hq (S.mech.tractionAt.load o)).2 (by rw [hy]; exact hou)
  rw [MechStep.load_problem] at hv
  refine ⟨⟨?_, fun h => (by cases m <;> exact h.elim), ?_⟩, v, hv, fun o' v' _ hv' => ?_⟩
  · rw [ho]
    refine forall₂_stay ?_ S.mech.around
    rw [MechStep.static_searchRadius st1, c.searchRadius.1]
    exact c.setup.facts.2.1.le
  · rw [← MechStep.load_problem, (hM o).constraints_iff, hy]
    intro hr
    have hreg : params.regularization ≠ none := by
      obtain ⟨it, hg⟩ := c.grid
      obtain ⟨-, h1, -⟩ := c.setup.grids hg c.refined
      exact fun h => hr (h1 h)
    obtain ⟨_, _, _, -, h⟩ := hs.reachable.dirichletId hc hreg
    exact h _ (List.mem_of_getElem? ha)
  rw [hobj, hy] at hv
  rw [hobj] at hv'
  obtain ⟨E0, d0, a1, a2, a3, a4⟩ := hv
  obtain ⟨E1, d1, b1, b2, b3, b4⟩ := hv'
  cases a2.unique (C63_no_dissipation hs.reachable (List.mem_of_getElem? ha))
  have gain := (stay_gain c.energetic hf hu hθ a1 b1 b2).1
  rcases hreg : params.regularization with _ | κ
  · obtain ⟨w0, k1, rfl⟩ := a3 hreg
    obtain ⟨w1, k2, rfl⟩ := b3 hreg
    obtain ⟨it, hg⟩ := c.grid
    have hN := (C15_neumann_vertices_partial c.setup.facts.2.2.2.1 c.setup.width c.setup.height hg).2.2.1
    rw [k1.zero hN (ht hreg), k2.zero hN (ht hreg)]
    linarith
  · obtain ⟨r, x0, r1, k1, rfl⟩ := a4 κ hreg
    obtain ⟨r', x1, r2, k2, rfl⟩ := b4 κ hreg
    obtain ⟨r'', x0', r3, l2, l3⟩ := hh κ hreg
    cases r1.symm.trans r2
    cases r1.symm.trans r3
    cases l2.unique k1
    have hκ : 0 ≤ κ := by
      obtain ⟨_, _, _, _, _, _, h⟩ := c.setup.valid
      obtain ⟨-, -, -, -, -, -, -, -, h5, h6, -⟩ := simParams_ok h
      exact h6 κ (h5.symm.trans hreg)
    obtain ⟨D, T, rr, W, q1, -⟩ := id b1
    have en := c.energetic
    rw [r1] at en q1
    obtain ⟨x, -, z1, z2⟩ := hyperCode_ok en q1
    cases k2.unique z1
    have := mul_nonneg hκ z2
    linarith

theorem tenOf_inj {f f' : Fin 2 → Fin 2 → Fin 2 → ℝ} (h : tenOf f = tenOf f') : f = f' := by
  have h1 : (List.ofFn fun i => List.ofFn fun j => List.ofFn fun k => f i j k) =
      List.ofFn fun i => List.ofFn fun j => List.ofFn fun k => f' i j k := congrArg Ten3.data h
  have h2 := List.ofFn_injective h1
  funext i j
  exact List.ofFn_injective (congrFun (List.ofFn_injective (congrFun h2 i)) j)

theorem list_bound {ι : Type} (l : List ι) (f : ι → ℝ) : ∃ K, 0 ≤ K ∧ ∀ x ∈ l, |f x| ≤ K := by
  induction l with
  | nil => exact ⟨0, le_rfl, by simp⟩
  | cons x l ih =>
    obtain ⟨K, h0, h1⟩ := ih
    refine ⟨max K |f x|, h0.trans (le_max_left _ _), fun z hz => ?_⟩
    rcases List.mem_cons.1 hz with rfl | hz
    · exact le_max_right _ _
    · exact (h1 z hz).trans (le_max_left _ _)

/-- small shears of an undeformed cold body gain more elastic energy than they dissipate -/
theorem cold_drop {g : Grid ℝ} {refined : Option (RefinedGrid ℝ)} (E : Energetic g refined) {y0 y θ : NdArray} {E0 E1 d f τ δ : ℝ}
    (h0 : Undeformed g refined y0) (e0 : IsElasticEnergy g refined y0 θ E0) (e1 : IsElasticEnergy g refined y θ E1)
    (hd : IsDissipation g refined y0 y d) (hθ : ∀ x ∈ θ.data, x ≤ τ)
    (hδ : ∀ c : ℝ, |c| ≤ δ → ∀ α ≤ 1 - Real.exp (-5 * τ),
      ∀ F : Matrix (Fin 2) (Fin 2) ℝ, F = !![1, c; 0, 1] ∨ F = !![1, 0; c, 1] →
        F.det = 1 ∧ α * wA F + (1 - α) * (wM F - 1 / 16) + f * dissOne F ≤ 0 ∧
          (c ≠ 0 → α * wA F + (1 - α) * (wM F - 1 / 16) + f * dissOne F < 0))
    {D : Deformation} (hD : deformOf g refined y = .ok D) {S : Tri → Matrix (Fin 2) (Fin 2) ℝ}
    (hS : D.Strains (energyGrid g refined) fun t _ => S t) {c : Tri → ℝ}
    (hc : ∀ t ∈ (energyGrid g refined).triangles, |c t| ≤ δ ∧ (S t = !![1, c t; 0, 1] ∨ S t = !![1, 0; c t, 1]))
    (hne : ∃ t ∈ (energyGrid g refined).triangles, c t ≠ 0) : E1 + f * d < E0 := by
  obtain ⟨D', T, r, F, X, hD', hT, hr, hF, hsum⟩ := E.from_one (f := f) h0 e0 e1 hd
  cases hD.symm.trans hD'
  obtain ⟨r', k1, R⟩ := energyRule_good refined
  cases hr.symm.trans k1
  have pt : ∀ t ∈ (energyGrid g refined).triangles, ∀ b ∈ r.points, (1 - Real.exp (-5 * X t b)) * wA (F t b) +
      (1 - (1 - Real.exp (-5 * X t b))) * (wM (F t b) - 1 / 16) + f * dissOne (F t b) ≤ 0 ∧
      (c t ≠ 0 → (1 - Real.exp (-5 * X t b)) * wA (F t b) +
      (1 - (1 - Real.exp (-5 * X t b))) * (wM (F t b) - 1 / 16) + f * dissOne (F t b) < 0) := by
    intro t ht b hb
    obtain ⟨f1, f2, f3⟩ := hF t ht b hb
    obtain ⟨x', f10, f11⟩ := temp_le E.wf hT hθ ht (R.inside b hb)
    cases f3.symm.trans f10
    have e : F t b = S t := matOf_inj (Except.ok.inj (f1.symm.trans (hS t ht b (R.inside b hb).1)))
    obtain ⟨c1, c2⟩ := hc t ht
    rw [e]
    exact (hδ (c t) c1 _ (sub_le_sub_left (Real.exp_le_exp.2 (by linarith)) _) _ c2).2
  obtain ⟨t, ht, hct⟩ := hne
  obtain ⟨b, hb⟩ := List.exists_mem_of_ne_nil _ R.ne
  obtain ⟨κ, p1, p2⟩ := quad_term R E.area_pos ht hb
  have p3 := p2 (fun t b => -1 * ((1 - Real.exp (-5 * X t b)) * wA (F t b) +
      (1 - (1 - Real.exp (-5 * X t b))) * (wM (F t b) - 1 / 16) + f * dissOne (F t b))) fun t ht b hb => by
    have := (pt t ht b hb).1
    linarith
  rw [quad_mul, ← hsum] at p3
  have := mul_pos p1 (show 0 < -1 * ((1 - Real.exp (-5 * X t b)) * wA (F t b) +
      (1 - (1 - Real.exp (-5 * X t b))) * (wM (F t b) - 1 / 16) + f * dissOne (F t b)) by
    have := (pt t ht b hb).2 hct
    linarith)
  linarith

/-- two deformations with strain 1 have the same elastic energy -/
theorem undeformed_energy {g : Grid ℝ} {refined : Option (RefinedGrid ℝ)} {y0 y θ : NdArray} {E0 : ℝ}
    (h0 : Undeformed g refined y0) (h : Undeformed g refined y) (e0 : IsElasticEnergy g refined y0 θ E0) :
    IsElasticEnergy g refined y θ E0 := by
  obtain ⟨D0, r, a1, a2, a3⟩ := h0
  obtain ⟨D, r', b1, b2, b3⟩ := h
  cases a2.symm.trans b2
  obtain ⟨D0', T, r', W, c1, c2, c3, c4, rfl⟩ := e0
  cases a1.symm.trans c1
  cases a2.symm.trans c3
  refine ⟨D, T, r, W, b1, c2, b2, fun t ht b hb => ?_, rfl⟩
  obtain ⟨F, x, d1, d2, d3⟩ := c4 t ht b hb
  cases d1.symm.trans (a3 t ht b hb)
  exact ⟨_, x, b3 t ht b hb, d2, d3⟩

theorem displaced_diff {g : Grid ℝ} (W : g.WellFormed) (u : ℝ × ℝ → ℝ × ℝ) {a : NdArray} (ha : a.Has [g.vertices.length, 2])
    (hpos : ∀ v ∈ g.vertices, a.deformed v = g.xy v) {i : ℕ} {x y : ℝ} (hx : a.data[i]? = some x)
    (hy : (g.displaced u).data[i]? = some y) :
    i / 2 ∈ g.vertices ∧ (y = x + (u (g.xy (i / 2))).1 ∨ y = x + (u (g.xy (i / 2))).2) := by
  have hi : i < g.vertices.length * 2 := by
    have := (List.getElem?_eq_some_iff.1 hx).1
    have e := ha.2
    rw [NdArray.Ok, ha.1] at e
    simp at e
    omega
  have hv : i / 2 < g.vertices.length := by omega
  have hm : i / 2 ∈ g.vertices := by
    have e : g.vertices = List.range g.points.length := W.vertices
    rw [e] at hv ⊢
    simpa using hv
  refine ⟨hm, ?_⟩
  have e := hpos _ hm
  rw [NdArray.deformed, ha.1] at e
  have e : (a.at2 2 (i / 2) 0, a.at2 2 (i / 2) 1) = g.xy (i / 2) := e
  obtain ⟨d0, d1⟩ := displaced_at W u (by omega) hv
  rw [← e] at d0 d1 ⊢
  simp only [NdArray.at2] at d0 d1 ⊢
  rcases Nat.mod_two_eq_zero_or_one i with h | h
  · have k : i / 2 * 2 + 0 = i := by omega
    rw [k, List.getD_eq_getElem?_getD, hy] at d0
    simp only [k] at d0 ⊢
    left
    simpa [List.getD_eq_getElem?_getD, hx] using d0
  · have k : i / 2 * 2 + 1 = i := by omega
    rw [k, List.getD_eq_getElem?_getD, hy] at d1
    simp only [k] at d1 ⊢
    right
    simpa [List.getD_eq_getElem?_getD, hx] using d1

/-- the parabola used for sliding -/
theorem parabola {H γ r δ : ℝ} (hH : 0 ≤ H) (hγ : γ = min δ r / (1 + H + H ^ 2)) (hr : 0 < r) (hδ : 0 < δ) :
    0 < γ ∧ (∀ y, 0 ≤ y → y ≤ H → |γ * (y * (H - y))| ≤ r) ∧
      ∀ y z, 0 ≤ y → y ≤ H → 0 ≤ z → z ≤ H → |γ * (H - y - z)| ≤ δ := by
  have p : 0 < 1 + H + H ^ 2 := by positivity
  have γ0 : 0 < γ := by rw [hγ]; exact div_pos (lt_min hδ hr) p
  have g1 : γ * (1 + H + H ^ 2) = min δ r := by rw [hγ, div_mul_cancel₀ _ p.ne']
  have m1 := min_le_left δ r
  have m2 := min_le_right δ r
  refine ⟨γ0, fun y h0 h1 => ?_, fun y z h0 h1 h2 h3 => ?_⟩
  · rw [abs_mul, abs_of_pos γ0, abs_of_nonneg (mul_nonneg h0 (by linarith))]
    have : y * (H - y) ≤ H ^ 2 := by nlinarith
    have := mul_le_mul_of_nonneg_left this γ0.le
    nlinarith [mul_nonneg γ0.le hH]
  · rw [abs_mul, abs_of_pos γ0]
    have : |H - y - z| ≤ H := by rw [abs_le]; constructor <;> linarith
    have := mul_le_mul_of_nonneg_left this γ0.le
    nlinarith [mul_nonneg γ0.le (sq_nonneg H)]

theorem grid_inside {g : Grid ℝ} {nx ny : ℕ} {s : ℝ} (G : LibraryGrid g nx ny s) {v : Vertex} (hv : v ∈ g.vertices) :
    0 ≤ (g.xy v).1 ∧ (g.xy v).1 ≤ nx * s ∧ 0 ≤ (g.xy v).2 ∧ (g.xy v).2 ≤ ny * s := by
  obtain ⟨s0, -, -, h4, h5, h6, -⟩ := C22_structure G
  have W := G.wellFormed
  have hat : g.At v (g.xy v) := WF.at_xy W hv
  obtain ⟨i, j, hi, hj, e⟩ := (h6 _).1 ⟨v, hat⟩
  have hi' : (i : ℝ) ≤ nx := by exact_mod_cast hi
  have hj' : (j : ℝ) ≤ ny := by exact_mod_cast hj
  rw [e]
  exact ⟨by positivity, mul_le_mul_of_nonneg_right hi' s0.le, by positivity, mul_le_mul_of_nonneg_right hj' s0.le⟩

/-- sliding rows -/
theorem slide_rows {g : Grid ℝ} {nx ny : ℕ} {s : ℝ} (G : LibraryGrid g nx ny s) (hny : 2 ≤ ny) {r δ : ℝ} (hr : 0 < r)
    (hδ : 0 < δ) : ∃ (φ : ℝ → ℝ) (D : Deformation) (S : Tri → Matrix (Fin 2) (Fin 2) ℝ) (c : Tri → ℝ), φ 0 = 0 ∧ φ (ny * s) = 0 ∧
      (∀ v ∈ g.vertices, |φ (g.xy v).2| ≤ r) ∧
      deformOf g none (g.displaced fun z => (φ z.2, 0)) = .ok D ∧ D.Strains g (fun t _ => S t) ∧
      (∀ t ∈ g.triangles, |c t| ≤ δ ∧ (S t = !![1, c t; 0, 1] ∨ S t = !![1, 0; c t, 1])) ∧ ∃ t ∈ g.triangles, c t ≠ 0 := by
  have s0 := (C22_structure G).1
  obtain ⟨γ0, b1, b2⟩ := parabola (H := ny * s) (by positivity) rfl hr hδ
  set γ := min δ r / (1 + ny * s + (ny * s) ^ 2)
  set φ : ℝ → ℝ := fun y => γ * (y * (ny * s - y)) with hφ
  obtain ⟨⟨D, h1, h2⟩, -⟩ := p1_slide G φ
  have W := G.wellFormed
  refine ⟨φ, D, _, fun t => γ * (ny * s - (g.xy t.2.1).2 - (g.xy t.2.2).2), by simp [hφ], by simp [hφ],
    fun v hv => b1 _ (grid_inside G hv).2.2.1 (grid_inside G hv).2.2.2, h1, h2, fun t ht => ?_, ?_⟩
  · obtain ⟨v1, v2, v3⟩ := W.triangles t ht
    obtain ⟨f1, f2, -, f4, -⟩ := tri_frame G ht
    have nz : (g.xy t.2.2).2 - (g.xy t.2.1).2 ≠ 0 := by rw [← abs_pos, f4]; exact s0
    refine ⟨b2 _ _ (grid_inside G v2).2.2.1 (grid_inside G v2).2.2.2 (grid_inside G v3).2.2.1 (grid_inside G v3).2.2.2, Or.inl ?_⟩
    have : (φ (g.xy t.2.2).2 - φ (g.xy t.2.1).2) / ((g.xy t.2.2).2 - (g.xy t.2.1).2) =
        γ * (ny * s - (g.xy t.2.1).2 - (g.xy t.2.2).2) := by
      rw [div_eq_iff nz, hφ]
      ring
    rw [this]
  · by_contra hn
    push Not at hn
    obtain ⟨κ, hκ⟩ := G.connected (f := fun v => φ (g.xy v).2) fun t ht => by
      obtain ⟨f1, -⟩ := tri_frame G ht
      refine ⟨by simp only [f1], ?_⟩
      have := hn t ht
      simp only [hφ]
      linear_combination ((g.xy t.2.1).2 - (g.xy t.2.2).2) * this
    obtain ⟨-, -, -, h4, h5, h6, -⟩ := C22_structure G
    obtain ⟨v0, e0⟩ := (h6 (0, 0)).2 ⟨0, 0, by omega, by omega, by simp⟩
    obtain ⟨v1, e1⟩ := (h6 (0, s)).2 ⟨0, 1, by omega, by omega, by simp⟩
    have k0 := hκ v0 (W.vertices ▸ List.mem_range.2 (at_lt e0))
    have k1 := hκ v1 (W.vertices ▸ List.mem_range.2 (at_lt e1))
    rw [xy_of_at e0] at k0
    rw [xy_of_at e1, ← k0] at k1
    have hny' : (2 : ℝ) ≤ ny := by exact_mod_cast hny
    have : 0 < γ * (s * (ny * s - s)) := mul_pos γ0 (mul_pos s0 (by nlinarith))
    simp only [hφ] at k1
    linarith

/-- sliding columns -/
theorem slide_columns {g : Grid ℝ} {nx ny : ℕ} {s : ℝ} (G : LibraryGrid g nx ny s) (hny : 2 ≤ nx) {r δ : ℝ} (hr : 0 < r)
    (hδ : 0 < δ) : ∃ (φ : ℝ → ℝ) (D : Deformation) (S : Tri → Matrix (Fin 2) (Fin 2) ℝ) (c : Tri → ℝ), φ 0 = 0 ∧ φ (nx * s) = 0 ∧
      (∀ v ∈ g.vertices, |φ (g.xy v).1| ≤ r) ∧
      deformOf g none (g.displaced fun z => (0, φ z.1)) = .ok D ∧ D.Strains g (fun t _ => S t) ∧
      (∀ t ∈ g.triangles, |c t| ≤ δ ∧ (S t = !![1, c t; 0, 1] ∨ S t = !![1, 0; c t, 1])) ∧ ∃ t ∈ g.triangles, c t ≠ 0 := by
  have s0 := (C22_structure G).1
  obtain ⟨γ0, b1, b2⟩ := parabola (H := nx * s) (by positivity) rfl hr hδ
  set γ := min δ r / (1 + nx * s + (nx * s) ^ 2)
  set φ : ℝ → ℝ := fun y => γ * (y * (nx * s - y)) with hφ
  obtain ⟨-, ⟨D, h1, h2⟩⟩ := p1_slide G φ
  have W := G.wellFormed
  refine ⟨φ, D, _, fun t => γ * (nx * s - (g.xy t.1).1 - (g.xy t.2.1).1), by simp [hφ], by simp [hφ],
    fun v hv => b1 _ (grid_inside G hv).1 (grid_inside G hv).2.1, h1, h2, fun t ht => ?_, ?_⟩
  · obtain ⟨v1, v2, v3⟩ := W.triangles t ht
    obtain ⟨f1, f2, f4, -⟩ := tri_frame G ht
    have nz : (g.xy t.2.1).1 - (g.xy t.1).1 ≠ 0 := by rw [← abs_pos, f4]; exact s0
    refine ⟨b2 _ _ (grid_inside G v1).1 (grid_inside G v1).2.1 (grid_inside G v2).1 (grid_inside G v2).2.1, Or.inr ?_⟩
    have : (φ (g.xy t.2.1).1 - φ (g.xy t.1).1) / ((g.xy t.2.1).1 - (g.xy t.1).1) =
        γ * (nx * s - (g.xy t.1).1 - (g.xy t.2.1).1) := by
      rw [div_eq_iff nz, hφ]
      ring
    rw [this]
  · by_contra hn
    push Not at hn
    obtain ⟨κ, hκ⟩ := G.connected (f := fun v => φ (g.xy v).1) fun t ht => by
      obtain ⟨-, f2, -⟩ := tri_frame G ht
      refine ⟨?_, by simp only [f2]⟩
      have := hn t ht
      simp only [hφ]
      linear_combination ((g.xy t.1).1 - (g.xy t.2.1).1) * this
    obtain ⟨-, -, -, h4, h5, h6, -⟩ := C22_structure G
    obtain ⟨v0, e0⟩ := (h6 (0, 0)).2 ⟨0, 0, by omega, by omega, by simp⟩
    obtain ⟨v1, e1⟩ := (h6 (s, 0)).2 ⟨1, 0, by omega, by omega, by simp⟩
    have k0 := hκ v0 (W.vertices ▸ List.mem_range.2 (at_lt e0))
    have k1 := hκ v1 (W.vertices ▸ List.mem_range.2 (at_lt e1))
    rw [xy_of_at e0] at k0
    rw [xy_of_at e1, ← k0] at k1
    have hny' : (2 : ℝ) ≤ nx := by exact_mod_cast hny
    have : 0 < γ * (s * (nx * s - s)) := mul_pos γ0 (mul_pos s0 (by nlinarith))
    simp only [hφ] at k1
    linarith

/-- a small admissible shear -/
theorem slide_candidate (hs : s.Reachable solver domain params ext traction) {k : ℕ} {a st : Step} (ha : s.steps[k]? = some a)
    (hst : s.steps[0]? = some st) (hya : a.yData = st.yData) (hsl : CanSlide domain params) {δ : ℝ} (hδ : 0 < δ) :
    ∃ (y' : NdArray) (D : Deformation) (S : Tri → Matrix (Fin 2) (Fin 2) ℝ) (c : Tri → ℝ),
      y'.Has (deformShape s.grid s.refined) ∧
      (∀ (i : ℕ) (u v : ℝ), a.yData.data[i]? = some u → y'.data[i]? = some v → |v - u| ≤ params.searchRadius) ∧
      (∀ (i : ℕ) (u v : ℝ), vertexOf (deformShape s.grid s.refined) i ∈ s.grid.dirichlet.vertices → a.yData.data[i]? = some u →
        y'.data[i]? = some v → v = u) ∧
      (s.refined ≠ none → DirichletId s.grid y') ∧
      deformOf s.grid s.refined y' = .ok D ∧ D.Strains (energyGrid s.grid s.refined) (fun t _ => S t) ∧
      (∀ t ∈ (energyGrid s.grid s.refined).triangles, |c t| ≤ δ ∧ (S t = !![1, c t; 0, 1] ∨ S t = !![1, 0; c t, 1])) ∧
      (∃ t ∈ (energyGrid s.grid s.refined).triangles, c t ≠ 0) ∧
      (params.regularization ≠ none → ∀ t ∈ (energyGrid s.grid s.refined).triangles, ∀ b : Bary ℝ, b.Normalized →
        D.hyperStrain t b = .ok (tenOf (fun (_ _ _ : Fin 2) => (0 : ℝ)))) := by
  obtain ⟨m0, t0, c⟩ := hs.context
  obtain ⟨it, hg⟩ := c.grid
  obtain ⟨Sh, ⟨n, U⟩, F⟩ := c.setup.simShape hg c.refined c.mech0
  have E := c.energetic
  have hY := (c.has a (List.mem_of_getElem? ha)).1
  rw [c.yShape_eq] at hY
  obtain ⟨st', hst', hpos, -, D0, hD0, hI⟩ := C68_initial hs
  cases hst.symm.trans hst'
  rw [← hya] at hpos hD0
  have hrad : 0 < params.searchRadius := c.setup.facts.2.1
  have hfx := C14_dirichlet_vertices c.setup.facts.2.2.2.1 c.setup.width c.setup.height hg
  by_cases hreg : params.regularization = none
  · obtain ⟨G, g1, -⟩ := c.setup.grids hg c.refined
    have href := g1 hreg
    have W := G.wellFormed
    have hlen : 0 < s.grid.vertices.length := by rw [(C22_structure G).2.2.2.1]; simp
    have hY' : a.yData.Has [s.grid.vertices.length, 2] := by rw [href] at hY; exact hY
    have hs0 := c.setup.facts.2.2.2.1
    have cells2 : ∀ w, 2 * params.scale ≤ w → 2 ≤ cells w params.scale := by
      intro w hw
      rw [cells]
      exact Nat.le_floor (by rw [le_div_iff₀ hs0]; exact_mod_cast hw)
    have rest : ∀ (u : ℝ × ℝ → ℝ × ℝ), (∀ v ∈ s.grid.vertices, |(u (s.grid.xy v)).1| ≤ params.searchRadius ∧
        |(u (s.grid.xy v)).2| ≤ params.searchRadius) →
        (∀ v ∈ s.grid.dirichlet.vertices, u (s.grid.xy v) = 0) →
        (s.grid.displaced u).Has (deformShape s.grid none) ∧
        (∀ (i : ℕ) (x v : ℝ), a.yData.data[i]? = some x → (s.grid.displaced u).data[i]? = some v → |v - x| ≤ params.searchRadius) ∧
        (∀ (i : ℕ) (x v : ℝ), vertexOf (deformShape s.grid none) i ∈ s.grid.dirichlet.vertices → a.yData.data[i]? = some x →
          (s.grid.displaced u).data[i]? = some v → v = x) := by
      intro u h1 h2
      refine ⟨displaced_has u hlen, fun i x v hx hv => ?_, fun i x v hm hx hv => ?_⟩
      · obtain ⟨k1, k2⟩ := displaced_diff W u hY' hpos hx hv
        obtain ⟨k3, k4⟩ := h1 _ k1
        rcases k2 with rfl | rfl <;> rwa [add_sub_cancel_left]
      · obtain ⟨k1, k2⟩ := displaced_diff W u hY' hpos hx hv
        have : u (s.grid.xy (i / 2)) = 0 := h2 _ hm
        rw [this] at k2
        rcases k2 with rfl | rfl <;> simp
    rw [href]
    rcases hsl.1 hreg with ⟨q1, q2⟩ | ⟨q1, q2⟩
    · obtain ⟨φ, D, S, cc, p1, p2, p3, p4, p5, p6, p7⟩ := slide_rows G (cells2 _ q2) hrad hδ
      obtain ⟨r1, r2, r3⟩ := rest (fun z => (φ z.2, 0)) (fun v hv => ⟨p3 v hv, by simpa using hrad.le⟩) fun v hv => by
        obtain ⟨q, hq, f, hf, ho⟩ := (hfx.2.1 v).1 hv
        rw [xy_of_at hq]
        have := q1 f hf
        cases f <;> simp [OnSide] at ho this ⊢ <;> rw [ho] <;> assumption
      exact ⟨_, D, S, cc, r1, r2, r3, fun h => absurd rfl h, p4, p5, p6, p7, fun h => absurd hreg h⟩
    · obtain ⟨φ, D, S, cc, p1, p2, p3, p4, p5, p6, p7⟩ := slide_columns G (cells2 _ q2) hrad hδ
      obtain ⟨r1, r2, r3⟩ := rest (fun z => (0, φ z.1)) (fun v hv => ⟨by simpa using hrad.le, p3 v hv⟩) fun v hv => by
        obtain ⟨q, hq, f, hf, ho⟩ := (hfx.2.1 v).1 hv
        rw [xy_of_at hq]
        have := q1 f hf
        cases f <;> simp [OnSide] at ho this ⊢ <;> rw [ho] <;> assumption
      exact ⟨_, D, S, cc, r1, r2, r3, fun h => absurd rfl h, p4, p5, p6, p7, fun h => absurd hreg h⟩
  · obtain ⟨K, K0, hK⟩ := list_bound a.yData.data id
    set γ := min δ (params.searchRadius / (K + 1)) with hγ
    have γ0 : 0 < γ := lt_min hδ (by positivity)
    have hno : ∀ v, v ∉ s.grid.dirichlet.vertices := by
      intro v hv
      obtain ⟨_, _, f, hf, -⟩ := (hfx.2.1 v).1 hv
      rw [hsl.2 hreg] at hf
      cases hf
    obtain ⟨y', hy'⟩ := rigidMotion_exists !![1, γ; 0, 1] 0 hY
    obtain ⟨D0', D, S, H, d1, d2, d3, d4, d5⟩ := E.rigid hY hy'
    cases hD0.symm.trans d1
    have href : s.refined ≠ none := by
      intro h0
      obtain ⟨n, r, p, k1, k2, k3, -⟩ := (c.setup.grids hg c.refined).2.2 hreg
      rw [h0] at k3
      cases k3
    refine ⟨y', D, fun _ => !![1, γ; 0, 1], fun _ => γ, rigid_shape hY hy', ?_, fun i _ _ h => absurd h (hno _), fun _ => ?_, d2, ?_, ?_, ?_, ?_⟩
    · have hsh : deformShape s.grid s.refined = [s.grid.vertices.length, 2, 6] := by
        cases hr : s.refined with
        | none => exact absurd hr href
        | some r => rfl
      have hb : ∀ j, |a.yData.data.getD j 0| ≤ K := by
        intro j
        rw [List.getD_eq_getElem?_getD]
        rcases hj : a.yData.data[j]? with _ | u
        · simpa using K0
        · exact hK u (List.mem_of_getElem? hj)
      rw [hsh] at hY
      have h2 := hy'.2
      rw [hY.1] at h2
      have h2 : ∀ v < s.grid.vertices.length, ∀ (i : Fin 2) (k : Fin 6), y'.at3 2 6 v i k =
        ∑ j : Fin 2, (!![1, γ; 0, 1] : Matrix (Fin 2) (Fin 2) ℝ) i j * a.yData.at3 2 6 v j k + if k = 0 then (0 : Fin 2 → ℝ) i else 0 := h2
      intro i u v hu hv
      have hi : i < s.grid.vertices.length * 12 := by
        have := (List.getElem?_eq_some_iff.1 hu).1
        have e := hY.2
        rw [NdArray.Ok, hY.1] at e
        simp at e
        omega
      have e := h2 (i / 12) (by omega) ⟨i / 6 % 2, by omega⟩ ⟨i % 6, by omega⟩
      have idx : (i / 12 * 2 + i / 6 % 2) * 6 + i % 6 = i := by omega
      have e1 : y'.at3 2 6 (i / 12) (i / 6 % 2) (i % 6) = v := by
        rw [NdArray.at3, idx, List.getD_eq_getElem?_getD, hv]; rfl
      have e2 : a.yData.at3 2 6 (i / 12) (i / 6 % 2) (i % 6) = u := by
        rw [NdArray.at3, idx, List.getD_eq_getElem?_getD, hu]; rfl
      have small : γ * K ≤ params.searchRadius := by
        calc γ * K ≤ params.searchRadius / (K + 1) * K := mul_le_mul_of_nonneg_right (min_le_right _ _) K0
          _ ≤ params.searchRadius / (K + 1) * (K + 1) := mul_le_mul_of_nonneg_left (by linarith) (by positivity)
          _ = _ := div_mul_cancel₀ _ (by positivity)
      simp only [ite_self, Pi.zero_apply, add_zero, Fin.sum_univ_two, e1] at e
      rcases Nat.mod_two_eq_zero_or_one (i / 6) with hj | hj
      · simp only [hj] at e e2
        have e : v = 1 * a.yData.at3 2 6 (i / 12) 0 (i % 6) + γ * a.yData.at3 2 6 (i / 12) 1 (i % 6) := e
        rw [e, e2, one_mul, add_sub_cancel_left, abs_mul, abs_of_pos γ0]
        exact (mul_le_mul_of_nonneg_left (hb _) γ0.le).trans small
      · simp only [hj] at e e2
        have e : v = 0 * a.yData.at3 2 6 (i / 12) 0 (i % 6) + 1 * a.yData.at3 2 6 (i / 12) 1 (i % 6) := e
        rw [e, e2]
        simpa using hrad.le
    · intro A B _ _ e he
      exact absurd ((hfx.2.2 e.1).2 ⟨e, he, Or.inl rfl⟩) (hno _)
    · intro t ht b hb
      have e : S t b = 1 := matOf_inj (Except.ok.inj ((d3 t ht b hb).symm.trans (hI t ht b hb).2.1))
      have : D.strain t b = .ok (matOf (!![1, γ; 0, 1] * S t b)) := d4 t ht b hb
      rw [e, mul_one] at this
      exact this
    · exact fun t ht => ⟨by rw [abs_of_pos γ0]; exact min_le_left _ _, Or.inl rfl⟩
    · obtain ⟨nx, ny, sc, L⟩ := E.lib
      have hl := (C22_structure L).2.2.2.2.2.2.1
      have h1 := (C22_structure L).2.1
      have h2 := (C22_structure L).2.2.1
      have : 0 < (energyGrid s.grid s.refined).triangles.length := by rw [hl]; positivity
      exact ⟨_, List.getElem_mem this, γ0.ne'⟩
    · intro _ t ht b hb
      obtain ⟨h1, h2⟩ := d5 href t ht b hb
      have hH : H t b = fun _ _ _ => 0 := tenOf_inj (Except.ok.inj (h1.symm.trans ((hI t ht b hb).2.2 hreg)))
      rw [h2, hH]
      simp

/-- **C99** (bodies that transform). If a recorded deformation is the initial one, the body can slide, no traction acts, the
solver returned an optimal deformation for the next step and, at a temperature that no recorded temperature exceeds, three times the
austenite fraction plus twice the number of steps per time is less than one, then the next recorded deformation no longer has the
strain 1: its elastic energy plus the dissipated energy (with regularization plus the weighted hyper elastic energy) is less than
the elastic energy before. -/
theorem C99_transforms (hs : s.Healthy solver domain params ext traction) (hq : GaussRule.new leg 1 = .ok q) {k : ℕ}
    {a b st : Step} (ha : s.steps[k]? = some a) (hb : s.steps[k + 1]? = some b) {p : Problem} (hp : s.calls[2 * k]? = some p)
    (hopt : p.IsOptimal leg (solver (s.calls.take (2 * k)) p)) (hst : s.steps[0]? = some st) (hya : a.yData = st.yData)
    (hsl : CanSlide domain params) {τ α : ℝ} (hα : austenitePercentage τ = .ok α) (hcold : 3 * α + 2 * params.fps < 1)
    (hθ : ∀ x ∈ a.thetaData.data, x ≤ τ)
    (ht : params.regularization = none → ∀ v ∈ s.grid.neumann.vertices,
      traction (k / params.fps) (s.grid.xy v).1 (s.grid.xy v).2 = .ok [0, 0]) :
    (∃ E0 E1 d, IsElasticEnergy s.grid s.refined a.yData a.thetaData E0 ∧
      IsElasticEnergy s.grid s.refined b.yData a.thetaData E1 ∧ IsDissipation s.grid s.refined a.yData b.yData d ∧ 0 ≤ d ∧
      E1 + params.fps * d < E0 ∧
      (∀ κ, params.regularization = some κ → ∃ r h, s.refined = some r ∧ IsHyperEnergy s.grid r b.yData h ∧ 0 ≤ h ∧
        E1 + κ * h + params.fps * d < E0)) ∧
    Undeformed s.grid s.refined a.yData ∧ ¬ Undeformed s.grid s.refined b.yData := by
  obtain ⟨m0, t0, c, -⟩ := hs.history
  obtain ⟨it, hg⟩ := c.grid
  have hf := hs.fps_pos
  have hα' : α = 1 - Real.exp (-5 * τ) := Except.ok.inj (hα.symm.trans (aust_eq τ))
  rw [hα'] at hcold
  obtain ⟨δ, δ0, hδ⟩ := shear_key hcold
  obtain ⟨y', D, S, cc, y1, y2, y3, y4, y5, y6, y7, y8, y9⟩ := slide_candidate hs.reachable ha hst hya hsl δ0
  obtain ⟨r, hr, R⟩ := energyRule_good s.refined
  have hor : Oriented s.grid s.refined y' := by
    refine ⟨D, r, y5, hr, fun t ht b hb => ⟨_, y6 t ht b (R.inside b hb).1, ?_⟩⟩
    obtain ⟨z1, z2⟩ := y7 t ht
    rw [(hδ _ z1 _ le_rfl _ z2).1]
    exact one_pos
  obtain ⟨v, w, ⟨E1, d, b1, b2, b3, b4⟩, ⟨E2, d2, c1, c2, c3, c4⟩, hle⟩ := mech_beats hs hq ha hb hp hopt y1 y2 (fun i u v h _ => y3 i u v h) y4 hor
  obtain ⟨st', hst', -, -, D0, hD0, hI⟩ := C68_initial hs.reachable
  cases hst.symm.trans hst'
  rw [← hya] at hD0
  have hu : Undeformed s.grid s.refined a.yData := ⟨D0, r, hD0, hr, fun t ht b hb => (hI t ht b (R.inside b hb).1).2.1⟩
  have hou : Oriented s.grid s.refined a.yData :=
    ⟨D0, r, hD0, hr, fun t ht b hb => ⟨1, (hI t ht b (R.inside b hb).1).2.1, by simp⟩⟩
  obtain ⟨D1, T, r1, W1, q1, q2, q3⟩ := id b1
  obtain ⟨E0, e0⟩ := hou.energy c.energetic.wf q2
  have drop := cold_drop c.energetic hu e0 c1 c2 hθ hδ y5 y6 y7 y8
  obtain ⟨d', -, f1, f2, -⟩ := dissCode_ok c.energetic hD0 q1
  cases b2.unique f1
  have main : (E1 + params.fps * d < E0 ∧
      (∀ κ, params.regularization = some κ → ∃ r h, s.refined = some r ∧ IsHyperEnergy s.grid r b.yData h ∧ 0 ≤ h ∧
        E1 + κ * h + params.fps * d < E0)) := by
    rcases hreg : params.regularization with _ | κ
    · refine ⟨?_, fun κ h => by cases h⟩
      obtain ⟨w1, k1, rfl⟩ := b3 hreg
      obtain ⟨w2, k2, rfl⟩ := c3 hreg
      have hN := (C15_neumann_vertices_partial c.setup.facts.2.2.2.1 c.setup.width c.setup.height hg).2.2.1
      rw [k1.zero hN (ht hreg), k2.zero hN (ht hreg)] at hle
      linarith
    · obtain ⟨rf, h1, k1, k2, rfl⟩ := b4 κ hreg
      obtain ⟨rf', h2, k3, k4, rfl⟩ := c4 κ hreg
      cases k1.symm.trans k3
      have hκ : 0 ≤ κ := by
        obtain ⟨_, _, _, _, _, _, h⟩ := c.setup.valid
        obtain ⟨-, -, -, -, -, -, -, -, h5, h6, -⟩ := simParams_ok h
        exact h6 κ (h5.symm.trans hreg)
      have en := c.energetic
      rw [k1] at en q1 y5
      obtain ⟨x, -, x1, x2⟩ := hyperCode_ok en q1
      cases k2.unique x1
      have h20 : h2 = 0 := by
        obtain ⟨D', r', W', l1, l2, l3, rfl⟩ := k4
        cases y5.symm.trans l1
        obtain ⟨r5, m1, R5⟩ := dunavant5_good
        cases l2.symm.trans m1
        have z : ∀ t ∈ rf.toGrid.triangles, ∀ b ∈ r'.points, W' t b = 0 := by
          intro t ht b hb
          obtain ⟨Hh, n1, n2⟩ := l3 t ht b hb
          have n3 := y9 (by rw [hreg]; simp) t (by rw [k1]; exact ht) b (R5.inside b hb).1
          cases n1.symm.trans n3
          rw [n2, (C70_value _).2.1]
          simp
        rw [quad_congr z]
        have := quad_const (G := rf.toGrid) R5.len 0
        rw [this]
        ring
      rw [h20] at hle
      have := mul_nonneg hκ x2
      refine ⟨by linarith, fun κ' h => ?_⟩
      cases h
      exact ⟨rf, _, k1, k2, x2, by linarith⟩
  refine ⟨⟨E0, E1, d, e0, b1, b2, f2, main⟩, hu, fun hub => ?_⟩
  have := b1.unique (undeformed_energy hu hub e0)
  have := mul_nonneg hf.le f2
  linarith [main.1]

end

/-- parameters of a cold body: initial temperature 0, four time units per step -/
noncomputable def coldParams : SimParams := ⟨0, 1 / 8, 1 / 4, 1 / 2, none, none⟩

theorem coldSetup : Setup exampleDomain coldParams where
  valid := ⟨0, 1 / 8, 1 / 4, 1 / 2, none, some 7, (C55_validation_partial _ _ _ _ _ _).1
    ⟨by norm_num, by norm_num, by norm_num, by norm_num, by simp, by rintro x ⟨⟩; norm_num, by simp⟩⟩
  width := by norm_num [coldParams, exampleDomain]
  height := by norm_num [coldParams, exampleDomain]
  fine := by intro n h; cases h

/-- a cold body whose lower side is fixed leaves its initial state in the first step -/
example (it : SetIter) : ∃ (solver : Solver) (s : Sim) (a b : Step),
    s.Healthy solver exampleDomain coldParams (fun _ => .ok 0) (fun _ _ _ => .ok [0, 0]) ∧
    s.steps[0]? = some a ∧ s.steps[1]? = some b ∧ Undeformed s.grid s.refined a.yData ∧
    ¬ Undeformed s.grid s.refined b.yData := by
  obtain ⟨leg, q, solver, s, h1, h2, h3, h4, h5, h6, h7, h8⟩ := optimal_run coldSetup (by norm_num [coldParams])
    (ext := fun _ => .ok 0) (traction := fun _ _ _ => .ok [0, 0]) ⟨fun _ _ _ => ⟨0, 0, rfl⟩, fun _ => ⟨0, le_rfl, rfl⟩⟩ it
  have e0 : s.steps[0]? = some s.steps[0] := List.getElem?_eq_getElem (by omega)
  have e1 : s.steps[1]? = some s.steps[1] := List.getElem?_eq_getElem (by omega)
  have e2 : s.calls[2 * 0]? = some s.calls[0] := List.getElem?_eq_getElem (by omega)
  obtain ⟨st, k1, -, k2, -⟩ := C68_initial h5.reachable
  cases e0.symm.trans k1
  have := C99_transforms h5 h1 e0 e1 e2 (h8 0 _ e2) e0 rfl
    ⟨fun _ => Or.inl ⟨by simp [exampleDomain, Fix.options], by norm_num [coldParams, exampleDomain]⟩, fun h => absurd rfl h⟩
    (aust_eq 0) (by norm_num [coldParams]) (fun x hx => by
      rw [k2] at hx
      rw [List.eq_of_mem_replicate hx]
      norm_num [coldParams]) (fun _ _ _ => rfl)
  exact ⟨solver, s, _, _, h5, e0, e1, this.2⟩

/-- a body whose steps are short stays in its initial state -/
example (it : SetIter) : ∃ (solver : Solver) (s : Sim) (a b : Step),
    s.Healthy solver exampleDomain exampleParams (fun _ => .ok 0) (fun _ _ _ => .ok [0, 0]) ∧
    s.steps[0]? = some a ∧ s.steps[1]? = some b ∧ Undeformed s.grid s.refined a.yData ∧
    Undeformed s.grid s.refined b.yData := by
  obtain ⟨leg, q, solver, s, h1, h2, h3, h4, h5, h6, h7, h8⟩ := optimal_run exampleSetup (by norm_num [exampleParams])
    (ext := fun _ => .ok 0) (traction := fun _ _ _ => .ok [0, 0]) ⟨fun _ _ _ => ⟨0, 0, rfl⟩, fun _ => ⟨0, le_rfl, rfl⟩⟩ it
  have e0 : s.steps[0]? = some s.steps[0] := List.getElem?_eq_getElem (by omega)
  have e1 : s.steps[1]? = some s.steps[1] := List.getElem?_eq_getElem (by omega)
  obtain ⟨st, k1, -, k2, D, k3, k4⟩ := C68_initial h5.reachable
  cases e0.symm.trans k1
  obtain ⟨r, hr, R⟩ := energyRule_good s.refined
  have hu : Undeformed s.grid s.refined s.steps[0].yData :=
    ⟨D, r, k3, hr, fun t ht b hb => (k4 t ht b (R.inside b hb).1).2.1⟩
  have := C99_stays h5 h1 h4 e0 e1 hu (fun κ h => by cases h) (fun x hx => by
      rw [k2] at hx
      rw [List.eq_of_mem_replicate hx]
      refine ⟨by norm_num [exampleParams], _, aust_eq _, ?_⟩
      have : Real.exp (-5 * exampleParams.initialTemperature) ≤ 1 := Real.exp_le_one_iff.2 (by norm_num [exampleParams])
      have hf : exampleParams.fps = 3 := rfl
      linarith) (fun _ _ _ => rfl)
  exact ⟨solver, s, _, _, h5, e0, e1, hu, this.1⟩

/-- a displacement of the six vertices of the regularized example: the first coordinate of the first vertex, which lies on the fixed
side, changes only its derivative across that side -/
noncomputable def normalDisplacement : NdArray := ⟨[6, 2, 6], (List.replicate 72 (0 : ℝ)).set 2 1⟩

/-- in the regularized example the solver that stays at the initial deformation returns optimal mechanical steps; the balance of
forces (C92) holds for a displacement with a derivative across the fixed side -/
example (it : SetIter) : ∃ (leg : LegGauss) (s : Sim) (a b : Step) (p : Problem),
    s.Healthy staySolver exampleDomain exampleParamsReg (fun t => .ok (t ^ 2)) (fun t x y => .ok [t + x, y]) ∧
    s.steps[0]? = some a ∧ s.steps[1]? = some b ∧ s.calls[2 * 0]? = some p ∧
    p.IsOptimal leg (staySolver (s.calls.take (2 * 0)) p) ∧ normalDisplacement.VanishesOnDirichlet s.grid ∧
    0 ∈ s.grid.dirichlet.vertices ∧
    IsForceBalance leg exampleParamsReg (fun t x y => .ok [t + x, y]) s.grid s.refined ((0 : ℕ) / exampleParamsReg.fps) a.yData b.yData
      a.thetaData normalDisplacement 0 := by
  have hq := gauss_new_ok (lg := fun _ => .ok ([0], [2])) (n := 1) (P := [0]) (W := [2]) rfl
  obtain ⟨s, hh, hr, hl⟩ := example_run it (Or.inr rfl) (n := 1) (by norm_num)
  have e0 : s.steps[0]? = some s.steps[0] := List.getElem?_eq_getElem (by omega)
  have e1 : s.steps[0 + 1]? = some s.steps[1] := List.getElem?_eq_getElem (by omega)
  have hy := stay_yData hh e0 e1
  obtain ⟨st, k1, -, k2, D, k3, k4⟩ := C68_initial hr
  cases e0.symm.trans k1
  obtain ⟨m0, t0, c, H⟩ := hh.history
  obtain ⟨it', hg⟩ := c.grid
  obtain ⟨r, hr', R⟩ := energyRule_good s.refined
  have hu : Undeformed s.grid s.refined s.steps[0].yData :=
    ⟨D, r, k3, hr', fun t ht b hb => (k4 t ht b (R.inside b hb).1).2.1⟩
  have hh0 : NoHyperEnergy exampleParamsReg s.grid s.refined s.steps[0].yData := by
    obtain ⟨st0', a, E, l1, -, -, -, -, l2⟩ := C68_energy hr
    cases l1.symm.trans e0
    intro κ hκ
    obtain ⟨r, h1, h2⟩ := l2 (by rw [hκ]; simp)
    exact ⟨r, 0, h1, h2, mul_zero _⟩
  obtain ⟨p, p1, -, p2⟩ :=
    C99_optimal (k := 0) hh hq stay_contracts.2.2.2.1 e0 e1 hu hh0 (fun x hx => by
      rw [k2] at hx
      rw [List.eq_of_mem_replicate hx]
      refine ⟨by norm_num [exampleParamsReg], _, aust_eq _, ?_⟩
      have : Real.exp (-5 * exampleParamsReg.initialTemperature) ≤ 1 := Real.exp_le_one_iff.2 (by norm_num [exampleParamsReg])
      have hf : exampleParamsReg.fps = 3 := rfl
      linarith) (fun h => by cases h)
  have hD := (C14_dirichlet_vertices c.setup.facts.2.2.2.1 c.setup.width c.setup.height hg).2
  have hlow : ∀ v ∈ s.grid.dirichlet.vertices, (s.grid.xy v).2 = 0 := by
    intro v hv
    obtain ⟨q, hq, f, hf, ho⟩ := (hD.1 v).1 hv
    rw [xy_of_at hq]
    simp only [exampleDomain, Fix.options, List.mem_singleton] at hf
    rw [hf] at ho
    exact ho
  have zero : ∀ i, i ≠ 2 → normalDisplacement.data.getD i 0 = 0 := by
    intro i hi
    show ((List.replicate 72 (0 : ℝ)).set 2 1).getD i 0 = 0
    rw [List.getD_eq_getElem?_getD, List.getElem?_set_ne (by omega), List.getElem?_replicate]
    split <;> rfl
  have hz : normalDisplacement.VanishesOnDirichlet s.grid := by
    refine ⟨fun v hv => ?_, fun _ e he v hv i hi dx dy hd => ?_⟩
    · show (normalDisplacement.at3 2 6 v 0 0, normalDisplacement.at3 2 6 v 1 0) = (0, 0)
      rw [Prod.mk.injEq]
      exact ⟨zero _ (by omega), zero _ (by omega)⟩
    · have h0 : dy = 0 := by
        rw [Prod.mk.injEq] at hd
        rw [hd.2]
        show (s.grid.xy e.2).2 - (s.grid.xy e.1).2 = 0
        rw [hlow _ ((hD.2 _).2 ⟨e, he, Or.inr rfl⟩), hlow _ ((hD.2 _).2 ⟨e, he, Or.inl rfl⟩), sub_zero]
      have z1 : normalDisplacement.at3 2 6 v i 1 = 0 := zero _ (by omega)
      have z3 : normalDisplacement.at3 2 6 v i 3 = 0 := zero _ (by omega)
      rw [h0, z1, z3]
      norm_num
  have ho : p.answer (staySolver (s.calls.take (2 * 0)) p) = s.steps[0].yData.data := by
    obtain ⟨m, t, h1, -, -, -, -, S⟩ := H.each 0 _ _ e0 e1
    cases h1.symm.trans p1
    rw [← (S.mechWF.load _).2.2.2.1, ← S.y, hy]
  have G := (c.setup.grids hg c.refined).1
  have hc : cells exampleDomain.width exampleParamsReg.scale = 1 ∧ cells exampleDomain.height exampleParamsReg.scale = 2 := by
    constructor <;> rw [cells, Nat.floor_eq_iff (by norm_num [exampleDomain, exampleParamsReg])] <;>
      norm_num [exampleDomain, exampleParamsReg]
  have hspec := rect_grid_spec it' exampleDomain (s := exampleParamsReg.scale) (by norm_num [exampleDomain]) (by norm_num [exampleDomain])
    (by norm_num [exampleParamsReg])
  rw [hc.1, hc.2] at hspec
  obtain ⟨g, ts, hg', RS⟩ := hspec
  cases hg.symm.trans hg'
  have hv0 : 0 ∈ s.grid.dirichlet.vertices := by
    have h := RS.at_lab (a := (0, 0)) ⟨by norm_num, by norm_num⟩
    rw [lab_rowMajor (by norm_num) (by norm_num)] at h
    have h1 : RectGrid.pv (1 + 1) 0 0 = 0 := by simp [RectGrid.pv]
    rw [h1] at h
    exact (hD.1 0).2 ⟨_, h, .lower, by simp [exampleDomain, Fix.options], by simp [OnSide, pos]⟩
  have hzs : normalDisplacement.Has s.steps[0].yData.shape := by
    have h1 := (c.has _ (List.getElem_mem (show 0 < s.steps.length by omega))).1.1
    rw [h1, c.yShape_eq]
    have h2 : s.grid.vertices.length = 6 := by
      rw [(C22_structure G).2.2.2.1, hc.1, hc.2]
      simp
    obtain ⟨n, rr, pp, q1, q2, q3, -⟩ := (c.setup.grids hg c.refined).2.2 (by simp [exampleParamsReg])
    rw [q3, deformShape, h2]
    exact ⟨rfl, by simp [NdArray.Ok, normalDisplacement]⟩
  refine ⟨_, s, _, _, p, hh, e0, e1, p1, p2 _ ho, hz, hv0, ?_⟩
  exact C92_equilibrium hh hq e0 e1 p1 (p2 _ ho) hzs hz (fun i u v w h1 h2 h3 h4 => by
    rw [hy, h1] at h2
    cases h2
    rw [sub_self, abs_zero]
    norm_num [exampleParamsReg])

end Tve
