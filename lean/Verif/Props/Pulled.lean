import Verif.Spec.Pulled
import Verif.Props.Threshold
import Verif.Lemmas.SimilarField

/-!
# C114: tractions set bodies in motion
-/

namespace Tve
open Helpers

theorem stressE_one (x : ℝ) : stressE x 1 = 0 := by
  have h : fsq 1 = 2 := by norm_num [fsq, Matrix.one_apply]
  have hA : stressA 1 = 0 := by
    ext i j
    fin_cases i <;> fin_cases j <;> norm_num [stressA, cof]
  have hM : stressM 1 = 0 := by
    ext i j
    fin_cases i <;> fin_cases j <;> norm_num [stressM, cof, h]
  rw [stressE, hA, hM, smul_zero, smul_zero, add_zero]

section
variable {solver : Solver} {domain : RectDomain ℝ} {params : SimParams} {ext : ExtTemp} {traction : Traction} {s : Sim}
  {leg : LegGauss} {q : GaussRule ℝ}

/-- piecewise affine undeformed bodies have the strain 1 everywhere -/
theorem undeformed_p1 {g : Grid ℝ} {nx ny : ℕ} {h : ℝ} (G : LibraryGrid g nx ny h) {y : NdArray} (hu : Undeformed g none y)
    {r : TriRule ℝ} (hr : energyRule none = .ok r ∨ dissipationRule none = .ok r) {F : Tri → Bary ℝ → Matrix (Fin 2) (Fin 2) ℝ}
    (hF : IsStrainField g none r y F) : ∀ t ∈ g.triangles, ∀ b ∈ r.points, F t b = 1 := by
  intro t ht b hb
  obtain ⟨D, r0, hD, hr0, h1⟩ := hu
  obtain ⟨D', hD', h2⟩ := hF
  cases hD.symm.trans hD'
  obtain ⟨r', e, R⟩ := energyRule_good (none : Option (RefinedGrid ℝ))
  cases hr0.symm.trans e
  obtain ⟨b0, hb0⟩ := List.exists_mem_of_ne_nil _ R.ne
  have hn : b.Normalized := by
    rcases hr with hr | hr
    · cases hr.symm.trans hr0
      exact (R.inside b hb).1
    · obtain ⟨r', e, hg⟩ := dissipationRule_good none
      cases hr.symm.trans e
      exact (hg.inside b hb).1
  rw [deformOf, bind_eq_ok] at hD
  obtain ⟨A, hA, hD⟩ := hD
  rw [bind_eq_ok] at hD
  obtain ⟨B, hB, hD⟩ := hD
  have hS := p1_strains G hD
  have e1 := matOf_inj (Except.ok.inj ((hS t ht b0 (R.inside b0 hb0).1).symm.trans (h1 t ht b0 hb0)))
  have e2 := matOf_inj (Except.ok.inj ((hS t ht b hn).symm.trans (h2 t ht b hb)))
  rw [← e2]
  exact e1

/-- **C114** (balance at rest). Without regularization, if the solver answers the mechanical problem of a step from an undeformed body to
an undeformed body optimally, then the work of the boundary traction vanishes for every displacement that vanishes at the Dirichlet
vertices and moves only coordinates that did not reach the search radius. -/
theorem C114_balance (hs : s.Healthy solver domain params ext traction) (hq : GaussRule.new leg 1 = .ok q)
    (hreg : params.regularization = none) {k : ℕ} {a b : Step} (ha : s.steps[k]? = some a) (hb : s.steps[k + 1]? = some b)
    {p : Problem} (hp : s.calls[2 * k]? = some p) (hopt : p.IsOptimal leg (solver (s.calls.take (2 * k)) p))
    (hua : Undeformed s.grid s.refined a.yData) (hub : Undeformed s.grid s.refined b.yData) {z : NdArray} (hz : z.Has a.yData.shape)
    (hD : z.VanishesOnDirichlet s.grid)
    (hr : ∀ (i : ℕ) (u v w : ℝ), a.yData.data[i]? = some u → b.yData.data[i]? = some v → z.data[i]? = some w → w ≠ 0 →
      |v - u| < params.searchRadius) {w : ℝ} (hw : IsBoundaryWork leg s.grid traction (k / params.fps) z w) : w = 0 := by
  obtain ⟨m0, t0, c⟩ := hs.reachable.context
  obtain ⟨it, hg⟩ := c.grid
  obtain ⟨G, h1, -⟩ := c.setup.grids hg c.refined
  have hN := (C15_neumann_vertices_partial c.setup.facts.2.2.2.1 c.setup.width c.setup.height hg).2.2.1
  have key := C92_equilibrium hs hq ha hb hp hopt hz hD hr
  rw [h1 hreg] at key hua hub
  obtain ⟨e, f, ⟨r1, F, Gz, S', T, x, hr1, hF, hG, -, hS, rfl⟩, ⟨r2, F0, F2, G2, V, hr2, hF0, hF2, hG2, hV, rfl⟩, h2, -⟩ := key
  obtain ⟨w', hw', he⟩ := h2 hreg
  have q1 : (energyGrid s.grid none).quad r1 (fun t b => ∑ i, ∑ j, S' t b i j * Gz t b i j) = 0 := by
    obtain ⟨r', e, hg⟩ := energyRule_good none
    cases hr1.symm.trans e
    refine quad_zero hg fun t ht b hb => ?_
    have h3 := (hS t ht b hb).2
    rw [undeformed_p1 G hub (.inl hr1) hF t ht b hb] at h3
    rw [h3.unique (isStress_elastic (by simp) _), stressE_one]
    simp
  have q2 : (energyGrid s.grid none).quad r2 (fun t b => ∑ i, ∑ j, V t b i j * G2 t b i j) = 0 := by
    obtain ⟨r', e, hg⟩ := dissipationRule_good none
    cases hr2.symm.trans e
    refine quad_zero hg fun t ht b hb => ?_
    have h3 := hV t ht b hb
    obtain ⟨V0, -, h4, h5, -⟩ := C92_viscous_stress (F0 t b) (F2 t b)
    rw [h4 _ h3, h5 (by rw [undeformed_p1 G hub (.inr hr2) hF2 t ht b hb, undeformed_p1 G hua (.inr hr2) hF0 t ht b hb])]
    simp
  rw [q1, q2] at he
  rw [hw.unique hN hw']
  linarith

/-- the edges of the boundary have positive length -/
theorem boundary_edge_pos {it : SetIter} {g : Grid ℝ} {h : ℝ} (h0 : 0 < h) (hw : h ≤ domain.width) (hh : h ≤ domain.height)
    (hg : domain.grid it h = .ok g) {e : Edge} (he : e ∈ g.boundary.edges) : 0 < edgeLen g.xy e := by
  have G := LibraryGrid.grid h0 hw hh hg
  have hE := (C12_boundary_edges h0 hw hh hg).2
  obtain ⟨t, ⟨ht, hside⟩, -⟩ := ((hE e).1 he).2
  have hnz : Bell.twoD (g.corners t) ≠ 0 := G.nondegenerate ht
  have hne : g.xy e.1 ≠ g.xy e.2 := by
    intro heq
    apply hnz
    have kd : Bell.twoD (g.corners t) = cross (g.xy t.1) (g.xy t.2.1) (g.xy t.2.2) := rfl
    rw [kd]
    simp only [Tri.sides, Edge.undirected, List.mem_cons, List.not_mem_nil, or_false, Sym2.eq_iff] at hside
    rcases hside with (⟨h1, h2⟩ | ⟨h1, h2⟩) | (⟨h1, h2⟩ | ⟨h1, h2⟩) | (⟨h1, h2⟩ | ⟨h1, h2⟩) <;> rw [h1, h2] at heq <;>
      first
      | (rw [heq]; simp only [cross]; ring)
      | (rw [← heq]; simp only [cross]; ring)
  rw [edgeLen, Real.sqrt_pos]
  by_contra hle
  push Not at hle
  have h1 := sq_nonneg ((g.xy e.1).1 - (g.xy e.2).1)
  have h2 := sq_nonneg ((g.xy e.1).2 - (g.xy e.2).2)
  exact hne (Prod.ext (sub_eq_zero.1 (pow_eq_zero_iff two_ne_zero |>.1 (by linarith)))
    (sub_eq_zero.1 (pow_eq_zero_iff two_ne_zero |>.1 (by linarith))))

/-- pulling does work on the displacement of a single vertex -/
theorem pulled_work {it : SetIter} {g : Grid ℝ} {h : ℝ} (h0 : 0 < h) (hw : h ≤ domain.width) (hh : h ≤ domain.height)
    (hg : domain.grid it h = .ok g) (hleg : LegMidpoint leg) {time : ℝ} {d : ℝ × ℝ}
    (hall : ∀ u ∈ g.neumann.vertices, PulledAt traction g time d u) {v : Vertex} (hv : v ∈ g.boundary.vertices)
    (hvD : v ∉ g.dirichlet.vertices) {a b : ℝ} (hT : traction time (g.xy v).1 (g.xy v).2 = .ok [a, b]) (hpos : 0 < a * d.1 + b * d.2)
    {z : NdArray} (hz : ∀ u ∈ g.vertices, z.deformed u = if u = v then d else 0) :
    ∃ w, IsBoundaryWork leg g traction time z w ∧ 0 < w := by
  have W := C09_indices_valid (h0.le.trans hw) (h0.le.trans hh) h0 hg
  have hN := (C15_neumann_vertices_partial h0 hw hh hg).2.2.1
  have hP := C13_partition (h0.le.trans hw) (h0.le.trans hh) h0 hg
  choose! A B hAB hnn using hall
  refine ⟨_, ⟨_, fun u => (A u, B u), midpoint_rule hleg, fun u hu => ⟨_, hAB u hu, rfl, rfl⟩, rfl⟩, ?_⟩
  rw [Grid.edgeQuad]
  have hmem : ∀ e ∈ g.neumann.edges, e.1 ∈ g.vertices ∧ e.2 ∈ g.vertices := fun e he => W.edges e (W.neumann.2 e he)
  have hterm : ∀ e ∈ g.neumann.edges, GaussRule.value ⟨[1 / 2], [1]⟩ (fun σ =>
      (σ * A e.1 + (1 - σ) * A e.2) * (σ * (z.deformed e.1).1 + (1 - σ) * (z.deformed e.2).1) +
      (σ * B e.1 + (1 - σ) * B e.2) * (σ * (z.deformed e.1).2 + (1 - σ) * (z.deformed e.2).2)) =
      1 / 4 * (((A e.1 * d.1 + B e.1 * d.2) + (A e.2 * d.1 + B e.2 * d.2)) * ((if e.1 = v then 1 else 0) + if e.2 = v then 1 else 0)) := by
    intro e he
    obtain ⟨v1, v2⟩ := hmem e he
    rw [midpoint_value, hz _ v1, hz _ v2]
    split <;> split <;> simp <;> ring
  have hvb : IsEndpoint v g.neumann.edges := by
    obtain ⟨e, he, hev⟩ := ((C12_boundary_vertices h0 hw hh hg).2.2 v).1 hv
    rcases (hP.2.2.1 e).1 he with h1 | h1
    · exact absurd (((C14_dirichlet_vertices h0 hw hh hg).2.2 v).2 ⟨e, h1, hev⟩) hvD
    · exact ⟨e, h1, hev⟩
  have hTv : A v = a ∧ B v = b := by
    have := Except.ok.inj ((hAB v (hN v hvb)).symm.trans hT)
    simpa using this
  have hnonneg : ∀ e ∈ g.neumann.edges, 0 ≤ A e.1 * d.1 + B e.1 * d.2 ∧ 0 ≤ A e.2 * d.1 + B e.2 * d.2 := fun e he =>
    ⟨hnn _ (hN _ ⟨e, he, .inl rfl⟩), hnn _ (hN _ ⟨e, he, .inr rfl⟩)⟩
  obtain ⟨e, he, hev⟩ := hvb
  have hlen : 0 < edgeLen g.xy e := boundary_edge_pos h0 hw hh hg ((hP.2.2.1 e).2 (.inr he))
  refine lt_of_lt_of_le ?_ (List.single_le_sum (fun x hx => ?_) _ (List.mem_map.2 ⟨e, he, rfl⟩))
  · rw [hterm e he]
    obtain ⟨n1, n2⟩ := hnonneg e he
    refine mul_pos hlen (mul_pos (by norm_num) ?_)
    rcases hev with rfl | rfl
    · rw [hTv.1, hTv.2, if_pos rfl]
      refine mul_pos (by linarith) ?_
      split <;> norm_num
    · rw [hTv.1, hTv.2, if_pos rfl]
      refine mul_pos (by linarith) ?_
      split <;> norm_num
  · obtain ⟨e', he', rfl⟩ := List.mem_map.1 hx
    rw [hterm e' he']
    obtain ⟨n1, n2⟩ := hnonneg e' he'
    refine mul_nonneg (Real.sqrt_nonneg _) (mul_nonneg (by norm_num) (mul_nonneg (by linarith) ?_))
    split <;> split <;> norm_num

/-- **C114** (pulled bodies move). Without regularization, if the solver answers the mechanical problem of a step from an undeformed body
optimally and the boundary is pulled in some direction at the time of the step, then some vertex moves; either the body is deformed, or
some coordinate moves by the search radius. If part of the boundary is fixed (and the solver respects this) the body is deformed. -/
theorem C114_pulled (hs : s.Healthy solver domain params ext traction) (hleg : LegMidpoint leg)
    (hreg : params.regularization = none) {k : ℕ} {a b : Step} (ha : s.steps[k]? = some a) (hb : s.steps[k + 1]? = some b)
    {p : Problem} (hp : s.calls[2 * k]? = some p) (hopt : p.IsOptimal leg (solver (s.calls.take (2 * k)) p))
    (hua : Undeformed s.grid s.refined a.yData) {d : ℝ × ℝ} (hpull : Pulled traction s.grid (k / params.fps) d) :
    (∃ v ∈ s.grid.vertices, b.yData.deformed v ≠ a.yData.deformed v) ∧
    (Undeformed s.grid s.refined b.yData → ∃ (i : ℕ) (u v : ℝ), a.yData.data[i]? = some u ∧ b.yData.data[i]? = some v ∧
      params.searchRadius ≤ |v - u|) ∧
    (solver.RespectsFixed → (∃ f ∈ domain.fix.options, ∀ name, f ≠ .unknown name) → ¬ Undeformed s.grid s.refined b.yData) := by
  classical
  obtain ⟨m0, t0, c⟩ := hs.reachable.context
  obtain ⟨it, hg⟩ := c.grid
  obtain ⟨Sh, ⟨n, U⟩, F⟩ := c.setup.simShape hg c.refined c.mech0
  have hnone : s.refined = none := (c.setup.grids hg c.refined).2.1 hreg
  have hsh : ∀ st ∈ s.steps, st.yData.Has [n, 2] := by
    intro st hst
    have := (c.has st hst).1
    rwa [c.yShape_eq, hnone, deformShape, U.length] at this
  have hA := hsh a (List.mem_of_getElem? ha)
  have hB := hsh b (List.mem_of_getElem? hb)
  have hmemV : ∀ v, v ∈ s.grid.vertices ↔ v < n := fun v => by rw [U.vertices, List.mem_range]
  obtain ⟨hall, v, hv, hvD, x, y, hT, hpos⟩ := hpull
  have h0 := c.setup.facts.2.2.2.1
  have hrad : 0 < params.searchRadius := c.setup.facts.2.1
  set z := P1Mech.pairs ((List.range n).map fun u => if u = v then d.1 else 0) ((List.range n).map fun u => if u = v then d.2 else 0) with hz
  have hzdef : ∀ u < n, z.deformed u = if u = v then d else 0 := by
    intro u hu
    rw [hz, deformed_pairs (by simp) (by simp) U.pos]
    simp only [List.getD_eq_getElem?_getD, List.getElem?_map, List.getElem?_range hu, Option.map_some, Option.getD_some]
    split <;> rfl
  have hzhas : z.Has [n, 2] := NdArray.has_pairs (by simp) (by simp) U.pos
  obtain ⟨w, hw, hw0⟩ := pulled_work h0 c.setup.width c.setup.height hg hleg hall hv hvD hT hpos
    (fun u hu => hzdef u ((hmemV u).1 hu))
  have hDir : z.VanishesOnDirichlet s.grid := by
    refine ⟨fun u hu => ?_, fun h => by rw [hzhas.1] at h; simp at h⟩
    rw [hzdef u ((hmemV u).1 (U.wf.dirichlet.1 u hu)), if_neg (by rintro rfl; exact hvD hu)]
    rfl
  have main : Undeformed s.grid s.refined b.yData → ∃ (i : ℕ) (u v : ℝ), a.yData.data[i]? = some u ∧ b.yData.data[i]? = some v ∧
      params.searchRadius ≤ |v - u| := by
    intro hub
    by_contra hcon
    push Not at hcon
    have := C114_balance hs (midpoint_rule hleg) hreg ha hb hp hopt hua hub (by rw [hA.1]; exact hzhas) hDir
      (fun i u v w h1 h2 _ _ => hcon i u v h1 h2) hw
    exact hw0.ne' this
  have same : (∀ v ∈ s.grid.vertices, b.yData.deformed v = a.yData.deformed v) → b.yData.data = a.yData.data := by
    intro h
    refine List.ext_getElem? fun i => ?_
    have l1 : a.yData.data.length = n * 2 := by have := hA.2; rw [NdArray.Ok, hA.1] at this; simpa using this
    have l2 : b.yData.data.length = n * 2 := by have := hB.2; rw [NdArray.Ok, hB.1] at this; simpa using this
    by_cases hi : i < n * 2
    · have hd : b.yData.data.getD i 0 = a.yData.data.getD i 0 := by
        have hlt : i / 2 < n := by rw [Nat.div_lt_iff_lt_mul two_pos]; exact hi
        have := h (i / 2) ((hmemV _).2 hlt)
        rw [NdArray.deformed, NdArray.deformed, hA.1, hB.1, Prod.mk.injEq] at this
        simp only [NdArray.at2] at this
        rcases Nat.mod_two_eq_zero_or_one i with hm | hm
        · rw [show i = i / 2 * 2 + 0 by omega]; exact this.1
        · rw [show i = i / 2 * 2 + 1 by omega]; exact this.2
      rw [List.getD_eq_getElem?_getD, List.getD_eq_getElem?_getD, List.getElem?_eq_getElem (by omega),
        List.getElem?_eq_getElem (by omega)] at hd
      rw [List.getElem?_eq_getElem (by omega), List.getElem?_eq_getElem (by omega)]
      exact congrArg some hd
    · rw [List.getElem?_eq_none (by omega), List.getElem?_eq_none (by omega)]
  have moved : Undeformed s.grid s.refined b.yData → b.yData.data ≠ a.yData.data := by
    intro hub he
    obtain ⟨i, u, v, h1, h2, h3⟩ := main hub
    rw [he, h1] at h2
    cases h2
    rw [sub_self, abs_zero] at h3
    linarith
  refine ⟨?_, main, fun hf hne hub => ?_⟩
  · by_contra hcon
    push Not at hcon
    have he := same hcon
    have hab : b.yData = a.yData := by
      rcases hy : a.yData with ⟨s1, d1⟩
      rcases hy' : b.yData with ⟨s2, d2⟩
      have e1 := hA.1
      have e2 := hB.1
      rw [hy] at e1 he
      rw [hy'] at e2 he
      simp only at e1 e2 he
      rw [e1, e2, he]
    exact moved (by rw [hab]; exact hua) he
  · have pa := (C97_positions hs.reachable hreg (List.mem_of_getElem? ha) hua).2 hf hne
    have pb := (C97_positions hs.reachable hreg (List.mem_of_getElem? hb) hub).2 hf hne
    exact moved hub (same fun v hv => by rw [pa v hv, pb v hv])

/-- **C114** (the first step). Without regularization, if the solver answers the first mechanical problem optimally and the boundary is
pulled at time 0, then the first step already moves the body. -/
theorem C114_first (hs : s.Healthy solver domain params ext traction) (hleg : LegMidpoint leg)
    (hreg : params.regularization = none) {p : Problem} (hp : s.calls[0]? = some p) (hopt : p.IsOptimal leg (solver [] p))
    {d : ℝ × ℝ} (hpull : Pulled traction s.grid 0 d) : ∃ b, s.steps[1]? = some b ∧
    (∃ v ∈ s.grid.vertices, b.yData.deformed v ≠ s.grid.xy v) ∧
    (solver.RespectsFixed → (∃ f ∈ domain.fix.options, ∀ name, f ≠ .unknown name) → ¬ Undeformed s.grid s.refined b.yData) := by
  obtain ⟨m0, t0, c, H⟩ := hs.history
  have h2 := H.two
  have ha := List.getElem?_eq_getElem (show 0 < s.steps.length by omega)
  have hb := List.getElem?_eq_getElem (show 0 + 1 < s.steps.length by omega)
  obtain ⟨st, k1, k2, -⟩ := C68_initial hs.reachable
  have hu := (initial_rest hs.reachable ha).1.1
  obtain ⟨⟨v, hv, hne⟩, -, h4⟩ := C114_pulled hs hleg hreg ha hb hp (by simpa using hopt) hu (d := d) (by simpa using hpull)
  refine ⟨_, hb, ⟨v, hv, fun h => hne ?_⟩, h4⟩
  rw [h, Option.some.inj (ha.symm.trans k1), k2 v hv]

end

/-! ### example.ipynb -/

theorem notebook_cells {n : ℕ} (hn : 0 < n) : cells notebookDomain.width (1 / n) = n ∧ cells notebookDomain.height (1 / n) = 2 * n := by
  have : (n : ℝ) ≠ 0 := by positivity
  constructor
  · rw [cells, show notebookDomain.width / (1 / (n : ℝ)) = (n : ℕ) by rw [notebookDomain]; field_simp, Nat.floor_natCast]
  · rw [cells, show notebookDomain.height / (1 / (n : ℝ)) = (2 * n : ℕ) by rw [notebookDomain]; push_cast; field_simp, Nat.floor_natCast]

theorem notebookSetup {n : ℕ} (hn : 0 < n) {f : ℝ} (hf : 0 ≤ f) : Setup notebookDomain (notebookParams f (1 / n)) where
  valid := ⟨0, 100, f, 1 / n, none, none, (C55_validation_partial _ _ _ _ _ _).1
    ⟨by norm_num, by norm_num, hf, by positivity, by simp, by simp, by simp⟩⟩
  width := by
    have h1 : (1 : ℝ) ≤ n := by exact_mod_cast hn
    rw [notebookParams, notebookDomain]
    exact (div_le_one (by linarith)).2 h1
  height := by
    have h1 : (1 : ℝ) ≤ n := by exact_mod_cast hn
    rw [notebookParams, notebookDomain]
    exact ((div_le_one (by linarith)).2 h1).trans one_le_two
  fine := by intro n h; cases h

/-- the boundary traction of example.ipynb pulls the upper side upwards until time 8 -/
theorem notebook_pulled {it : SetIter} {g : Grid ℝ} {m : ℕ} (hm : 0 < m) {eps : ℝ} (he : eps = 1 / (5 * m : ℕ))
    (hg : notebookDomain.grid it eps = .ok g) {t : ℝ} (ht : t < 8) : Pulled (notebookTraction eps) g t (0, 1) := by
  classical
  have hm' : (0 : ℝ) < m := by exact_mod_cast hm
  have h0 : 0 < eps := by rw [he]; positivity
  have h5 : 0 < 5 * m := by omega
  have S := notebookSetup h5 (f := 0) le_rfl
  have hw : eps ≤ notebookDomain.width := he ▸ S.width
  have hh : eps ≤ notebookDomain.height := he ▸ S.height
  have hsx : (2 * m : ℕ) * eps = 2 / 5 := by rw [he]; push_cast; field_simp
  have hsy : (2 * (5 * m) : ℕ) * eps = 2 := by rw [he]; push_cast; field_simp
  have c1 : cells notebookDomain.width eps = 5 * m := he ▸ (notebook_cells h5).1
  have c2 : cells notebookDomain.height eps = 2 * (5 * m) := he ▸ (notebook_cells h5).2
  have hat : g.At (2 * (5 * m) * (5 * m + 1) + 2 * m) (2 / 5, 2) := by
    refine (C10_points (h0.le.trans hw) (h0.le.trans hh) h0 hg _ _).2 ⟨2 * m, 2 * (5 * m), by omega, by omega, by rw [c1], ?_⟩
    rw [hsx, hsy]
  have hxy := xy_of_at hat
  have heps : eps ≤ 1 := by simpa [notebookDomain] using hw
  refine ⟨fun u _ => ?_, _, ((C12_boundary_vertices h0 hw hh hg).2.1 _).2 ⟨_, hat, ?_⟩, fun hd => ?_, 0, 7, ?_, by norm_num⟩
  · unfold PulledAt notebookTraction
    split
    · exact ⟨0, 7, rfl, by norm_num⟩
    · exact ⟨0, 0, rfl, by norm_num⟩
  · rw [c2]
    exact .inr (.inr (.inr hsy.symm))
  · obtain ⟨r, hr, f, hf, hon⟩ := ((C14_dirichlet_vertices h0 hw hh hg).2.1 _).1 hd
    have hr' := (xy_of_at hr).symm.trans hxy
    subst hr'
    simp only [notebookDomain, Fix.options, List.mem_cons, List.not_mem_nil, or_false] at hf
    subst hf
    norm_num [OnSide] at hon
  · rw [hxy, notebookTraction, if_pos ⟨ht, by show (2 : ℝ) > _; linarith, by norm_num, by norm_num⟩]

/-- **C114** (example.ipynb). In the simulations of example.ipynb (scale 1/10 with one step per time, or scale 1/15 with 15 steps per time)
every mechanical problem before time 8 that starts from an undeformed body and is answered optimally deforms the body. In particular this
holds for the first one; without the traction the body would never be deformed. -/
theorem C114_notebook {solver : Solver} {leg : LegGauss} {fps eps : ℝ} (hp : fps = 1 ∧ eps = 1 / 10 ∨ fps = 15 ∧ eps = 1 / 15)
    (hleg : LegMidpoint leg) (hfx : solver.RespectsFixed) {s : Sim}
    (hs : s.Healthy solver notebookDomain (notebookParams fps eps) notebookExternalTemperature (notebookTraction eps)) :
    (∀ (k : ℕ) (a b : Step) (p : Problem), s.steps[k]? = some a → s.steps[k + 1]? = some b → k / fps < 8 → s.calls[2 * k]? = some p →
      p.IsOptimal leg (solver (s.calls.take (2 * k)) p) → Undeformed s.grid s.refined a.yData → ¬ Undeformed s.grid s.refined b.yData) ∧
    (∀ p, s.calls[0]? = some p → p.IsOptimal leg (solver [] p) → ∃ b, s.steps[1]? = some b ∧ ¬ Undeformed s.grid s.refined b.yData) ∧
    ∀ (s' : Sim) (ext : ExtTemp), s'.Reachable solver notebookDomain (notebookParams fps eps) ext defaultTraction →
      solver.KeepsTemperature → solver.Decreases leg → solver.RespectsDomain →
      ∀ st ∈ s'.steps, Undeformed s'.grid s'.refined st.yData := by
  obtain ⟨m, hm, he⟩ : ∃ m : ℕ, 0 < m ∧ eps = 1 / (5 * m : ℕ) := by
    rcases hp with ⟨-, rfl⟩ | ⟨-, rfl⟩
    · exact ⟨2, by norm_num, by norm_num⟩
    · exact ⟨3, by norm_num, by norm_num⟩
  have hf : 1 ≤ fps := by rcases hp with ⟨rfl, -⟩ | ⟨rfl, -⟩ <;> norm_num
  obtain ⟨m0, t0, c⟩ := hs.reachable.context
  obtain ⟨it, hg⟩ := c.grid
  have hfix : ∃ f ∈ notebookDomain.fix.options, ∀ name, f ≠ .unknown name := ⟨.lower, by simp [notebookDomain, Fix.options], by simp⟩
  refine ⟨fun k a b p ha hb hk hpk hopt hu => ?_, fun p hp0 hopt => ?_, fun s' ext hs' hk hd hn st hst => ?_⟩
  · exact (C114_pulled hs hleg rfl ha hb hpk hopt hu (notebook_pulled hm he hg hk)).2.2 hfx hfix
  · obtain ⟨b, h1, -, h2⟩ := C114_first hs hleg rfl hp0 hopt (notebook_pulled hm he hg (by norm_num))
    exact ⟨b, h1, h2 hfx hfix⟩
  · exact (C113_short_steps hs' hk (midpoint_rule hleg) hd hn (by rw [notebookParams]; linarith) (fun _ _ _ _ => rfl) hst).1

/-- simulations as in C114 exist: the first step of the simulation of example.ipynb deforms the body if the solver is optimal -/
example (it : SetIter) : ∃ (leg : LegGauss) (solver : Solver) (s : Sim) (p : Problem) (b : Step), LegMidpoint leg ∧ solver.RespectsFixed ∧
    s.Healthy solver notebookDomain (notebookParams 1 (1 / 10)) notebookExternalTemperature (notebookTraction (1 / 10)) ∧
    s.calls[0]? = some p ∧ p.IsOptimal leg (solver [] p) ∧ s.steps[1]? = some b ∧ ¬ Undeformed s.grid s.refined b.yData := by
  classical
  have hB : BoundaryDataOk notebookExternalTemperature (notebookTraction (1 / 10)) := by
    refine ⟨fun t x y => ?_, fun t => ?_⟩
    · unfold notebookTraction
      split <;> exact ⟨_, _, rfl⟩
    · unfold notebookExternalTemperature
      split
      · exact ⟨_, by norm_num, rfl⟩
      · exact ⟨_, le_rfl, rfl⟩
  have S : Setup notebookDomain (notebookParams 1 (1 / 10)) := by
    have := notebookSetup (n := 10) (by norm_num) (f := 1) (by norm_num)
    norm_num at this ⊢
    exact this
  set leg : LegGauss := fun _ => .ok ([0], [2]) with hleg
  have hq := gauss_new_ok (lg := leg) (n := 1) (P := [0]) (W := [2]) rfl
  have hmid : LegMidpoint leg := rfl
  obtain ⟨solver, h1, -, h3, h4, h5, h6', h7⟩ := C78_optimal_solver _ hq
  obtain ⟨s, hs⟩ := C55_usable_partial S (by norm_num [notebookParams]) h5 it fun _ => hB
  have hh := Sim.Healthy.new S hs
  obtain ⟨m0, t0, c, H⟩ := hh.history
  have hc := H.calls
  have h2 := H.two
  have hp : s.calls[0]? = some s.calls[0] := List.getElem?_eq_getElem (by omega)
  have hopt := h7 hh.reachable 0 _ hp
  obtain ⟨b, h8, h9⟩ := (C114_notebook (.inl ⟨rfl, rfl⟩) hmid h1 hh).2.1 _ hp (by simpa using hopt)
  exact ⟨leg, solver, s, _, b, hmid, h1, hh, hp, by simpa using hopt, h8, h9⟩

end Tve
