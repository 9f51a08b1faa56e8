import Verif.Model.Plot
import Verif.Props.Energy

/-!
# Properties of recorded steps: C72, C74
-/

namespace Tve
open Sim

section
variable {solver : Solver} {domain : RectDomain ℝ} {params : SimParams} {ext : ExtTemp} {traction : Traction} {s : Sim}

/-! ### C72 -/

/-- the rectangle covered by the grid of a simulation: the largest multiples of the scale that fit into the domain -/
def InGrid (domain : RectDomain ℝ) (params : SimParams) (x y : ℝ) : Prop :=
  0 ≤ x ∧ x ≤ cells domain.width params.scale * params.scale ∧ 0 ≤ y ∧ y ≤ cells domain.height params.scale * params.scale

/-- **C72**. The deformation of a recorded step, evaluated at the position of a vertex of the grid, is the recorded position of
this vertex. The scale is assumed to be larger than the absolute tolerance of the point location, see `C72_tiny_scale_false`. -/
theorem C72_deformation_partial (hs : s.Reachable solver domain params ext traction) (hh : 15 / 10 ^ 6 < params.scale)
    {st : Step} (hst : st ∈ s.steps) {v : Vertex} {z : ℝ × ℝ} (hz : s.grid.At v z) :
    st.y.call z.1 z.2 = .ok (vecOf ![(st.yData.deformed v).1, (st.yData.deformed v).2]) := by
  obtain ⟨m0, t0, c⟩ := hs.context
  obtain ⟨it, hg⟩ := c.grid
  obtain ⟨Sh, -, F⟩ := c.setup.simShape hg c.refined c.mech0
  exact makeStep_eval Sh (c.setup.grids hg c.refined).1 hh (c.has st hst).1 (c.has st hst).2 (c.made st hst) hz

/-- **C72**. The temperature of a recorded step, evaluated at the position of a vertex of the grid of the temperatures (with
regularization the refined grid), is the recorded temperature of this vertex. -/
theorem C72_temperature_partial (hs : s.Reachable solver domain params ext traction) (hh : 15 / 10 ^ 6 < params.scale)
    (hn : ∀ n : ℤ, params.refinementFactor = some n → 15 / 10 ^ 6 < params.scale / n)
    {st : Step} (hst : st ∈ s.steps) {v : Vertex} {z : ℝ × ℝ} (hz : (energyGrid s.grid s.refined).At v z) :
    ∃ x, st.thetaData.data[v]? = some x ∧ st.theta.call z.1 z.2 = .ok x := by
  obtain ⟨m0, t0, c⟩ := hs.context
  obtain ⟨it, hg⟩ := c.grid
  obtain ⟨Sh, -, F⟩ := c.setup.simShape hg c.refined c.mech0
  obtain ⟨G, g1, g2⟩ := c.setup.grids hg c.refined
  by_cases hreg : params.regularization = none
  · have e := g1 hreg
    rw [e] at hz
    exact makeStep_theta Sh (c.has st hst).1 (c.has st hst).2 (c.made st hst) (fun _ => rfl) (fun h => absurd hreg h) G hh hz
  · obtain ⟨n, r, p, h1, h2, h3, h4, h5, h6⟩ := g2 hreg
    rw [h3] at hz
    refine makeStep_theta Sh (c.has st hst).1 (c.has st hst).2 (c.made st hst) (fun h => absurd h hreg) (fun _ r' hr' => ?_)
      h5 (by simpa using hn n h2) hz
    rw [h3] at hr'
    cases hr'
    rfl

/-- **C72** (derivatives). With regularization the recorded array holds, for every vertex and each of the two components, the
value, the two first and the three second derivatives: they are the value, the strain and the hyper strain of the recorded
deformation at the vertex. -/
theorem C72_derivatives_partial (hs : s.Reachable solver domain params ext traction) (hreg : params.regularization ≠ none)
    (hh : 15 / 10 ^ 6 < params.scale) {st : Step} (hst : st ∈ s.steps) {v : Vertex} {z : ℝ × ℝ} (hz : s.grid.At v z) :
    st.y.call z.1 z.2 = .ok (vecOf fun i : Fin 2 => st.yData.at3 2 6 v i 0) ∧
    st.y.strain z.1 z.2 = .ok (matOf (Matrix.of fun i j : Fin 2 => st.yData.at3 2 6 v i (1 + j))) ∧
    st.y.hyperStrain z.1 z.2 = .ok (tenOf fun i j k : Fin 2 => st.yData.at3 2 6 v i (3 + j + k)) := by
  obtain ⟨m0, t0, c⟩ := hs.context
  obtain ⟨it, hg⟩ := c.grid
  obtain ⟨Sh, -, F⟩ := c.setup.simShape hg c.refined c.mech0
  obtain ⟨p1, p2⟩ := C44_vertices (c.setup.grids hg c.refined).1 hh hz
  have hy := (c.has st hst).1
  have hmade := c.made st hst
  rcases makeStep_parts Sh hy (c.has st hst).2 hmade with ⟨h, -⟩ |
    ⟨-, n, A, B, r, p, I1, I2, I3, U, hA, hB, hA6, hB6, eq, hs', -, i1, i2, i3, -, e⟩
  · exact absurd h hreg
  obtain ⟨a0, a1, a2, a3, a4, a5, ha, ha1, ha2, ha3⟩ := p2 _ _ i1
  obtain ⟨b0, b1, b2, b3, b4, b5, hb, hb1, hb2, hb3⟩ := p2 _ _ i2
  have hd : st.yData.data = (interleave A B).flatten := by rw [eq, pairs3_data]
  have key : ∀ j < 6, st.yData.at3 2 6 v 0 j = ([a0, a1, a2, a3, a4, a5].getD j 0) ∧
      st.yData.at3 2 6 v 1 j = ([b0, b1, b2, b3, b4, b5].getD j 0) := by
    intro j hj
    obtain ⟨k1, k2⟩ := interleave2_getElem? (hA.trans hB.symm) hA6 hB6 v hj
    rw [ha] at k1
    rw [hb] at k2
    simp only [NdArray.at3, hd, List.getD_eq_getElem?_getD]
    rw [show (v * 2 + 0) * 6 + j = 6 * (2 * v) + j by ring, show (v * 2 + 1) * 6 + j = 6 * (2 * v + 1) + j by ring, k1, k2]
    exact ⟨rfl, rfl⟩
  have hyy : st.y = ⟨⟨I1⟩, ⟨I2⟩⟩ := by rw [e]
  obtain ⟨d1, d2, d3, -⟩ := C44_deformation st.y z.1 z.2
  have q1 : st.y.y1 = ⟨I1⟩ := by rw [hyy]
  have q2 : st.y.y2 = ⟨I2⟩ := by rw [hyy]
  rw [← q1] at ha1 ha2 ha3
  rw [← q2] at hb1 hb2 hb3
  refine ⟨?_, ?_, ?_⟩
  · rw [d1 _ _ ha1 hb1]
    congr 2
    ext i
    fin_cases i
    · exact ((key 0 (by norm_num)).1).symm
    · exact ((key 0 (by norm_num)).2).symm
  · rw [d2 _ _ ha2 hb2]
    congr 2
    ext i j
    fin_cases i <;> fin_cases j
    · exact ((key 1 (by norm_num)).1).symm
    · exact ((key 2 (by norm_num)).1).symm
    · exact ((key 1 (by norm_num)).2).symm
    · exact ((key 2 (by norm_num)).2).symm
  · rw [d3 _ _ ha3 hb3]
    congr 2
    funext i j k
    fin_cases i <;> fin_cases j <;> fin_cases k
    · exact ((key 3 (by norm_num)).1).symm
    · exact ((key 4 (by norm_num)).1).symm
    · exact ((key 4 (by norm_num)).1).symm
    · exact ((key 5 (by norm_num)).1).symm
    · exact ((key 3 (by norm_num)).2).symm
    · exact ((key 4 (by norm_num)).2).symm
    · exact ((key 4 (by norm_num)).2).symm
    · exact ((key 5 (by norm_num)).2).symm

/-! ### tiny scales -/

/-- The tolerance of the point location is absolute. If `s² (nx + ny) ≤ 1e-10`, every point of the
rectangle covered by the grid is located in one and the same triangle. -/
theorem located_tiny {g : Grid ℝ} {nx ny : ℕ} {h : ℝ} (G : LibraryGrid g nx ny h) (ht : h ^ 2 * (nx + ny) ≤ 1 / 10 ^ 10) :
    ∃ t ∈ g.triangles, ∀ z : ℝ × ℝ, 0 ≤ z.1 ∧ z.1 ≤ nx * h ∧ 0 ≤ z.2 ∧ z.2 ≤ ny * h →
      ∃ c, g.toBarycentricPoint (vec2 z) = .ok (some ⟨t, c⟩) := by
  obtain ⟨P, dg, E, T, BV, BE, L⟩ := G.lattice
  have hs := L.h_pos
  have hT : T ≠ [] := by
    intro e
    have := L.lengthT
    rw [e] at this
    have h1 := L.hx
    have h2 := L.hy
    have h3 : 0 < 2 * (nx * ny) := by positivity
    simp only [List.length_nil] at this
    omega
  obtain ⟨t, ts, rfl⟩ := List.exists_cons_of_ne_nil hT
  have hl := (L.memT t).1 (by simp)
  obtain ⟨h1, h2, h3⟩ := L.memT_P (t := t) (by simp)
  have hA := (latTri_geom (h := h) hl).1
  have hA0 : 0 < cross (pos h t.1) (pos h t.2.1) (pos h t.2.2) := by rw [hA]; positivity
  refine ⟨labT P t, by rw [L.triangles]; simp, fun z hz => ?_⟩
  have hb : triangleContainsPoint (vec2 (pos h t.1)) (vec2 (pos h t.2.1)) (vec2 (pos h t.2.2)) (vec2 z) = .ok true := by
    rw [contains_vec2]
    have key : -containsEps ≤ cross (pos h t.1) (pos h t.2.1) z ∧ -containsEps ≤ cross (pos h t.2.1) (pos h t.2.2) z ∧
        -containsEps ≤ cross (pos h t.2.2) (pos h t.1) z := by
      have e : (containsEps : ℝ) = 1 / 10 ^ 10 := rfl
      rw [e]
      obtain ⟨z1, z2, z3, z4⟩ := hz
      obtain ⟨i, j, hi, hj, rfl | rfl⟩ := latTri_cases hl <;>
        simp only [lowT, uppT, pos, cross] <;> push_cast <;>
        (have hi' : (i : ℝ) + 1 ≤ nx := by exact_mod_cast hi
         have hj' : (j : ℝ) + 1 ≤ ny := by exact_mod_cast hj
         have hi0 : (0 : ℝ) ≤ i := by positivity
         have hj0 : (0 : ℝ) ≤ j := by positivity
         have a1 := mul_le_mul_of_nonneg_left z2 hs.le
         have a2 := mul_le_mul_of_nonneg_left z4 hs.le
         have a3 := mul_nonneg hs.le z1
         have a4 := mul_nonneg hs.le z3
         have b1 := mul_le_mul_of_nonneg_left hi' (sq_nonneg h)
         have b2 := mul_le_mul_of_nonneg_left hj' (sq_nonneg h)
         have b3 := mul_nonneg (sq_nonneg h) hi0
         have b4 := mul_nonneg (sq_nonneg h) hj0
         have b5 := sq_nonneg h
         refine ⟨?_, ?_, ?_⟩ <;> nlinarith)
    have : ¬ (cross (pos h t.1) (pos h t.2.1) z < -containsEps ∨ cross (pos h t.2.1) (pos h t.2.2) z < -containsEps ∨
        cross (pos h t.2.2) (pos h t.1) z < -containsEps) := by
      push Not
      exact key
    rw [decide_eq_false this]
    rfl
  rw [Grid.toBarycentricPoint, L.points, L.triangles, List.map_cons, Grid.locate]
  simp only [labT]
  rw [pyGet_lab h1, pyGet_lab h2, pyGet_lab h3]
  simp only [bind_ok, hb, if_true, toBary_vec2 hA0, pure_eq_ok]
  exact ⟨_, rfl⟩

/-- **C44** fails for tiny cells, because the tolerance of the point location is absolute: if `s² (nx + ny) ≤ 1e-10`, all points
are located in the same triangle and P1 interpolations evaluate to one affine function, whatever the nodal data are. -/
theorem C44_tiny_scale_false {g : Grid ℝ} {nx ny : ℕ} {h : ℝ} (G : LibraryGrid g nx ny h) (ht : h ^ 2 * (nx + ny) ≤ 1 / 10 ^ 10)
    {u : List ℝ} {I : Interp} (hI : P1Interpolation g u = .ok I) :
    ∃ a b c : ℝ, ∀ x y, 0 ≤ x ∧ x ≤ nx * h ∧ 0 ≤ y ∧ y ≤ ny * h → (EuclInterp.mk I).call x y = .ok (a + b * x + c * y) := by
  obtain ⟨t, ht, H⟩ := located_tiny G ht
  have W := G.wellFormed
  obtain ⟨a, b, c, hc⟩ := C34_affine W hI ht (G.nondegenerate ht)
  refine ⟨a, b, c, fun x y hz => ?_⟩
  obtain ⟨k, hk⟩ := H (x, y) hz
  obtain ⟨k1, k2, k3, k4⟩ := C16_point G hk
  have e : (EuclInterp.mk I).toBarycentricInputs x y = .ok (t, k) := by
    have : I.grid.toBarycentricPoint ⟨[x, y]⟩ = .ok (some ⟨t, k⟩) := by rw [(P1_of hI).2]; exact hk
    simp only [EuclInterp.toBarycentricInputs, this, bind_ok, pure_eq_ok]
  have h5 := (hc k k2).1
  simp only at k3
  rw [k3] at h5
  simp only [EuclInterp.call, e, bind_ok, h5]

/-- the answers of a solver that ignores the problem: temperature one at the vertex 3 and zero elsewhere -/
def spikeSolver : Solver := fun _ _ => ⟨fun _ _ => 0, fun _ _ => 0, fun i => if i = 3 then 1 else 0, none⟩

/-- **C72** fails for tiny scales: a simulation with scale `1e-6` in which the temperature of a recorded step, evaluated at the
position of a vertex, is not the recorded temperature of the vertex. -/
theorem C72_tiny_scale_false (it : SetIter) : ∃ (domain : RectDomain ℝ) (params : SimParams) (s : Sim),
    s.Healthy spikeSolver domain params (fun _ => .ok 0) (fun _ _ _ => .ok [0, 0]) ∧
    ∃ st ∈ s.steps, ∃ v z x, s.grid.At v z ∧ st.thetaData.data[v]? = some x ∧ st.theta.call z.1 z.2 ≠ .ok x := by
  set domain : RectDomain ℝ := ⟨1 / 10 ^ 6, 1 / 10 ^ 6, .one .lower⟩ with hdom
  set params : SimParams := ⟨1, 1 / 8, 3, 1 / 10 ^ 6, none, none⟩ with hpar
  have S : Setup domain params := {
    valid := ⟨1, 1 / 8, 3, 1 / 10 ^ 6, none, some 7, (C55_validation_partial _ _ _ _ _ _).1
      ⟨by norm_num, by norm_num, by norm_num, by norm_num, by simp, by rintro x ⟨⟩; norm_num, by simp⟩⟩
    width := le_refl _
    height := le_refl _
    fine := by intro n h; cases h }
  obtain ⟨s, hnew⟩ := Sim.new_ok (it := it) (solver := spikeSolver) (ext := fun _ => .ok 0) (traction := fun _ _ _ => .ok [0, 0])
    S (by norm_num [hpar]) (fun _ _ _ _ _ _ _ => rfl) (fun _ _ _ _ _ _ _ => rfl) (fun _ _ _ => ⟨_, rfl, by simp⟩)
    (fun _ => ⟨0, le_refl _, rfl⟩)
  refine ⟨domain, params, s, .new S hnew, ?_⟩
  obtain ⟨m, t, step0, step1, r1, r2, w, c⟩ := Sim.of_new S hnew
  obtain ⟨Sh, ⟨n, U⟩, F⟩ := S.simShape c.grid c.refined c.mech
  obtain ⟨a1, a2, -⟩ := mechanicalStep_facts U F c.mech
  have w1 := a1.load (spikeSolver [] m.problem)
  obtain ⟨c1, c2, -⟩ := thermalStep_cases U F a1.prevY.2 w1.1.y.2 a1.prevTheta.2 c.therm
  have w2 := c1.load (spikeSolver [m.problem] t.problem)
  have hst : s.steps = [step0, step1] := by rw [Sim.steps, c.eq, c.steps]
  have hth : step1.thetaData.data = t.problem.answer (spikeSolver [m.problem] t.problem) := by
    rw [c.stepTheta1, c.eq]; exact w2.2.2.2.2.1
  obtain ⟨G, -, -⟩ := S.grids c.grid c.refined
  have hc : cells domain.width params.scale = 1 := by simp [cells, hdom, hpar]
  have hc' : cells domain.height params.scale = 1 := by simp [cells, hdom, hpar]
  have C := C10_points (by norm_num [hdom]) (by norm_num [hdom]) (by norm_num [hpar]) c.grid
  simp only [hc, hc'] at G C
  set h := params.scale with hh
  have hpos : 0 < h := by norm_num [hh, hpar]
  have at0 : s.grid.At 0 (0, 0) := (C _ _).2 ⟨0, 0, by norm_num, by norm_num, rfl, by simp⟩
  have at1 : s.grid.At 1 (h, 0) := (C _ _).2 ⟨1, 0, by norm_num, by norm_num, rfl, by simp⟩
  have at2 : s.grid.At 2 (0, h) := (C _ _).2 ⟨0, 1, by norm_num, by norm_num, rfl, by simp⟩
  have at3 : s.grid.At 3 (h, h) := (C _ _).2 ⟨1, 1, by norm_num, by norm_num, rfl, by simp⟩
  have hlen : s.grid.vertices.length = 4 := by
    rw [(C22_structure G).2.2.2.1, List.length_range]
  have hst1 : step1 ∈ s.steps := by rw [hst]; simp
  have hhas : step1.thetaData.data.length = 4 ∧ ∃ I, P1Interpolation s.grid step1.thetaData.data = .ok I ∧ step1.theta = ⟨I⟩ := by
    have hte : s.therm = t.load (spikeSolver [m.problem] t.problem) := by rw [c.eq]
    have hY := w2.1.y
    have hT := w2.1.theta
    rw [← hte] at hY hT
    rw [a1.prevTheta.1] at hT
    rw [a1.prevY.1] at hY
    rcases makeStep_parts Sh hY hT c.made1 with
      ⟨-, n, A, B, I1, I2, I3, U, hA, hB, e1, i1, i2, i3, e⟩ | ⟨h, -⟩
    · rw [← c.stepTheta1] at i3
      exact ⟨(P1_of i3).1.trans hlen, I3, i3, by rw [e]⟩
    · exact absurd rfl h
  obtain ⟨hl, I, hI, hθ⟩ := hhas
  have hval : ∀ v < 4, step1.thetaData.data[v]? = some (if v = 3 then 1 else 0) := by
    intro v hv
    rw [← hl] at hv
    have hget : ∀ p : Problem, p.IsTherm → ∀ o : Outcome, ∀ i < (p.answer o).length, (p.answer o)[i]? = some (o.theta i) := by
      intro p hp o i hi
      cases p with
      | mechP1 => cases hp
      | mechReg => cases hp
      | thermP1 m => simp only [Problem.answer, List.length_mapIdx] at hi ⊢; simp [hi]
      | thermReg m => simp only [Problem.answer, List.length_mapIdx] at hi ⊢; simp [hi]
    rw [hth] at hv ⊢
    exact hget _ t.problem_isTherm _ v hv
  obtain ⟨a, b, k, H⟩ := C44_tiny_scale_false G (by norm_num [hh, hpar]) hI
  by_contra hcon
  push Not at hcon
  have ev : ∀ v < 4, ∀ x y, s.grid.At v (x, y) → (0 ≤ x ∧ x ≤ h) → (0 ≤ y ∧ y ≤ h) →
      a + b * x + k * y = if v = 3 then 1 else 0 := by
    intro v hv x y hz hx hy
    have h1 := hcon step1 hst1 v (x, y) _ hz (hval v hv)
    rw [hθ, H x y ⟨hx.1, by simpa using hx.2, hy.1, by simpa using hy.2⟩] at h1
    exact Except.ok.inj h1
  have e0 := ev 0 (by norm_num) _ _ at0 ⟨le_refl _, hpos.le⟩ ⟨le_refl _, hpos.le⟩
  have e1 := ev 1 (by norm_num) _ _ at1 ⟨hpos.le, le_refl _⟩ ⟨le_refl _, hpos.le⟩
  have e2 := ev 2 (by norm_num) _ _ at2 ⟨le_refl _, hpos.le⟩ ⟨hpos.le, le_refl _⟩
  have e3 := ev 3 (by norm_num) _ _ at3 ⟨hpos.le, le_refl _⟩ ⟨hpos.le, le_refl _⟩
  norm_num at e0 e1 e2 e3
  linarith

/-! ### C72: evaluation succeeds -/

/-- the grids of the deformation, of the temperature and of the plots of a recorded step -/
theorem step_grids (hs : s.Reachable solver domain params ext traction) {st : Step} (hst : st ∈ s.steps) :
    ∃ nx ny k ph pn, nx = cells domain.width params.scale ∧ ny = cells domain.height params.scale ∧
      LibraryGrid s.grid nx ny params.scale ∧
      1 ≤ k ∧ LibraryGrid (energyGrid s.grid s.refined) (k * nx) (k * ny) (params.scale / k) ∧
      s.grid.points <+: (energyGrid s.grid s.refined).points ∧
      LibraryGrid st.grid (pn * (k * nx)) (pn * (k * ny)) ph ∧ 1 ≤ pn ∧ ph = params.scale / k / pn ∧
      (energyGrid s.grid s.refined).points <+: st.grid.points ∧
      (params.regularization = none → k = 1 ∧ pn = 1 ∧ st.grid = s.grid ∧ energyGrid s.grid s.refined = s.grid) ∧
      (params.regularization ≠ none → params.refinementFactor = some (k : ℤ) ∧ pn = 5) ∧
      ((params.regularization = none ∧ ∃ A B I1 I2, P1Interpolation s.grid A = .ok I1 ∧ P1Interpolation s.grid B = .ok I2 ∧ st.y = ⟨⟨I1⟩, ⟨I2⟩⟩) ∨
       (params.regularization ≠ none ∧ ∃ A B I1 I2, C1Interpolation s.grid A = .ok I1 ∧ C1Interpolation s.grid B = .ok I2 ∧ st.y = ⟨⟨I1⟩, ⟨I2⟩⟩)) ∧
      ∃ I3, P1Interpolation (energyGrid s.grid s.refined) st.thetaData.data = .ok I3 ∧ st.theta = ⟨I3⟩ := by
  obtain ⟨m0, t0, c⟩ := hs.context
  obtain ⟨it, hg⟩ := c.grid
  obtain ⟨Sh, -, F⟩ := c.setup.simShape hg c.refined c.mech0
  obtain ⟨G, g1, g2⟩ := c.setup.grids hg c.refined
  have hY := (c.has st hst).1
  have hT := (c.has st hst).2
  have hM := c.made st hst
  rcases makeStep_parts Sh hY hT hM with
    ⟨hreg, n, A, B, I1, I2, I3, U, hA, hB, -, i1, i2, i3, e⟩ |
    ⟨hreg, n, A, B, r, p, I1, I2, I3, U, hA, hB, hA6, hB6, -, hs', hr, i1, i2, i3, hp, e⟩
  · have er := g1 hreg
    have eg : energyGrid s.grid s.refined = s.grid := by rw [er]; rfl
    have egrid : st.grid = s.grid := by rw [e]
    refine ⟨_, _, 1, params.scale / (1 : ℕ) / (1 : ℕ), 1, rfl, rfl, G, le_refl _, ?_, ?_, ?_, le_refl _, rfl, ?_,
      fun _ => ⟨rfl, rfl, egrid, eg⟩, fun h => absurd hreg h, .inl ⟨hreg, A, B, I1, I2, i1, i2, by rw [e]⟩, I3, by rw [eg]; exact i3,
      by rw [e]⟩
    · rw [eg]; simpa using G
    · rw [eg]
    · rw [egrid]; simpa using G
    · rw [eg, egrid]
  · obtain ⟨k, r', p', h1, h2, h3, h4, h5, h6⟩ := g2 hreg
    have : r' = r := by rw [hr] at h3; exact (Option.some.inj h3).symm
    subst this
    have eg : energyGrid s.grid s.refined = r'.toGrid := by rw [hr]; rfl
    have egrid : st.grid = p.toGrid := by rw [e]
    have hsm := c.setup.fine' h2
    obtain ⟨r2, hr2, -, -, -, pre1, -⟩ := C22_refine G domain h1 hsm.2
    rw [h4] at hr2
    cases hr2
    obtain ⟨p2, hp2, F2, -, -, pre2, -⟩ := C22_refine h5 domain (n := 5) (by norm_num) (by exact_mod_cast hsm.1)
    have hp' : domain.refine r'.toGrid ((5 : ℕ) : ℤ) = .ok p := hp
    rw [hp'] at hp2
    cases hp2
    refine ⟨_, _, k, _, 5, rfl, rfl, G, h1, ?_, ?_, ?_, by norm_num, rfl, ?_, fun h => absurd h hreg, fun _ => ⟨h2, rfl⟩,
      .inr ⟨hreg, A, B, I1, I2, i1, i2, by rw [e]⟩, I3, by rw [eg]; exact i3, by rw [e]⟩
    · rw [eg]; exact h5
    · rw [eg]; exact pre1
    · rw [egrid]; exact F2
    · rw [eg, egrid]; exact pre2

/-- **C72** (totality). Deformation, strain and temperature of a recorded step can be evaluated at every point of the rectangle
covered by the grid; with regularization also the hyper strain. -/
theorem C72_everywhere (hs : s.Reachable solver domain params ext traction) {st : Step} (hst : st ∈ s.steps) {x y : ℝ}
    (hz : InGrid domain params x y) :
    (∃ p : Fin 2 → ℝ, st.y.call x y = .ok (vecOf p)) ∧
    (∃ F : Matrix (Fin 2) (Fin 2) ℝ, st.y.strain x y = .ok (matOf F)) ∧
    (params.regularization ≠ none → ∃ T : Fin 2 → Fin 2 → Fin 2 → ℝ, st.y.hyperStrain x y = .ok (tenOf T)) ∧
    ∃ θ, st.theta.call x y = .ok θ := by
  obtain ⟨nx, ny, k, ph, pn, rfl, rfl, G, hk, G2, -, -, -, -, -, hno, hre, hy, I3, hI3, hth⟩ := step_grids hs hst
  obtain ⟨z1, z2, z3, z4⟩ := hz
  have hk' : (k : ℝ) ≠ 0 := by have : k ≠ 0 := by omega
                               exact_mod_cast this
  have W := G.wellFormed
  obtain ⟨d1, d2, d3, -⟩ := C44_deformation st.y x y
  have hθ : ∃ θ, st.theta.call x y = .ok θ := by
    obtain ⟨t, ht, cc, hc, -, -, e, -⟩ := C44_grid_points_partial G2 I3 (by rw [(P1_of hI3).2]) (x := x) (y := y)
      ⟨z1, by push_cast; field_simp; linarith⟩ ⟨z3, by push_cast; field_simp; linarith⟩
    obtain ⟨a, b, c, hc'⟩ := C34_affine G2.wellFormed hI3 ht (G2.nondegenerate ht)
    exact ⟨_, by rw [hth, e]; exact (hc' cc hc).1⟩
  rcases hy with ⟨hreg, A, B, I1, I2, i1, i2, e⟩ | ⟨-, A, B, I1, I2, i1, i2, e⟩
  · have ev : ∀ u I, P1Interpolation s.grid u = .ok I → (∃ a, (EuclInterp.mk I).call x y = .ok a) ∧
        ∃ p : Fin 2 → ℝ, (EuclInterp.mk I).gradient x y = .ok (vecOf p) := by
      intro u I hI
      obtain ⟨t, ht, cc, hc, -, -, e1, e2, -⟩ := C44_grid_points_partial G I (by rw [(P1_of hI).2]) ⟨z1, z2⟩ ⟨z3, z4⟩
      obtain ⟨a, b, c, hc'⟩ := C34_affine W hI ht (G.nondegenerate ht)
      exact ⟨⟨_, e1.trans (hc' cc hc).1⟩, _, e2.trans (hc' cc hc).2⟩
    obtain ⟨⟨a, ha⟩, ga, hga⟩ := ev _ _ i1
    obtain ⟨⟨b, hb⟩, gb, hgb⟩ := ev _ _ i2
    rw [e] at d1 d2 ⊢
    refine ⟨⟨_, d1 a b ha hb⟩, ⟨_, d2 ga gb hga hgb⟩, fun h => absurd hreg h, hθ⟩
  · have ev : ∀ u I, C1Interpolation s.grid u = .ok I → (∃ a, (EuclInterp.mk I).call x y = .ok a) ∧
        (∃ p : Fin 2 → ℝ, (EuclInterp.mk I).gradient x y = .ok (vecOf p)) ∧
        ∃ A : Matrix (Fin 2) (Fin 2) ℝ, (EuclInterp.mk I).hessian x y = .ok (matOf A) := by
      intro u I hI
      obtain ⟨t, ht, cc, hc, -, -, e1, e2, e3⟩ := C44_grid_points_partial G I (by rw [(C1_of hI).2.2]) ⟨z1, z2⟩ ⟨z3, z4⟩
      obtain ⟨f, fx, fy, fxx, fxy, fyy, -, -, -, H⟩ := C39_grid W hI ht (G.nondegenerate ht)
      obtain ⟨k1, k2, k3⟩ := H cc hc
      exact ⟨⟨_, e1.trans k1⟩, ⟨_, e2.trans k2⟩, _, e3.trans k3⟩
    obtain ⟨⟨a, ha⟩, ⟨ga, hga⟩, ha', hha⟩ := ev _ _ i1
    obtain ⟨⟨b, hb⟩, ⟨gb, hgb⟩, hb', hhb⟩ := ev _ _ i2
    rw [e] at d1 d2 d3 ⊢
    exact ⟨⟨_, d1 a b ha hb⟩, ⟨_, d2 ga gb hga hgb⟩, fun _ => ⟨_, d3 ha' hb' hha hhb⟩, hθ⟩

/-! ### C74: plots -/

/-- the points of the plotting grid lie in the rectangle covered by the grid -/
theorem plot_points (hs : s.Reachable solver domain params ext traction) {st : Step} (hst : st ∈ s.steps) {v : Vertex} {z : ℝ × ℝ}
    (hz : st.grid.At v z) : InGrid domain params z.1 z.2 := by
  obtain ⟨nx, ny, k, ph, pn, rfl, rfl, G, hk, G2, -, G3, hpn, rfl, -⟩ := step_grids hs hst
  obtain ⟨i, j, hi, hj, rfl⟩ := ((C22_structure G3).2.2.2.2.2.1 z).1 ⟨v, hz⟩
  have h0 := (C22_structure G3).1
  have hk' : (k : ℝ) ≠ 0 := by have : k ≠ 0 := by omega
                               exact_mod_cast this
  have hp' : (pn : ℝ) ≠ 0 := by have : pn ≠ 0 := by omega
                                exact_mod_cast this
  have hi' : (i : ℝ) ≤ pn * (k * cells domain.width params.scale) := by exact_mod_cast hi
  have hj' : (j : ℝ) ≤ pn * (k * cells domain.height params.scale) := by exact_mod_cast hj
  have a1 := mul_le_mul_of_nonneg_right hi' h0.le
  have a2 := mul_le_mul_of_nonneg_right hj' h0.le
  have e : ∀ c : ℝ, pn * (k * c) * (params.scale / k / pn) = c * params.scale := by intro c; field_simp
  rw [e] at a1 a2
  exact ⟨by positivity, a1, by positivity, a2⟩

theorem pyMap_index {α β : Type} {l : List α} {f : α → PyM β} {r : List β} (h : pyMap l f = .ok r) (i : ℕ) :
    r.length = l.length ∧ ∀ a, l[i]? = some a → ∃ b, r[i]? = some b ∧ f a = .ok b := by
  rw [pyMap_ok_iff] at h
  refine ⟨h.length_eq.symm, fun a ha => ?_⟩
  obtain ⟨hi, rfl⟩ := List.getElem?_eq_some_iff.1 ha
  rw [List.forall₂_iff_get] at h
  exact ⟨r[i]'(h.1 ▸ hi), by simp [h.1 ▸ hi], h.2 i hi (h.1 ▸ hi)⟩

theorem pyMap_total {α β : Type} {l : List α} {f : α → PyM β} (h : ∀ a ∈ l, ∃ b, f a = .ok b) : ∃ r, pyMap l f = .ok r := by
  induction l with
  | nil => exact ⟨_, rfl⟩
  | cons a l ih =>
    obtain ⟨r, hr⟩ := ih fun x hx => h x (by simp [hx])
    obtain ⟨b, hb⟩ := h a (by simp)
    exact ⟨b :: r, by rw [pyMap_cons, hb, hr]; rfl⟩

theorem unpack2_vec2 {α : Type} (z : ℝ × ℝ) (f : ℝ → ℝ → PyM α) : unpack2 (vec2 z) f = f z.1 z.2 := rfl

/-- **C74** (plot of a step). Every recorded step can be plotted. The plot has the triangles of the plotting grid; its points are
the images of the points of the plotting grid under the recorded deformation, its colours the values of the recorded temperature
there, and the colours range from zero to the given maximum. -/
theorem C74_plot (hs : s.Reachable solver domain params ext traction) {st : Step} (hst : st ∈ s.steps) (M : ℝ) :
    ∃ p, st.plot M = .ok p ∧ p.triangles = st.grid.triangles ∧ p.vmin = 0 ∧ p.vmax = M ∧
      p.x.length = st.grid.points.length ∧ p.y.length = st.grid.points.length ∧ p.c.length = st.grid.points.length ∧
      ∀ v z, st.grid.At v z → ∃ a b θ, p.x[v]? = some a ∧ p.y[v]? = some b ∧ p.c[v]? = some θ ∧
        st.y.call z.1 z.2 = .ok (vecOf ![a, b]) ∧ st.theta.call z.1 z.2 = .ok θ := by
  obtain ⟨nx, ny, k, ph, pn, -, -, -, -, -, -, G3, -⟩ := step_grids hs hst
  have W := G3.wellFormed
  have hpt : ∀ q ∈ st.grid.points, ∃ v z, q = vec2 z ∧ st.grid.At v z := by
    intro q hq
    obtain ⟨v, hv, rfl⟩ := List.getElem_of_mem hq
    obtain ⟨z, hz⟩ := W.planar v hv
    refine ⟨v, z, ?_, hz⟩
    have : st.grid.points[v]? = some (vec2 z) := hz
    simpa [hv] using this
  have ok1 : ∀ q ∈ st.grid.points, ∃ w, unpack2 q st.y.call = .ok w := by
    intro q hq
    obtain ⟨v, z, rfl, hz⟩ := hpt q hq
    obtain ⟨⟨w, hw⟩, -⟩ := C72_everywhere hs hst (plot_points hs hst hz)
    exact ⟨_, hw⟩
  have ok2 : ∀ q ∈ st.grid.points, ∃ w, unpack2 q st.theta.call = .ok w := by
    intro q hq
    obtain ⟨v, z, rfl, hz⟩ := hpt q hq
    obtain ⟨-, -, -, w⟩ := C72_everywhere hs hst (plot_points hs hst hz)
    exact w
  obtain ⟨D, hD⟩ := pyMap_total ok1
  obtain ⟨C, hC⟩ := pyMap_total ok2
  have hDv : ∀ w ∈ D, ∃ p : Fin 2 → ℝ, w = vecOf p := by
    intro w hw
    obtain ⟨i, hi, rfl⟩ := List.getElem_of_mem hw
    have hl := (pyMap_index hD i).1
    obtain ⟨z, hz⟩ := W.planar i (by omega)
    obtain ⟨b, hb, hb'⟩ := (pyMap_index hD i).2 _ hz
    obtain ⟨⟨p, hp⟩, -⟩ := C72_everywhere hs hst (plot_points hs hst hz)
    rw [unpack2_vec2, hp] at hb'
    cases hb'
    exact ⟨p, by simpa [hi] using hb⟩
  obtain ⟨X, hX⟩ := pyMap_total (l := D) (f := fun p => p.getItem 0) (by
    intro w hw
    obtain ⟨p, rfl⟩ := hDv w hw
    exact ⟨_, rfl⟩)
  obtain ⟨Y, hY⟩ := pyMap_total (l := D) (f := fun p => p.getItem 1) (by
    intro w hw
    obtain ⟨p, rfl⟩ := hDv w hw
    exact ⟨_, rfl⟩)
  refine ⟨⟨X, Y, C, st.grid.triangles, 0, M⟩, ?_, rfl, rfl, rfl, ?_, ?_, ?_, ?_⟩
  · simp only [Step.plot, Step.plotTemperature, hD, hX, hY, hC, bind_ok, pure_eq_ok]
  · exact (pyMap_index hX 0).1.trans (pyMap_index hD 0).1
  · exact (pyMap_index hY 0).1.trans (pyMap_index hD 0).1
  · exact (pyMap_index hC 0).1
  · intro v z hz
    obtain ⟨w, hw, hw'⟩ := (pyMap_index hD v).2 _ hz
    obtain ⟨θ, hθ, hθ'⟩ := (pyMap_index hC v).2 _ hz
    obtain ⟨a, ha, ha'⟩ := (pyMap_index hX v).2 _ hw
    obtain ⟨b, hb, hb'⟩ := (pyMap_index hY v).2 _ hw
    obtain ⟨p, rfl⟩ := hDv w (List.mem_of_getElem? hw)
    have e0 : p 0 = a := Except.ok.inj ha'
    have e1 : p 1 = b := Except.ok.inj hb'
    refine ⟨a, b, θ, ha, hb, hθ, ?_, hθ'⟩
    rw [unpack2_vec2] at hw'
    rw [hw', ← e0, ← e1]
    congr 2
    ext i
    fin_cases i <;> rfl

/-- the plotted data at the vertices the recorded arrays refer to -/
theorem at_of_prefix {g g' : Grid ℝ} (h : g.points <+: g'.points) {v : Vertex} {z : ℝ × ℝ} (hz : g.At v z) : g'.At v z := by
  obtain ⟨t, ht⟩ := h
  have : g.points[v]? = some (vec2 z) := hz
  show g'.points[v]? = some (vec2 z)
  rw [← ht, List.getElem?_append_left (at_lt hz), this]

/-- **C74** (plotted data). In the plot of a recorded step the points with the indices of the vertices of the grid are their
recorded positions, and the colours with the indices of the vertices of the grid of the temperatures are the recorded
temperatures. (The scale is assumed to be larger than the tolerance of the point location.) -/
theorem C74_values_partial (hs : s.Reachable solver domain params ext traction) (hh : 15 / 10 ^ 6 < params.scale)
    (hn : ∀ n : ℤ, params.refinementFactor = some n → 15 / 10 ^ 6 < params.scale / n)
    {st : Step} (hst : st ∈ s.steps) {M : ℝ} {p : TriPlot} (hp : st.plot M = .ok p) :
    (∀ v ∈ s.grid.vertices, p.x[v]? = some (st.yData.deformed v).1 ∧ p.y[v]? = some (st.yData.deformed v).2) ∧
    ∀ v < st.thetaData.data.length, p.c[v]? = st.thetaData.data[v]? := by
  obtain ⟨nx, ny, k, ph, pn, -, -, G, hk, G2, pre1, G3, -, -, pre2, -, -, -, I3, hI3, hth⟩ := step_grids hs hst
  obtain ⟨p', hp', -, -, -, -, -, -, H⟩ := C74_plot hs hst M
  rw [hp] at hp'
  cases hp'
  constructor
  · intro v hv
    obtain ⟨z, hz⟩ := G.wellFormed.planar v (by rw [G.wellFormed.vertices] at hv; exact List.mem_range.1 hv)
    obtain ⟨a, b, θ, h1, h2, h3, h4, h5⟩ := H v z (at_of_prefix pre2 (at_of_prefix pre1 hz))
    rw [C72_deformation_partial hs hh hst hz] at h4
    have e := Except.ok.inj h4
    have e' := congrArg Vec.data e
    simp only [vecOf, List.ofFn_succ, List.ofFn_zero, Matrix.cons_val_zero, Fin.succ_zero_eq_one, Matrix.cons_val_one,
      List.cons.injEq, and_true] at e'
    rw [h1, h2, e'.1, e'.2]
    exact ⟨rfl, rfl⟩
  · intro v hv
    obtain ⟨z, hz⟩ := G2.wellFormed.planar v (by
      rw [(P1_of hI3).1, G2.wellFormed.vertices, List.length_range] at hv; exact hv)
    obtain ⟨a, b, θ, h1, h2, h3, h4, h5⟩ := H v z (at_of_prefix pre2 hz)
    obtain ⟨x, hx1, hx2⟩ := C72_temperature_partial hs hh hn hst hz
    rw [h5] at hx2
    cases hx2
    rw [h3, hx1]

/-- **C74** (plotting grid). Without regularization the plotting grid is the grid, with regularization it refines the refined
grid by the factor 5. -/
theorem C74_plotting_grid (hs : s.Reachable solver domain params ext traction) {st : Step} (hst : st ∈ s.steps) :
    (params.regularization = none → st.grid = s.grid) ∧
    (params.regularization ≠ none → ∃ n : ℕ, params.refinementFactor = some (n : ℤ) ∧
      LibraryGrid st.grid (5 * (n * cells domain.width params.scale)) (5 * (n * cells domain.height params.scale))
        (params.scale / n / 5)) := by
  obtain ⟨nx, ny, k, ph, pn, rfl, rfl, G, hk, G2, -, G3, hpn, rfl, -, h1, h2, -⟩ := step_grids hs hst
  refine ⟨fun h => (h1 h).2.2.1, fun h => ?_⟩
  obtain ⟨e1, rfl⟩ := h2 h
  exact ⟨k, e1, by simpa using G3⟩

/-- **C74** (colours and limits), without regularization: all plotted points lie within the axis limits and, if the solver
respects the domain of the temperatures, all colours lie in the colour range. -/
theorem C74_in_range_partial (hs : s.Reachable solver domain params ext traction) (hreg : params.regularization = none)
    (hh : 15 / 10 ^ 6 < params.scale) {st : Step} (hst : st ∈ s.steps) {p : TriPlot} (hp : st.plot s.maxTemp = .ok p) :
    (∀ x ∈ p.x, s.record.xlims.1 ≤ (x : WithTop ℝ) ∧ (x : WithBot ℝ) ≤ s.record.xlims.2) ∧
    (∀ y ∈ p.y, s.record.ylims.1 ≤ (y : WithTop ℝ) ∧ (y : WithBot ℝ) ≤ s.record.ylims.2) ∧
    (solver.RespectsDomain → ∀ c ∈ p.c, p.vmin ≤ c ∧ c ≤ p.vmax) := by
  have hn : ∀ n : ℤ, params.refinementFactor = some n → 15 / 10 ^ 6 < params.scale / n := by
    intro n h
    obtain ⟨m0, t0, c⟩ := hs.context
    rw [c.setup.facts.2.2.2.2.1 hreg] at h
    cases h
  obtain ⟨v1, v2⟩ := C74_values_partial hs hh hn hst hp
  obtain ⟨p', hp', -, m1, m2, l1, l2, l3, -⟩ := C74_plot hs hst s.maxTemp
  rw [hp] at hp'
  cases hp'
  obtain ⟨nx, ny, k, ph, pn, -, -, G, hk, G2, pre1, G3, -, -, pre2, h1, -, -, I3, hI3, hth⟩ := step_grids hs hst
  obtain ⟨-, -, eg, ee⟩ := h1 hreg
  have hlen : st.grid.points.length = s.grid.points.length := by rw [eg]
  have hv : ∀ v, v < st.grid.points.length → v ∈ s.grid.vertices := by
    intro v hv
    rw [G.wellFormed.vertices]; exact List.mem_range.2 (hlen ▸ hv)
  obtain ⟨⟨x1, x2, ex, ⟨-, xlo⟩, ⟨-, xhi⟩⟩, ⟨y1, y2, ey, ⟨-, ylo⟩, ⟨-, yhi⟩⟩⟩ := C62_limits_partial hs hreg
  refine ⟨fun x hx => ?_, fun y hy => ?_, fun hd c hc => ?_⟩
  · obtain ⟨v, hv', rfl⟩ := List.getElem_of_mem hx
    have h2 := (v1 v (hv v (l1 ▸ hv'))).1
    have h3 : p.x[v] = (st.yData.deformed v).1 := by simpa [hv'] using h2
    rw [ex]
    refine ⟨WithTop.coe_le_coe.2 (xlo ⟨st, hst, v, hv v (l1 ▸ hv'), h3⟩), WithBot.coe_le_coe.2 (xhi ⟨st, hst, v, hv v (l1 ▸ hv'), h3⟩)⟩
  · obtain ⟨v, hv', rfl⟩ := List.getElem_of_mem hy
    have h2 := (v1 v (hv v (l2 ▸ hv'))).2
    have h3 : p.y[v] = (st.yData.deformed v).2 := by simpa [hv'] using h2
    rw [ey]
    exact ⟨WithTop.coe_le_coe.2 (ylo ⟨st, hst, v, hv v (l2 ▸ hv'), h3⟩),
      WithBot.coe_le_coe.2 (yhi ⟨st, hst, v, hv v (l2 ▸ hv'), h3⟩)⟩
  · obtain ⟨v, hv', rfl⟩ := List.getElem_of_mem hc
    have hl : st.thetaData.data.length = st.grid.points.length := by
      rw [(P1_of hI3).1, G2.wellFormed.vertices, List.length_range, ee, hlen]
    have h2 := v2 v (by omega)
    have h3 : st.thetaData.data[v]? = some p.c[v] := by rw [← h2]; simp [hv']
    have h4 := List.mem_of_getElem? h3
    rw [m1, m2]
    exact ⟨C59_nonneg hs hd hst h4, (C62_max_temp hs).2 (Or.inr ⟨st, hst, h4⟩)⟩

/-- **C74** (`plot_step`, `save_step`, `save_animation`). `plot_step(i)` and `save_step(i)` never raise. They do nothing if `i` is
not a valid index of a Python list of the recorded steps; otherwise they draw this step, with the axis limits and the maximal
temperature of the simulation, and `save_step` uses the position of the step in the name of the file. -/
theorem C74_plot_step (hs : s.Reachable solver domain params ext traction) (i : ℤ) :
    s.plotStep i = .ok () ∧
    (¬ (-(s.steps.length : ℤ) ≤ i ∧ i < s.steps.length) → s.saveStep i = .ok none) ∧
    (-(s.steps.length : ℤ) ≤ i ∧ i < s.steps.length → ∃ (k : ℕ) (st : Step) (p : TriPlot),
      (k : ℤ) = (if 0 ≤ i then i else s.steps.length + i) ∧ s.steps[k]? = some st ∧ st.plot s.maxTemp = .ok p ∧
      s.saveStep i = .ok (some (k, ⟨s.record.xlims, s.record.ylims, p⟩))) := by
  have hin : -(s.steps.length : ℤ) ≤ i ∧ i < s.steps.length → ∃ (k : ℕ) (st : Step) (p : TriPlot),
      (k : ℤ) = (if 0 ≤ i then i else s.steps.length + i) ∧ s.steps[k]? = some st ∧ st.plot s.maxTemp = .ok p ∧
      s.figure i = .ok (some ⟨s.record.xlims, s.record.ylims, p⟩) := by
    intro hi
    have h1 : ¬ (i < -(s.steps.length : ℤ) ∨ i ≥ s.steps.length) := by omega
    obtain ⟨k, hk1, hk2, hk3⟩ : ∃ k : ℕ, (k : ℤ) = (if 0 ≤ i then i else s.steps.length + i) ∧ k < s.steps.length ∧
        pyIdx s.steps i = pyGet s.steps k := by
      by_cases h0 : 0 ≤ i
      · refine ⟨i.toNat, by rw [if_pos h0]; omega, by omega, by rw [pyIdx, if_pos h0]⟩
      · refine ⟨(i + s.steps.length).toNat, by rw [if_neg h0]; omega, by omega, by rw [pyIdx, if_neg h0, if_pos (by omega)]⟩
    have hst : s.steps[k]? = some s.steps[k] := by simp [hk2]
    obtain ⟨p, hp, -⟩ := C74_plot hs (List.mem_of_getElem? hst) s.maxTemp
    refine ⟨k, _, p, hk1, hst, hp, ?_⟩
    have hg : pyGet s.steps k = .ok s.steps[k] := by rw [pyGet, hst]
    rw [Sim.figure, if_neg h1, hk3, hg]
    simp only [bind_ok, hp, pure_eq_ok]
  have hout : ¬ (-(s.steps.length : ℤ) ≤ i ∧ i < s.steps.length) → s.figure i = .ok none := by
    intro hi
    rw [Sim.figure, if_pos (by omega)]
  refine ⟨?_, fun h => ?_, fun h => ?_⟩
  · by_cases h : -(s.steps.length : ℤ) ≤ i ∧ i < s.steps.length
    · obtain ⟨k, st, p, -, -, -, e⟩ := hin h
      simp only [Sim.plotStep, e, bind_ok, pure_eq_ok]
    · simp only [Sim.plotStep, hout h, bind_ok, pure_eq_ok]
  · simp only [Sim.saveStep, hout h, bind_ok, pure_eq_ok]
  · obtain ⟨k, st, p, e1, e2, e3, e⟩ := hin h
    refine ⟨k, st, p, e1, e2, e3, ?_⟩
    simp only [Sim.saveStep, e, bind_ok, pure_eq_ok]
    rw [e1]

/-- **C74** (`save_animation`). The animation has one frame per recorded step, in order, all with the same limits. -/
theorem C74_animation (hs : s.Reachable solver domain params ext traction) :
    ∃ fs, s.saveAnimation = .ok fs ∧ fs.length = s.steps.length ∧
      ∀ (k : ℕ) (st : Step), s.steps[k]? = some st → ∃ p, st.plot s.maxTemp = .ok p ∧
        fs[k]? = some ⟨s.record.xlims, s.record.ylims, p⟩ := by
  have hok : ∀ k ∈ List.range s.steps.length, ∃ f, (do
      let step ← pyIdx s.steps ((k : ℕ) : ℤ)
      let p ← step.plot s.maxTemp
      return (⟨s.record.xlims, s.record.ylims, p⟩ : Figure)) = .ok f := by
    intro k hk
    have hk' := List.mem_range.1 hk
    obtain ⟨p, hp, -⟩ := C74_plot hs (List.getElem_mem hk') s.maxTemp
    have : pyIdx s.steps ((k : ℕ) : ℤ) = .ok s.steps[k] := by simp [pyIdx, pyGet, hk']
    exact ⟨⟨s.record.xlims, s.record.ylims, p⟩, by rw [this]; simp only [bind_ok, hp, pure_eq_ok]⟩
  obtain ⟨fs, hfs⟩ := pyMap_total hok
  refine ⟨fs, hfs, by rw [(pyMap_index hfs 0).1, List.length_range], fun k st hst => ?_⟩
  obtain ⟨hk, rfl⟩ := List.getElem?_eq_some_iff.1 hst
  obtain ⟨p, hp, -⟩ := C74_plot hs (List.getElem_mem hk) s.maxTemp
  obtain ⟨f, hf, hf'⟩ := (pyMap_index hfs k).2 k (by simp [hk])
  have : pyIdx s.steps ((k : ℕ) : ℤ) = .ok s.steps[k] := by simp [pyIdx, pyGet, hk]
  rw [this] at hf'
  simp only [bind_ok, hp, pure_eq_ok, Except.ok.injEq] at hf'
  exact ⟨p, hp, by rw [hf, ← hf']⟩

/-- **C74** (`_plot_deformation_curves`). If width and height of the domain are multiples of the scale, all curves of the domain
can be deformed: the result has one curve per curve of the domain, and its points are the images of the points of the curve. -/
theorem C74_curves_partial (hs : s.Reachable solver domain params ext traction) {st : Step} (hst : st ∈ s.steps) {n : ℕ}
    (hn : 2 ≤ n) (a : ℕ) (b : Option ℕ) (hw : ∃ k : ℕ, domain.width = k * params.scale)
    (hh : ∃ k : ℕ, domain.height = k * params.scale) :
    ∃ cs ds, domain.curves n a b = .ok cs ∧ st.plotDeformationCurves domain n a b = .ok ds ∧ ds.length = cs.length ∧
      ∀ (j i : ℕ) (c : List (Vec ℝ)) (z : ℝ × ℝ), cs[j]? = some c → c[i]? = some (vec2 z) →
        ∃ d x y, ds[j]? = some d ∧ d.1[i]? = some x ∧ d.2[i]? = some y ∧ st.y.call z.1 z.2 = .ok (vecOf ![x, y]) := by
  obtain ⟨m0, t0, ct⟩ := hs.context
  have hsc := ct.setup.facts.2.2.2.1
  have w0 := hsc.le.trans ct.setup.width
  have h0 := hsc.le.trans ct.setup.height
  obtain ⟨cs, hcs, -⟩ := C21_curves domain hn a b
  have hrect := C21_in_rectangle hn w0 h0 hcs
  obtain ⟨kw, ekw⟩ := hw
  obtain ⟨kh, ekh⟩ := hh
  have ew := (C10_extent w0 hsc).2.2 kw ekw
  have eh := (C10_extent h0 hsc).2.2 kh ekh
  have pt : ∀ c ∈ cs, ∀ q ∈ c, ∃ z : ℝ × ℝ, q = vec2 z ∧ ∃ p : Fin 2 → ℝ, st.y.call z.1 z.2 = .ok (vecOf p) := by
    intro c hc q hq
    obtain ⟨x, y, rfl, x1, x2, y1, y2⟩ := hrect c hc q hq
    exact ⟨(x, y), rfl, (C72_everywhere hs hst (x := x) (y := y) ⟨x1, by rw [ew]; exact x2, y1, by rw [eh]; exact y2⟩).1⟩
  have each : ∀ c ∈ cs, ∃ d : List ℝ × List ℝ, (do
      let deformed ← pyMap c fun p => unpack2 p st.y.call
      let x ← pyMap deformed fun p => p.getItem 0
      let y ← pyMap deformed fun p => p.getItem 1
      return (x, y)) = .ok d ∧ ∀ (i : ℕ) (z : ℝ × ℝ), c[i]? = some (vec2 z) → ∃ x y, d.1[i]? = some x ∧ d.2[i]? = some y ∧
        st.y.call z.1 z.2 = .ok (vecOf ![x, y]) := by
    intro c hc
    obtain ⟨D, hD⟩ := pyMap_total (l := c) (f := fun p => unpack2 p st.y.call) (by
      intro q hq
      obtain ⟨z, rfl, p, hp⟩ := pt c hc q hq
      exact ⟨_, hp⟩)
    have hDv : ∀ w ∈ D, ∃ p : Fin 2 → ℝ, w = vecOf p := by
      intro w hw
      obtain ⟨i, hi, rfl⟩ := List.getElem_of_mem hw
      have hl := (pyMap_index hD i).1
      have hi' : i < c.length := by omega
      have hci : c[i]? = some c[i] := by simp [hi']
      obtain ⟨b, hb, hb'⟩ := (pyMap_index hD i).2 _ hci
      obtain ⟨z, hz, p, hp⟩ := pt c hc _ (List.getElem_mem hi')
      rw [hz, unpack2_vec2, hp] at hb'
      cases hb'
      exact ⟨p, by simpa [hi] using hb⟩
    obtain ⟨X, hX⟩ := pyMap_total (l := D) (f := fun p => p.getItem 0) (by
      intro w hw
      obtain ⟨p, rfl⟩ := hDv w hw
      exact ⟨_, rfl⟩)
    obtain ⟨Y, hY⟩ := pyMap_total (l := D) (f := fun p => p.getItem 1) (by
      intro w hw
      obtain ⟨p, rfl⟩ := hDv w hw
      exact ⟨_, rfl⟩)
    refine ⟨(X, Y), by simp only [hD, hX, hY, bind_ok, pure_eq_ok], fun i z hz => ?_⟩
    obtain ⟨w, hw, hw'⟩ := (pyMap_index hD i).2 _ hz
    obtain ⟨x, hx, hx'⟩ := (pyMap_index hX i).2 _ hw
    obtain ⟨y, hy, hy'⟩ := (pyMap_index hY i).2 _ hw
    obtain ⟨p, rfl⟩ := hDv w (List.mem_of_getElem? hw)
    have e0 : p 0 = x := Except.ok.inj hx'
    have e1 : p 1 = y := Except.ok.inj hy'
    refine ⟨x, y, hx, hy, ?_⟩
    rw [unpack2_vec2] at hw'
    rw [hw', ← e0, ← e1]
    congr 2
    ext i
    fin_cases i <;> rfl
  obtain ⟨ds, hds⟩ := pyMap_total (l := cs) fun c hc => (each c hc).imp fun d h => h.1
  refine ⟨cs, ds, hcs, ?_, (pyMap_index hds 0).1, fun j i c z hc hz => ?_⟩
  · rw [Step.plotDeformationCurves, hcs]
    exact hds
  · obtain ⟨d, hd, hd'⟩ := (pyMap_index hds j).2 c hc
    obtain ⟨d', e1, e2⟩ := each c (List.mem_of_getElem? hc)
    rw [hd'] at e1
    cases e1
    obtain ⟨x, y, h1, h2, h3⟩ := e2 i z hz
    exact ⟨d, x, y, hd, h1, h2, h3⟩

/-- **C74** fails for the deformed curves if the width is not a multiple of the scale: the curves are those of the full
rectangle, which the grid does not cover, and `ValueError` is raised. -/
theorem C74_curves_false (hs : s.Reachable solver domain params ext traction) {st : Step} (hst : st ∈ s.steps) {n : ℕ}
    (hn : 2 ≤ n) (a : ℕ) (b : Option ℕ)
    (hw : cells domain.width params.scale * params.scale + 4 * (1 / 10 ^ 10) / params.scale < domain.width) :
    ∃ e, st.plotDeformationCurves domain n a b = .error e := by
  obtain ⟨nx, ny, k, ph, pn, rfl, rfl, G, -, -, -, -, -, -, -, -, -, hy, -⟩ := step_grids hs hst
  obtain ⟨cs, hcs, hlen, hH, -⟩ := C21_curves domain hn a b
  obtain ⟨c, hc, hcl, hci⟩ := hH 0 (by omega)
  have hlast := hci (n - 1) (by omega)
  have e1 : ((n - 1 : ℕ) : ℝ) / ((n : ℝ) - 1) = 1 := by
    rw [Nat.cast_sub (by omega)]
    have : (2 : ℝ) ≤ n := by exact_mod_cast hn
    push_cast
    exact div_self (by linarith)
  rw [e1] at hlast
  have hI : ∃ I, I.grid = s.grid ∧ st.y.y1 = ⟨I⟩ := by
    rcases hy with ⟨-, A, B, I1, I2, i1, i2, e⟩ | ⟨-, A, B, I1, I2, i1, i2, e⟩
    · exact ⟨I1, by rw [(P1_of i1).2], by rw [e]⟩
    · exact ⟨I1, by rw [(C1_of i1).2.2], by rw [e]⟩
  obtain ⟨I, hI, eI⟩ := hI
  by_contra hcon
  push Not at hcon
  obtain ⟨ds, hds⟩ : ∃ ds, st.plotDeformationCurves domain n a b = .ok ds := by
    cases h : st.plotDeformationCurves domain n a b with
    | ok ds => exact ⟨ds, rfl⟩
    | error e => exact absurd h (hcon e)
  rw [Step.plotDeformationCurves, hcs, bind_ok] at hds
  obtain ⟨d, -, hd⟩ := (pyMap_index hds 0).2 c hc
  obtain ⟨D, hD, -⟩ := bind_eq_ok.1 hd
  obtain ⟨w, -, hw'⟩ := (pyMap_index hD (n - 1)).2 _ hlast
  rw [unpack2_vec2, EuclDeformation.call, eI, (C44_outside G I hI (.inr (.inl (by simpa using hw)))).1] at hw'
  cases hw'

end

/-- C72 and C74 apply to the steps of the examples, with and without regularization -/
example (it : SetIter) {params : SimParams} (hp : params = exampleParams ∨ params = exampleParamsReg) :
    ∃ (s : Sim) (st : Step) (p : TriPlot) (z : ℝ × ℝ), s.Healthy staySolver exampleDomain params (fun t => .ok (t ^ 2))
      (fun t x y => .ok [t + x, y]) ∧ s.steps[4]? = some st ∧ s.grid.At 3 z ∧ st.plot s.maxTemp = .ok p ∧
      st.y.call z.1 z.2 = .ok (vecOf ![(st.yData.deformed 3).1, (st.yData.deformed 3).2]) ∧
      p.x[3]? = some (st.yData.deformed 3).1 ∧ p.c[2]? = st.thetaData.data[2]? ∧ (s.plotStep (-2)) = .ok () := by
  obtain ⟨s, hh, hr, hl⟩ := example_run it hp (n := 3) (by norm_num)
  have hl' : s.steps.length = 5 := by omega
  obtain ⟨st, hst⟩ : ∃ st, s.steps[4]? = some st := ⟨s.steps[4], by simp [hl']⟩
  have hmem := List.mem_of_getElem? hst
  obtain ⟨p, h1, -⟩ := C74_plot hr hmem s.maxTemp
  have sc : 15 / 10 ^ 6 < params.scale := by rcases hp with rfl | rfl <;> norm_num [exampleParams, exampleParamsReg]
  have sc' : ∀ n : ℤ, params.refinementFactor = some n → 15 / 10 ^ 6 < params.scale / n := by
    rcases hp with rfl | rfl
    · intro n h; cases h
    · rintro n ⟨⟩; norm_num [exampleParamsReg]
  have es : params.scale = 1 / 2 := by rcases hp with rfl | rfl <;> rfl
  obtain ⟨nx, ny, k, ph, pn, e1, e2, G, hk, G2, pre1, -, -, -, -, -, -, -, I3, hI3, -⟩ := step_grids hr hmem
  have c1 : nx = 1 := by rw [e1, es]; norm_num [cells, exampleDomain]
  have c2 : ny = 2 := by rw [e2, es]; norm_num [cells, exampleDomain]
  subst c1 c2
  have C := C22_structure G
  have hlen : s.grid.points.length = 6 := C.2.2.2.2.1
  obtain ⟨z, hz⟩ := G.wellFormed.planar 3 (by rw [hlen]; norm_num)
  obtain ⟨v1, v2⟩ := C74_values_partial hr sc sc' hmem h1
  refine ⟨s, st, p, z, hh, hst, hz, h1, C72_deformation_partial hr sc hmem hz, (v1 3 ?_).1, v2 2 ?_, (C74_plot_step hr _).1⟩
  · rw [C.2.2.2.1]; simp
  · have h2 := pre1.length_le
    rw [(P1_of hI3).1, G2.wellFormed.vertices, List.length_range]
    omega

end Tve
