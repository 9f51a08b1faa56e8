import Verif.Props.Consistency
import Verif.Props.ConvergeC1
import Verif.Props.SimilarReg
import Verif.Props.Optimal

/-!
# C107: simulations on fine grids compete with every smooth deformation
-/

namespace Tve

open MeasureTheory Helpers

/-- **C107** (steps without regularization). Let the step before hold the values of a continuously differentiable deformation `Y0` and a
continuous temperature `θ` at the vertices, let the solver return an optimal deformation, and let `Y` be any continuously differentiable
deformation with gradient of positive determinant, which agrees with `Y0` at the fixed vertices and is nowhere further away from it than
the search radius. If the scale is small enough, the objective of the recorded deformation exceeds elastic energy minus work of the
traction plus `fps` times dissipation of `Y` by at most `ε`. -/
theorem C107_step (d : RectDomain ℝ) (hw : 0 < d.width) (hh : 0 < d.height) {leg : LegGauss} (hleg : LegSound leg)
    {traction : Traction} {params : SimParams} (hreg : params.regularization = none) (k : ℕ) {Y0 Y T : ℝ × ℝ → ℝ × ℝ}
    {F0 F : ℝ × ℝ → Fin 2 → Fin 2 → ℝ} {θ W V : ℝ × ℝ → ℝ}
    (hY0 : ∀ z ∈ Set.Icc ((0 : ℝ), (0 : ℝ)) (d.width, d.height),
      HasFDerivAt (fun z => (Y0 z).1) (lin (F0 z 0 0) (F0 z 0 1)) z ∧ HasFDerivAt (fun z => (Y0 z).2) (lin (F0 z 1 0) (F0 z 1 1)) z)
    (hY : ∀ z ∈ Set.Icc ((0 : ℝ), (0 : ℝ)) (d.width, d.height),
      HasFDerivAt (fun z => (Y z).1) (lin (F z 0 0) (F z 0 1)) z ∧ HasFDerivAt (fun z => (Y z).2) (lin (F z 1 0) (F z 1 1)) z)
    (hF0 : ∀ i j, ContinuousOn (fun z => F0 z i j) (Set.Icc (0, 0) (d.width, d.height)))
    (hF : ∀ i j, ContinuousOn (fun z => F z i j) (Set.Icc (0, 0) (d.width, d.height)))
    (hdet : ∀ z ∈ Set.Icc ((0 : ℝ), (0 : ℝ)) (d.width, d.height), 0 < (Matrix.of (F z)).det)
    (hθ : ContinuousOn θ (Set.Icc (0, 0) (d.width, d.height)))
    (hT : ContinuousOn T (Set.Icc (0, 0) (d.width, d.height)))
    (htr : ∀ z ∈ Set.Icc ((0 : ℝ), (0 : ℝ)) (d.width, d.height), traction (k / params.fps) z.1 z.2 = .ok [(T z).1, (T z).2])
    (hW : ∀ z ∈ Set.Icc ((0 : ℝ), (0 : ℝ)) (d.width, d.height), totalElasticPotential (matOf (Matrix.of (F z))) (θ z) = .ok (W z))
    (hV : ∀ z ∈ Set.Icc ((0 : ℝ), (0 : ℝ)) (d.width, d.height),
      dissipationPotential (matOf (Matrix.of (F0 z))) (matOf (Matrix.of (F z))) = .ok (V z))
    (hnear : ∀ z ∈ Set.Icc ((0 : ℝ), (0 : ℝ)) (d.width, d.height),
      |(Y z).1 - (Y0 z).1| ≤ params.searchRadius ∧ |(Y z).2 - (Y0 z).2| ≤ params.searchRadius)
    {ε : ℝ} (hε : 0 < ε) :
    ∃ δ > 0, ∀ h, 0 < h → h < δ → ∀ (solver : Solver) (ext : ExtTemp) (s : Sim),
      s.Healthy solver d { params with scale := h } ext traction → ∀ (a b : Step) (p : Problem),
      s.steps[k]? = some a → s.steps[k + 1]? = some b → s.calls[2 * k]? = some p →
      p.IsOptimal leg (solver (s.calls.take (2 * k)) p) →
      (∀ v q, s.grid.At v q → a.yData.deformed v = Y0 q ∧ a.thetaData.data[v]? = some (θ q)) →
      (∀ v ∈ s.grid.dirichlet.vertices, ∀ q, s.grid.At v q → Y q = Y0 q) →
      ∃ J, IsMechObjective leg params traction s.grid s.refined (k / params.fps) a.yData b.yData a.thetaData J ∧
        J ≤ (∫ z in Set.Icc ((0 : ℝ), (0 : ℝ)) (d.width, d.height), W z) -
          ((allSides.filter (· ∉ d.fix.options)).map
            (sideIntegral d.width d.height fun z => (T z).1 * (Y z).1 + (T z).2 * (Y z).2)).sum +
          params.fps * (∫ z in Set.Icc ((0 : ℝ), (0 : ℝ)) (d.width, d.height), V z) + ε := by
  obtain ⟨δ, hδ, c⟩ := C95_objective d hw hh hleg hreg hY0 hY hF0 hF hdet hθ hT htr hW hV hε
  refine ⟨δ, hδ, fun h h0 hlt solver ext s hs a b p ha hb hp hopt hval hfix => ?_⟩
  obtain ⟨q, hq, -⟩ := hleg.rule
  have hR := hs.reachable
  obtain ⟨e, ⟨nx, ny, sc, G⟩, hN, hpos, H⟩ := hR.plain hreg
  obtain ⟨m0, t0, cx, -⟩ := hs.history
  obtain ⟨it, hg⟩ := cx.grid
  have WF := G.wellFormed
  have hlen : s.grid.vertices.length = s.grid.points.length := by rw [WF.vertices, List.length_range]
  obtain ⟨Ha, Ht⟩ := H a (List.mem_of_getElem? ha)
  rw [← hlen] at Ha Ht
  obtain ⟨y, _, Hy, _, hy⟩ := nodal_arrays G Y θ
  obtain ⟨J, hJ, hle⟩ := c h h0 hlt it s.grid hg a.yData y a.thetaData Ha Hy Ht fun v q hv =>
    ⟨(hval v q hv).1, (hy v q hv).1, (hval v q hv).2⟩
  have hat : ∀ v, v < s.grid.vertices.length → ∃ q ∈ Set.Icc ((0 : ℝ), (0 : ℝ)) (d.width, d.height), s.grid.At v q := by
    intro v hv
    obtain ⟨z, hz⟩ := WF.planar v (hlen ▸ hv)
    obtain ⟨x1, x2, x3, x4⟩ := (C10_points_in_rectangle hw.le hh.le h0 hg).1 v _ hz
    exact ⟨z, ⟨⟨x1, x3⟩, x2, x4⟩, hz⟩
  have sh : deformShape s.grid s.refined = [s.grid.vertices.length, 2] := by rw [e]; rfl
  have hor : Oriented s.grid s.refined y := by
    have := hJ
    rw [← e] at this
    exact this.oriented cx.energetic
  obtain ⟨v, w, h1, h2, h3⟩ := mech_beats hs hq ha hb hp hopt (y' := y) (by rw [sh]; exact Hy)
    (fun i u v hu hv => by
      obtain ⟨i1, rfl⟩ := data_entry Ha hu
      obtain ⟨-, rfl⟩ := data_entry Hy hv
      obtain ⟨q, hqR, hq⟩ := hat _ i1
      rw [(hval _ q hq).1, (hy _ q hq).1]
      split_ifs
      · exact (hnear q hqR).1
      · exact (hnear q hqR).2)
    (fun i u v hm _ hu hv => by
      obtain ⟨i1, rfl⟩ := data_entry Ha hu
      obtain ⟨-, rfl⟩ := data_entry Hy hv
      obtain ⟨q, hqR, hq⟩ := hat _ i1
      rw [sh] at hm
      rw [(hval _ q hq).1, (hy _ q hq).1, hfix _ hm q hq])
    (fun h => absurd e h) hor
  have h2' : IsMechObjective leg params traction s.grid none (k / params.fps) a.yData y a.thetaData w := by
    rw [← e]; exact h2
  have := h2'.unique hN hJ
  subst this
  refine ⟨v, h1, h3.trans ?_⟩
  have := (abs_le.1 hle).2
  linarith

/-- **C107** (the first step without regularization). Whatever the solver did later: if the first deformation it returned is optimal, the
objective of the first recorded step is at most `ε` worse than every continuously differentiable deformation `Y` of the body that keeps
the fixed vertices and stays in the search radius, at the initial temperature. -/
theorem C107_first (d : RectDomain ℝ) (hw : 0 < d.width) (hh : 0 < d.height) {leg : LegGauss} (hleg : LegSound leg)
    {traction : Traction} {params : SimParams} (hreg : params.regularization = none) {Y T : ℝ × ℝ → ℝ × ℝ}
    {F : ℝ × ℝ → Fin 2 → Fin 2 → ℝ} {W V : ℝ × ℝ → ℝ}
    (hY : ∀ z ∈ Set.Icc ((0 : ℝ), (0 : ℝ)) (d.width, d.height),
      HasFDerivAt (fun z => (Y z).1) (lin (F z 0 0) (F z 0 1)) z ∧ HasFDerivAt (fun z => (Y z).2) (lin (F z 1 0) (F z 1 1)) z)
    (hF : ∀ i j, ContinuousOn (fun z => F z i j) (Set.Icc (0, 0) (d.width, d.height)))
    (hdet : ∀ z ∈ Set.Icc ((0 : ℝ), (0 : ℝ)) (d.width, d.height), 0 < (Matrix.of (F z)).det)
    (hT : ContinuousOn T (Set.Icc (0, 0) (d.width, d.height)))
    (htr : ∀ z ∈ Set.Icc ((0 : ℝ), (0 : ℝ)) (d.width, d.height), traction 0 z.1 z.2 = .ok [(T z).1, (T z).2])
    (hW : ∀ z ∈ Set.Icc ((0 : ℝ), (0 : ℝ)) (d.width, d.height),
      totalElasticPotential (matOf (Matrix.of (F z))) params.initialTemperature = .ok (W z))
    (hV : ∀ z ∈ Set.Icc ((0 : ℝ), (0 : ℝ)) (d.width, d.height),
      dissipationPotential (matOf (1 : Matrix (Fin 2) (Fin 2) ℝ)) (matOf (Matrix.of (F z))) = .ok (V z))
    (hnear : ∀ z ∈ Set.Icc ((0 : ℝ), (0 : ℝ)) (d.width, d.height),
      |(Y z).1 - z.1| ≤ params.searchRadius ∧ |(Y z).2 - z.2| ≤ params.searchRadius)
    {ε : ℝ} (hε : 0 < ε) :
    ∃ δ > 0, ∀ h, 0 < h → h < δ → ∀ (solver : Solver) (ext : ExtTemp) (s : Sim),
      s.Healthy solver d { params with scale := h } ext traction → ∀ (a b : Step) (p : Problem),
      s.steps[0]? = some a → s.steps[1]? = some b → s.calls[0]? = some p → p.IsOptimal leg (solver [] p) →
      (∀ v ∈ s.grid.dirichlet.vertices, ∀ q, s.grid.At v q → Y q = q) →
      ∃ J, IsMechObjective leg params traction s.grid s.refined 0 a.yData b.yData a.thetaData J ∧
        J ≤ (∫ z in Set.Icc ((0 : ℝ), (0 : ℝ)) (d.width, d.height), W z) -
          ((allSides.filter (· ∉ d.fix.options)).map
            (sideIntegral d.width d.height fun z => (T z).1 * (Y z).1 + (T z).2 * (Y z).2)).sum +
          params.fps * (∫ z in Set.Icc ((0 : ℝ), (0 : ℝ)) (d.width, d.height), V z) + ε := by
  obtain ⟨δ, hδ, c⟩ := C107_step d hw hh hleg hreg 0 (Y0 := id) (F0 := fun _ i j => (1 : Matrix (Fin 2) (Fin 2) ℝ) i j)
    (θ := fun _ => params.initialTemperature) (fun z _ => id_deriv z) hY (fun i j => continuousOn_const) hF hdet continuousOn_const hT
    (by simpa using htr) hW hV hnear hε
  refine ⟨δ, hδ, fun h h0 hlt solver ext s hs a b p ha hb hp hopt hfix => ?_⟩
  obtain ⟨e, ⟨nx, ny, sc, G⟩, -, -, H⟩ := hs.reachable.plain hreg
  obtain ⟨st, hst, hpos, hth, -⟩ := C68_initial hs.reachable
  cases ha.symm.trans hst
  have WF := G.wellFormed
  obtain ⟨J, h1, h2⟩ := c h h0 hlt solver ext s hs a b p ha hb hp (by simpa using hopt) (fun v q hv => by
      have hv' : v ∈ s.grid.vertices := by
        rw [WF.vertices, List.mem_range]
        exact (List.getElem?_eq_some_iff.1 hv).1
      refine ⟨by rw [hpos v hv', xy_of_at hv]; rfl, ?_⟩
      rw [hth, e]
      have : v < s.grid.vertices.length := by
        rw [WF.vertices, List.length_range]
        exact (List.getElem?_eq_some_iff.1 hv).1
      simp [energyGrid, List.getElem?_replicate, this]) hfix
  exact ⟨J, by simpa using h1, h2⟩

/-! ### with regularization -/

/-- if a twice differentiable function is a coordinate along an edge, its values and derivatives at the end points satisfy the
equations of the constraint -/
theorem edgeEqs_of_coord {D : ℕ → ℕ → ℝ × ℝ → ℝ} {R : Set (ℝ × ℝ)} (hD : PartialsOn D 2 R) {P Q : ℝ × ℝ} {c : ℕ}
    (hR : ∀ t, 0 ≤ t → t ≤ 1 → edgePoint P Q t ∈ R) (h : ∀ t, 0 ≤ t → t ≤ 1 → D 0 0 (edgePoint P Q t) = coord c (edgePoint P Q t))
    {p q : Fin 6 → ℝ} (hp : ∀ j, p j = (nodalData D P).getD j 0) (hq : ∀ j, q j = (nodalData D Q).getD j 0) : EdgeEqs c P Q p q := by
  have hc : ∀ t, coord c (edgePoint P Q t) = t * coord c P + (1 - t) * coord c Q := by
    intro t; unfold coord edgePoint; split <;> simp
  have hE : ∀ t, HasDerivAt (edgePoint P Q) (P - Q) t := by
    intro t
    have h1 : HasDerivAt (fun t : ℝ => t * P.1 + (1 - t) * Q.1) (P.1 - Q.1) t := by
      have := ((hasDerivAt_id t).mul_const P.1).add (((hasDerivAt_id t).const_sub 1).mul_const Q.1)
      refine this.congr_deriv (by ring)
    have h2 : HasDerivAt (fun t : ℝ => t * P.2 + (1 - t) * Q.2) (P.2 - Q.2) t := by
      have := ((hasDerivAt_id t).mul_const P.2).add (((hasDerivAt_id t).const_sub 1).mul_const Q.2)
      refine this.congr_deriv (by ring)
    exact h1.prodMk h2
  have hu : ∀ t ∈ Set.Icc (0 : ℝ) 1, UniqueDiffWithinAt ℝ (Set.Icc (0 : ℝ) 1) t := uniqueDiffOn_Icc one_pos
  have der : ∀ i j, i + j < 2 → ∀ t ∈ Set.Icc (0 : ℝ) 1, HasDerivWithinAt (fun t => D i j (edgePoint P Q t))
      (D (i + 1) j (edgePoint P Q t) * (P.1 - Q.1) + D i (j + 1) (edgePoint P Q t) * (P.2 - Q.2)) (Set.Icc 0 1) t := by
    intro i j hij t ht
    have := ((hD i j hij _ (hR t ht.1 ht.2)).comp_hasDerivAt t (hE t)).hasDerivWithinAt (s := Set.Icc (0 : ℝ) 1)
    refine this.congr_deriv ?_
    simp [lin]
  have k1 : ∀ t ∈ Set.Icc (0 : ℝ) 1, D 1 0 (edgePoint P Q t) * (P.1 - Q.1) + D 0 1 (edgePoint P Q t) * (P.2 - Q.2) =
      coord c P - coord c Q := by
    intro t ht
    have e1 := der 0 0 (by norm_num) t ht
    have e2 : HasDerivWithinAt (fun t => D 0 0 (edgePoint P Q t)) (coord c P - coord c Q) (Set.Icc 0 1) t := by
      have : HasDerivAt (fun t : ℝ => t * coord c P + (1 - t) * coord c Q) (coord c P - coord c Q) t := by
        have := ((hasDerivAt_id t).mul_const (coord c P)).add (((hasDerivAt_id t).const_sub 1).mul_const (coord c Q))
        refine this.congr_deriv (by ring)
      exact this.hasDerivWithinAt.congr (fun x hx => by rw [h x hx.1 hx.2, hc]) (by rw [h t ht.1 ht.2, hc])
    exact (hu t ht).eq_deriv _ e1 e2
  have k2 : ∀ t ∈ Set.Icc (0 : ℝ) 1, D 2 0 (edgePoint P Q t) * (P.1 - Q.1) ^ 2 +
      2 * D 1 1 (edgePoint P Q t) * (P.1 - Q.1) * (P.2 - Q.2) + D 0 2 (edgePoint P Q t) * (P.2 - Q.2) ^ 2 = 0 := by
    intro t ht
    have e1 := ((der 1 0 (by norm_num) t ht).mul_const (P.1 - Q.1)).add ((der 0 1 (by norm_num) t ht).mul_const (P.2 - Q.2))
    have e2 : HasDerivWithinAt (fun t => D 1 0 (edgePoint P Q t) * (P.1 - Q.1) + D 0 1 (edgePoint P Q t) * (P.2 - Q.2)) 0
        (Set.Icc 0 1) t :=
      (hasDerivWithinAt_const t (Set.Icc (0 : ℝ) 1) (coord c P - coord c Q)).congr (fun x hx => k1 x hx) (k1 t ht)
    have := (hu t ht).eq_deriv _ e1 e2
    linarith
  have eP : edgePoint P Q 1 = P := by simp [edgePoint]
  have eQ : edgePoint P Q 0 = Q := by simp [edgePoint]
  have a1 := k1 1 (by simp)
  have a2 := k2 1 (by simp)
  have a3 := k1 0 (by simp)
  have a4 := k2 0 (by simp)
  have a5 := h 1 zero_le_one le_rfl
  have a6 := h 0 le_rfl zero_le_one
  rw [eP] at a1 a2 a5
  rw [eQ] at a3 a4 a6
  simp only [EdgeEqs, hp, hq, nodalData]
  refine ⟨a5, ?_, ?_, a6, ?_, ?_⟩
  · simp; linarith
  · simp; linarith
  · simp; linarith
  · simp; linarith

/-- entries of an array that holds the values and derivatives of a deformation -/
theorem NdArray.HoldsC1.entry {y : NdArray} {g : Grid ℝ} {Y : Fin 2 → ℕ → ℕ → ℝ × ℝ → ℝ} (h : y.HoldsC1 g Y) {v : Vertex} {q : ℝ × ℝ}
    (hv : g.At v q) (hl : v < g.vertices.length) (k : Fin 2) {j : ℕ} (hj : j < 6) : y.at3 2 6 v k j = (nodalData (Y k) q).getD j 0 := by
  obtain ⟨u, h1, h2⟩ := h.2 k
  rw [NdArray.block_eq h.1 k.isLt] at h1
  cases h1
  have := h2 v q hv
  rw [List.getElem?_map, List.getElem?_range hl] at this
  have := Option.some.inj this
  rw [← this]
  simp [List.getD_eq_getElem?_getD, hj]

theorem edgePoint_mem {a b P Q : ℝ × ℝ} (hP : P ∈ Set.Icc a b) (hQ : Q ∈ Set.Icc a b) {t : ℝ} (t0 : 0 ≤ t) (t1 : t ≤ 1) :
    edgePoint P Q t ∈ Set.Icc a b := by
  obtain ⟨⟨p1, p2⟩, p3, p4⟩ := hP
  obtain ⟨⟨q1, q2⟩, q3, q4⟩ := hQ
  simp only [edgePoint]
  refine ⟨⟨?_, ?_⟩, ?_, ?_⟩ <;> simp <;> nlinarith

/-- **C107** (steps with regularization). Let the step before hold the values and derivatives of a twice continuously differentiable
deformation `Y0` at the vertices and the values of a continuous temperature `θ` at the vertices of the refined grid, let the solver return
an optimal deformation, and let `Y` be any twice continuously differentiable deformation with gradient of positive determinant, which is
the identity along the fixed edges and whose values and derivatives are nowhere further away from those of `Y0` than the search radius. If
the scale is small enough, the objective of the recorded deformation exceeds elastic energy plus weighted hyper elastic energy plus `fps`
times dissipation of `Y`, times the sum of the weights of the quadrature rule (`1` up to `10⁻¹⁴`), by at most `ε`. -/
theorem C107_step_regularized (d : RectDomain ℝ) (hw : 0 < d.width) (hh : 0 < d.height) {leg : LegGauss} {r1 : GaussRule ℝ}
    (hleg : GaussRule.new leg 1 = .ok r1) {params : SimParams} {c : ℝ}
    (hreg : params.regularization = some c) (traction : Traction) (k : ℕ) {Y0 Y : Fin 2 → ℕ → ℕ → ℝ × ℝ → ℝ}
    (hY0 : ∀ k, PartialsOn (Y0 k) 2 (Set.Icc (0, 0) (d.width, d.height)))
    (hY : ∀ k, PartialsOn (Y k) 2 (Set.Icc (0, 0) (d.width, d.height)))
    (hY0c : ∀ k i j, i + j = 2 → ContinuousOn (Y0 k i j) (Set.Icc (0, 0) (d.width, d.height)))
    (hYc : ∀ k i j, i + j = 2 → ContinuousOn (Y k i j) (Set.Icc (0, 0) (d.width, d.height)))
    (hdet : ∀ z ∈ Set.Icc ((0 : ℝ), (0 : ℝ)) (d.width, d.height), 0 < (gradOf Y z).det)
    {θ W V : ℝ × ℝ → ℝ} (hθ : ContinuousOn θ (Set.Icc (0, 0) (d.width, d.height)))
    (hW : ∀ z ∈ Set.Icc ((0 : ℝ), (0 : ℝ)) (d.width, d.height), totalElasticPotential (matOf (gradOf Y z)) (θ z) = .ok (W z))
    (hV : ∀ z ∈ Set.Icc ((0 : ℝ), (0 : ℝ)) (d.width, d.height),
      dissipationPotential (matOf (gradOf Y0 z)) (matOf (gradOf Y z)) = .ok (V z))
    (hnear : ∀ z ∈ Set.Icc ((0 : ℝ), (0 : ℝ)) (d.width, d.height), ∀ k i j, i + j ≤ 2 → |Y k i j z - Y0 k i j z| ≤ params.searchRadius) :
    ∃ rule, dunavant5 ℝ = .ok rule ∧ 1 - 1 / 10 ^ 14 ≤ rule.weights.sum ∧ rule.weights.sum ≤ 1 ∧
      ∀ ε > 0, ∃ δ > 0, ∀ h, 0 < h → h < δ → ∀ (solver : Solver) (ext : ExtTemp) (s : Sim),
        s.Healthy solver d { params with scale := h } ext traction → ∀ (a b : Step) (p : Problem),
        s.steps[k]? = some a → s.steps[k + 1]? = some b → s.calls[2 * k]? = some p →
        p.IsOptimal leg (solver (s.calls.take (2 * k)) p) → a.yData.HoldsC1 s.grid Y0 →
        (∀ v q, (energyGrid s.grid s.refined).At v q → a.thetaData.data[v]? = some (θ q)) →
        (∀ v ∈ s.grid.dirichlet.vertices, ∀ q, s.grid.At v q → ∀ k, Y k 0 0 q = Y0 k 0 0 q) →
        (∀ e ∈ s.grid.dirichlet.edges, ∀ z, onSegment (s.grid.xy e.1) (s.grid.xy e.2) z → Y 0 0 0 z = z.1 ∧ Y 1 0 0 z = z.2) →
        ∃ J, IsMechObjective leg params traction s.grid s.refined (k / params.fps) a.yData b.yData a.thetaData J ∧
          J ≤ rule.weights.sum * ((∫ z in Set.Icc ((0 : ℝ), (0 : ℝ)) (d.width, d.height), W z) +
            c * (∫ z in Set.Icc ((0 : ℝ), (0 : ℝ)) (d.width, d.height), hyperElasticPotential (tenOf (hessOf Y z))) +
            params.fps * ∫ z in Set.Icc ((0 : ℝ), (0 : ℝ)) (d.width, d.height), V z) + ε := by
  obtain ⟨rule, r1, r2, r3, C⟩ := C103_mechanical_limit d hw hh leg hreg traction (k / params.fps) hY0 hY hY0c hYc hdet hθ hW hV
  refine ⟨rule, r1, r2, r3, fun ε hε => ?_⟩
  obtain ⟨δ, hδ, C⟩ := C ε hε
  refine ⟨δ, hδ, fun h h0 hlt solver ext s hs a b p ha hb hp hopt hval hth hfix hid => ?_⟩
  obtain ⟨m0, t0, cx, -⟩ := hs.history
  obtain ⟨it, hg⟩ := cx.grid
  obtain ⟨G, -, g2⟩ := cx.setup.grids hg cx.refined
  have nr : params.regularization ≠ none := by rw [hreg]; simp
  obtain ⟨n, r, -, n1, n2, e, n4, GR, -⟩ := g2 nr
  have fine := (cx.setup.fine' n2).2
  obtain ⟨r', e', -, hpos, H⟩ := hs.reachable.smooth nr
  cases e.symm.trans e'
  have WF := G.wellFormed
  have hlen : s.grid.vertices.length = s.grid.points.length := by rw [WF.vertices, List.length_range]
  have hlenR : r.toGrid.vertices.length = r.toGrid.points.length := by rw [GR.wellFormed.vertices, List.length_range]
  have Ht := (H a (List.mem_of_getElem? ha)).2
  rw [← hlenR] at Ht
  have Ha := hval.1
  obtain ⟨y, hy⟩ := nodal_arrays_c1 G Y
  have Hy := hy.1
  obtain ⟨J, hJ, hle⟩ := C h h0 hlt it s.grid hg n n1 fine r n4 a.yData y a.thetaData hval hy Ht (by rw [e] at hth; exact hth)
  have hat : ∀ v, v < s.grid.vertices.length → ∃ q ∈ Set.Icc ((0 : ℝ), (0 : ℝ)) (d.width, d.height), s.grid.At v q := by
    intro v hv
    obtain ⟨z, hz⟩ := WF.planar v (hlen ▸ hv)
    obtain ⟨x1, x2, x3, x4⟩ := (C10_points_in_rectangle hw.le hh.le h0 hg).1 v _ hz
    exact ⟨z, ⟨⟨x1, x3⟩, x2, x4⟩, hz⟩
  have sh : deformShape s.grid s.refined = [s.grid.vertices.length, 2, 6] := by rw [e]; rfl
  have hor : Oriented s.grid s.refined y := by
    have := hJ
    rw [← e] at this
    exact this.oriented cx.energetic
  obtain ⟨v, w, h1, h2, h3⟩ := mech_beats hs hleg ha hb hp hopt (y' := y) (by rw [sh]; exact Hy)
    (fun i u v hu hv => by
      obtain ⟨i1, rfl⟩ := data_entry3 Ha hu
      obtain ⟨-, rfl⟩ := data_entry3 Hy hv
      obtain ⟨q, hqR, hq⟩ := hat _ i1
      have i2 : i / 6 % 2 < 2 := Nat.mod_lt _ (by norm_num)
      have i3 : i % 6 < 6 := Nat.mod_lt _ (by norm_num)
      have e1 := hval.entry hq i1 ⟨i / 6 % 2, i2⟩ i3
      have e2 := hy.entry hq i1 ⟨i / 6 % 2, i2⟩ i3
      simp only at e1 e2
      rw [e1, e2]
      have nn := hnear q hqR ⟨i / 6 % 2, i2⟩
      generalize i % 6 = j at i3
      interval_cases j
      · exact nn 0 0 (by norm_num)
      · exact nn 1 0 (by norm_num)
      · exact nn 0 1 (by norm_num)
      · exact nn 2 0 (by norm_num)
      · exact nn 1 1 (by norm_num)
      · exact nn 0 2 (by norm_num))
    (fun i u v hm hm' hu hv => by
      obtain ⟨i1, rfl⟩ := data_entry3 Ha hu
      obtain ⟨-, rfl⟩ := data_entry3 Hy hv
      obtain ⟨q, hqR, hq⟩ := hat _ i1
      have i2 : i / 6 % 2 < 2 := Nat.mod_lt _ (by norm_num)
      have e1 := hval.entry hq i1 ⟨i / 6 % 2, i2⟩ (j := 0) (by norm_num)
      have e2 := hy.entry hq i1 ⟨i / 6 % 2, i2⟩ (j := 0) (by norm_num)
      rw [sh] at hm
      rw [hm' (by rw [e]; simp)]
      simp only at e1 e2
      rw [e1, e2]
      exact hfix _ hm q hq ⟨i / 6 % 2, i2⟩)
    (fun _ => by
      intro A B hA hB ed hed
      have hv := WF.edges ed (WF.dirichlet.2 ed hed)
      rw [WF.vertices, List.mem_range, List.mem_range] at hv
      obtain ⟨P, hPR, hP⟩ := hat ed.1 (hlen ▸ hv.1)
      obtain ⟨Q, hQR, hQ⟩ := hat ed.2 (hlen ▸ hv.2)
      have hseg : ∀ t, 0 ≤ t → t ≤ 1 → edgePoint P Q t ∈ Set.Icc ((0 : ℝ), (0 : ℝ)) (d.width, d.height) := fun t t0 t1 =>
        edgePoint_mem hPR hQR t0 t1
      have hpar : ∀ (i : Fin 2) (U : List (List ℝ)), y.block i = .ok U → ∀ (v : Vertex) (q : ℝ × ℝ), s.grid.At v q → ∀ j : Fin 6,
          nodeParam U v j = (nodalData (Y i) q).getD j 0 := by
        intro i U hU v q hv j
        obtain ⟨U', u1, u2⟩ := hy.2 i
        cases hU.symm.trans u1
        have e3 : U.getD v [] = nodalData (Y i) q := by rw [List.getD_eq_getElem?_getD, u2 v q hv]; rfl
        rw [nodeParam, e3]
      have hid' := fun t t0 t1 => hid ed hed _ ⟨t, t0, t1, rfl⟩
      rw [xy_of_at hP, xy_of_at hQ] at hid' ⊢
      exact ⟨edgeEqs_of_coord (c := 0) (hY 0) hseg (fun t t0 t1 => (hid' t t0 t1).1) (hpar 0 A hA _ _ hP) (hpar 0 A hA _ _ hQ),
        edgeEqs_of_coord (c := 1) (hY 1) hseg (fun t t0 t1 => (hid' t t0 t1).2) (hpar 1 B hB _ _ hP) (hpar 1 B hB _ _ hQ)⟩) hor
  have h2' : IsMechObjective leg params traction s.grid (some r) (k / params.fps) a.yData y a.thetaData w := by
    rw [← e]; exact h2
  have := h2'.unique (C15_neumann_vertices_partial h0 cx.setup.width cx.setup.height hg).2.2.1 hJ
  subst this
  refine ⟨v, h1, h3.trans ?_⟩
  have := (abs_le.1 hle).2
  linarith

/-- the undeformed body, with its partial derivatives -/
noncomputable def identityY : Fin 2 → ℕ → ℕ → ℝ × ℝ → ℝ
  | 0, 0, 0, z => z.1
  | 0, 1, 0, _ => 1
  | 1, 0, 0, z => z.2
  | 1, 0, 1, _ => 1
  | _, _, _, _ => 0

/-- **C107** (the first step with regularization). If the first deformation returned by the solver is optimal, the objective of the first
recorded step is at most `ε` worse than every twice continuously differentiable deformation `Y` that is the identity along the fixed edges
and whose values and derivatives stay in the search radius, at the initial temperature. -/
theorem C107_first_regularized (d : RectDomain ℝ) (hw : 0 < d.width) (hh : 0 < d.height) {leg : LegGauss} {r1 : GaussRule ℝ}
    (hleg : GaussRule.new leg 1 = .ok r1) {params : SimParams} {c : ℝ}
    (hreg : params.regularization = some c) (traction : Traction) {Y : Fin 2 → ℕ → ℕ → ℝ × ℝ → ℝ}
    (hY : ∀ k, PartialsOn (Y k) 2 (Set.Icc (0, 0) (d.width, d.height)))
    (hYc : ∀ k i j, i + j = 2 → ContinuousOn (Y k i j) (Set.Icc (0, 0) (d.width, d.height)))
    (hdet : ∀ z ∈ Set.Icc ((0 : ℝ), (0 : ℝ)) (d.width, d.height), 0 < (gradOf Y z).det) {W V : ℝ × ℝ → ℝ}
    (hW : ∀ z ∈ Set.Icc ((0 : ℝ), (0 : ℝ)) (d.width, d.height),
      totalElasticPotential (matOf (gradOf Y z)) params.initialTemperature = .ok (W z))
    (hV : ∀ z ∈ Set.Icc ((0 : ℝ), (0 : ℝ)) (d.width, d.height),
      dissipationPotential (matOf (1 : Matrix (Fin 2) (Fin 2) ℝ)) (matOf (gradOf Y z)) = .ok (V z))
    (hnear : ∀ z ∈ Set.Icc ((0 : ℝ), (0 : ℝ)) (d.width, d.height), ∀ k i j, i + j ≤ 2 →
      |Y k i j z - identityY k i j z| ≤ params.searchRadius) :
    ∃ rule, dunavant5 ℝ = .ok rule ∧ 1 - 1 / 10 ^ 14 ≤ rule.weights.sum ∧ rule.weights.sum ≤ 1 ∧
      ∀ ε > 0, ∃ δ > 0, ∀ h, 0 < h → h < δ → ∀ (solver : Solver) (ext : ExtTemp) (s : Sim),
        s.Healthy solver d { params with scale := h } ext traction → ∀ (a b : Step) (p : Problem),
        s.steps[0]? = some a → s.steps[1]? = some b → s.calls[0]? = some p → p.IsOptimal leg (solver [] p) →
        (∀ e ∈ s.grid.dirichlet.edges, ∀ z, onSegment (s.grid.xy e.1) (s.grid.xy e.2) z → Y 0 0 0 z = z.1 ∧ Y 1 0 0 z = z.2) →
        ∃ J, IsMechObjective leg params traction s.grid s.refined 0 a.yData b.yData a.thetaData J ∧
          J ≤ rule.weights.sum * ((∫ z in Set.Icc ((0 : ℝ), (0 : ℝ)) (d.width, d.height), W z) +
            c * (∫ z in Set.Icc ((0 : ℝ), (0 : ℝ)) (d.width, d.height), hyperElasticPotential (tenOf (hessOf Y z))) +
            params.fps * ∫ z in Set.Icc ((0 : ℝ), (0 : ℝ)) (d.width, d.height), V z) + ε := by
  have hs2 : ∀ k i j, i + j = 2 → identityY k i j = fun _ => 0 := by
    intro k i j h
    obtain ⟨rfl, rfl⟩ | ⟨rfl, rfl⟩ | ⟨rfl, rfl⟩ : (i = 2 ∧ j = 0) ∨ (i = 1 ∧ j = 1) ∨ (i = 0 ∧ j = 2) := by omega
    all_goals fin_cases k <;> rfl
  have e0 : identityY = stretchY 1 0 := by
    funext k i j z
    rcases i with _ | _ | _ | i <;> rcases j with _ | _ | _ | j <;> fin_cases k <;> simp [identityY, stretchY]
  have eg : ∀ z, gradOf identityY z = 1 := by
    intro z
    ext i j
    fin_cases i <;> fin_cases j <;> simp [gradOf, identityY]
  obtain ⟨rule, r1, r2, r3, C⟩ := C107_step_regularized d hw hh hleg hreg traction 0 (Y0 := identityY)
    (θ := fun _ => params.initialTemperature) (fun k => by rw [e0]; exact stretch_partials _ _ _ k) hY
    (fun k i j h => by rw [hs2 k i j h]; exact continuousOn_const) hYc hdet continuousOn_const hW
    (fun z hz => by rw [eg]; exact hV z hz) hnear
  refine ⟨rule, r1, r2, r3, fun ε hε => ?_⟩
  obtain ⟨δ, hδ, C⟩ := C ε hε
  refine ⟨δ, hδ, fun h h0 hlt solver ext s hs a b p ha hb hp hopt hid => ?_⟩
  have nr : params.regularization ≠ none := by rw [hreg]; simp
  obtain ⟨r, e, ⟨nx, ny, n, sc, G, -, -, -, GR⟩, -, H⟩ := hs.reachable.smooth nr
  have WF := G.wellFormed
  have hlen : s.grid.vertices.length = s.grid.points.length := by rw [WF.vertices, List.length_range]
  obtain ⟨st, hst, hpos, hth, -⟩ := C68_initial hs.reachable
  cases ha.symm.trans hst
  have Ha := (H a (List.mem_of_getElem? ha)).1
  rw [← hlen] at Ha
  obtain ⟨m0, t0, cx⟩ := hs.reachable.context
  obtain ⟨it, hg⟩ := cx.grid
  obtain ⟨Sh, ⟨N, U⟩, F⟩ := cx.setup.simShape hg cx.refined cx.mech0
  obtain ⟨st', k1, k2, k3⟩ := cx.first
  cases ha.symm.trans k1
  obtain ⟨-, -, i3⟩ := (mechanicalStep_initial U F cx.mech0).2.2.2 nr
  rw [← k2] at i3
  have hN : ∀ v q, s.grid.At v q → v < s.grid.vertices.length ∧ v < N := by
    intro v q hv
    have h1 : v < s.grid.points.length := (List.getElem?_eq_some_iff.1 hv).1
    exact ⟨hlen ▸ h1, by rw [← U.num]; exact h1⟩
  have hC1 : a.yData.HoldsC1 s.grid identityY := by
    refine ⟨Ha, fun k => ⟨_, NdArray.block_eq Ha k.isLt, fun v q hv => ?_⟩⟩
    obtain ⟨l1, l2⟩ := hN v q hv
    rw [List.getElem?_map, List.getElem?_range l1]
    simp only [Option.map_some, Option.some.injEq]
    have hx := i3 v l2
    rw [xy_of_at hv] at hx
    fin_cases k
    · refine List.ext_getElem (by simp [nodalData]) fun j j1 j2 => ?_
      have j1' : j < 6 := by simpa using j1
      have := (hx j j1').1
      simp only [List.getElem_map, List.getElem_range]
      rw [this]
      interval_cases j <;> rfl
    · refine List.ext_getElem (by simp [nodalData]) fun j j1 j2 => ?_
      have j1' : j < 6 := by simpa using j1
      have := (hx j j1').2
      simp only [List.getElem_map, List.getElem_range]
      rw [this]
      interval_cases j <;> rfl
  obtain ⟨J, h1, h2⟩ := C h h0 hlt solver ext s hs a b p ha hb hp (by simpa using hopt) hC1
    (fun v q hv => by
      rw [hth]
      have hWR : (energyGrid s.grid s.refined).WellFormed := by rw [e]; exact GR.wellFormed
      have : v < (energyGrid s.grid s.refined).vertices.length := by
        rw [hWR.vertices, List.length_range]
        exact (List.getElem?_eq_some_iff.1 hv).1
      simp [List.getElem?_replicate, this])
    (fun v hv q hq => by
      obtain ⟨ed, hed, hve⟩ := ((C14_dirichlet_vertices h0 cx.setup.width cx.setup.height hg).2.2 v).1 hv
      have : onSegment (s.grid.xy ed.1) (s.grid.xy ed.2) q := by
        rcases hve with rfl | rfl
        · exact ⟨1, by norm_num, le_rfl, by rw [xy_of_at hq]; simp [edgePoint]⟩
        · exact ⟨0, le_rfl, by norm_num, by rw [xy_of_at hq]; simp [edgePoint]⟩
      have := hid ed hed q this
      rw [Fin.forall_fin_two]
      exact this) hid
  exact ⟨J, by simpa using h1, h2⟩

/-! ### concrete cases -/

/-- a square fixed at its left side -/
noncomputable def leftDomain : RectDomain ℝ := ⟨1, 1, .one .left⟩

theorem left_fixed {it : SetIter} {h : ℝ} (h0 : 0 < h) (h1 : h ≤ 1) {g : Grid ℝ} (hg : leftDomain.grid it h = .ok g) {v : Vertex}
    (hv : v ∈ g.dirichlet.vertices) {q : ℝ × ℝ} (hq : g.At v q) : q.1 = 0 := by
  obtain ⟨q', hq', f, hf, ho⟩ := ((C14_dirichlet_vertices h0 h1 h1 hg).2.1 v).1 hv
  have e : f = .left := by simpa [leftDomain, Fix.options] using hf
  rw [e] at ho
  have : q = q' := by rw [← xy_of_at hq, xy_of_at hq']
  rw [this]
  exact ho

/-- optimal simulations on the square at all scales -/
theorem left_optimal {params : SimParams} {h : ℝ} (S : Setup leftDomain { params with scale := h }) (hf : 0 < params.fps) (it : SetIter) :
    ∃ (solver : Solver) (s : Sim) (a b : Step) (p : Problem),
      s.Healthy solver leftDomain { params with scale := h } (fun _ => .ok 1) (fun _ a b => .ok [a, b]) ∧
      s.steps[0]? = some a ∧ s.steps[1]? = some b ∧ s.calls[0]? = some p ∧ p.IsOptimal midLeg (solver [] p) ∧
      leftDomain.grid it h = .ok s.grid := by
  obtain ⟨solver, -, -, h3, h4, h5, -, h7⟩ := C78_optimal_solver midLeg (gauss_new_ok (lg := midLeg) (n := 1) (P := [0]) (W := [2]) rfl)
  obtain ⟨s, hs⟩ := C55_usable_partial S hf h5 it (ext := fun _ => .ok 1) (traction := fun _ a b => .ok [a, b]) fun _ =>
    ⟨fun _ a b => ⟨a, b, rfl⟩, fun _ => ⟨1, by norm_num, rfl⟩⟩
  have hh := Sim.Healthy.new S hs
  have l1 := C60_new S hs
  have l2 := C61_calls hh
  have l3 : 0 < s.calls.length := by omega
  refine ⟨solver, s, s.steps[0], s.steps[1], s.calls[0], hh, by simp, by simp, by simp, ?_, ?_⟩
  · simpa using h7 hh.reachable 0 s.calls[0] (by simp)
  · obtain ⟨m, t, step0, step1, r1, r2, -, c⟩ := Sim.of_new S hs
    exact c.grid

/-- Without regularization: at all sufficiently small scales there are simulations whose first step competes, up to `1/100`, with the
stretch `(x + x² / 10, y)`. -/
example : ∃ L δ : ℝ, 0 < δ ∧ ∀ h, 0 < h → h < δ → ∀ it : SetIter, ∃ (solver : Solver) (s : Sim) (a b : Step) (J : ℝ),
    s.Healthy solver leftDomain { exampleParams with scale := h } (fun _ => .ok 1) (fun _ a b => .ok [a, b]) ∧
    s.steps[0]? = some a ∧ s.steps[1]? = some b ∧
    IsMechObjective midLeg exampleParams (fun _ a b => .ok [a, b]) s.grid s.refined 0 a.yData b.yData a.thetaData J ∧ J ≤ L + 1 / 100 := by
  have hw : 0 < leftDomain.width := by norm_num [leftDomain]
  have hh : 0 < leftDomain.height := by norm_num [leftDomain]
  obtain ⟨δ, hδ, c⟩ := C107_first leftDomain hw hh midLeg_sound (traction := fun _ a b => .ok [a, b]) (params := exampleParams) rfl
    (Y := caseY) (T := id) (F := caseF) (fun z _ => caseY_deriv z) (caseF_continuous _) (fun z hz => caseF_det hz) continuousOn_id
    (fun z _ => rfl) (fun z hz => totalElastic_value (caseF_det hz) _) (fun z _ => C51_value _ _)
    (fun z hz => by
      obtain ⟨⟨z1, -⟩, z2, -⟩ := hz
      have z1 : 0 ≤ z.1 := z1
      have z2 : z.1 ≤ 1 := z2
      simp only [caseY, exampleParams, sub_self, abs_zero, add_sub_cancel_left]
      refine ⟨?_, by norm_num⟩
      rw [abs_of_nonneg (by positivity)]
      nlinarith) (ε := 1 / 100) (by norm_num)
  apply Exists.intro
  refine ⟨min δ 1, by positivity, fun h h0 hlt it => ?_⟩
  rw [lt_min_iff] at hlt
  have S : Setup leftDomain { exampleParams with scale := h } :=
    { valid := ⟨1, 1 / 8, 3, h, none, none, (C55_validation_partial _ _ _ _ _ _).1
        ⟨by norm_num, by norm_num, by norm_num, h0, by simp, by simp, by simp⟩⟩
      width := hlt.2.le
      height := hlt.2.le
      fine := by intro n h; cases h }
  obtain ⟨solver, s, a, b, p, x1, x2, x3, x4, x5, x6⟩ := left_optimal S (by norm_num [exampleParams]) it
  obtain ⟨J, j1, j2⟩ := c h h0 hlt.1 solver _ s x1 a b p x2 x3 x4 x5 fun v hv q hq => by
    have := left_fixed h0 hlt.2.le x6 hv hq
    ext <;> simp [caseY, this]
  exact ⟨solver, s, a, b, J, x1, x2, x3, j1, j2⟩

/-- With regularization: at all sufficiently small scales, as long as they are large enough for the refinement, there are simulations
whose first step competes, up to `1/100`, with the stretch `(x + x² / 16, y)`. -/
example : ∃ L δ : ℝ, 0 < δ ∧ ∀ h, 1 / 10 ^ 14 ≤ h → h < δ → ∀ it : SetIter, ∃ (solver : Solver) (s : Sim) (a b : Step) (J : ℝ),
    s.Healthy solver leftDomain { exampleParamsReg with scale := h } (fun _ => .ok 1) (fun _ a b => .ok [a, b]) ∧
    s.steps[0]? = some a ∧ s.steps[1]? = some b ∧
    IsMechObjective midLeg exampleParamsReg (fun _ a b => .ok [a, b]) s.grid s.refined 0 a.yData b.yData a.thetaData J ∧
    J ≤ L + 1 / 100 := by
  have hw : 0 < leftDomain.width := by norm_num [leftDomain]
  have hh : 0 < leftDomain.height := by norm_num [leftDomain]
  have hd : ∀ z ∈ Set.Icc ((0 : ℝ), (0 : ℝ)) (leftDomain.width, leftDomain.height), 0 < (gradOf (stretchY 1 (1 / 16)) z).det :=
    fun z hz => stretch_det one_pos (by norm_num) hz.1.1
  obtain ⟨rule, -, -, -, c⟩ := C107_first_regularized leftDomain hw hh
    (gauss_new_ok (lg := midLeg) (n := 1) (P := [0]) (W := [2]) rfl) (params := exampleParamsReg) (c := 1 / 10) rfl
    (fun _ a b => .ok [a, b]) (Y := stretchY 1 (1 / 16)) (fun k => stretch_partials _ _ _ k)
    (fun k i j h => by rw [stretch_second _ _ _ h]; exact continuousOn_const) hd
    (fun z hz => totalElastic_value (hd z hz) _) (fun z _ => C51_value _ _)
    (fun z hz k i j hij => by
      obtain ⟨⟨z1, -⟩, z2, -⟩ := hz
      have z1 : 0 ≤ z.1 := z1
      have z2 : z.1 ≤ 1 := z2
      have hi : i ≤ 2 := by omega
      have hj : j ≤ 2 := by omega
      interval_cases i <;> interval_cases j <;> fin_cases k <;> simp [stretchY, identityY, exampleParamsReg] at * <;>
        first
          | (norm_num; done)
          | nlinarith
          | (rw [abs_of_nonneg (by positivity)]; nlinarith)
          | (rw [abs_of_nonneg (by positivity)]; linarith))
  obtain ⟨δ, hδ, c⟩ := c (1 / 100) (by norm_num)
  apply Exists.intro
  refine ⟨min δ 1, by positivity, fun h h0' hlt it => ?_⟩
  have h0 : 0 < h := lt_of_lt_of_le (by norm_num) h0'
  rw [lt_min_iff] at hlt
  have S : Setup leftDomain { exampleParamsReg with scale := h } :=
    { valid := ⟨1, 1 / 8, 3, h, some (1 / 10), some 2, (C55_validation_partial _ _ _ _ _ _).1
        ⟨by norm_num, by norm_num, by norm_num, h0, by rintro x ⟨⟩; norm_num, by rintro x ⟨⟩; norm_num, by simp⟩⟩
      width := hlt.2.le
      height := hlt.2.le
      fine := by
        rintro n ⟨⟩
        show 1 / 10 ^ 15 ≤ h / ((2 : ℤ) : ℝ) / 5
        push_cast
        linarith }
  obtain ⟨solver, s, a, b, p, x1, x2, x3, x4, x5, x6⟩ := left_optimal S (by norm_num [exampleParamsReg]) it
  obtain ⟨J, j1, j2⟩ := c h h0 hlt.1 solver _ s x1 a b p x2 x3 x4 x5 fun e he z hz => by
    have G := LibraryGrid.grid (d := leftDomain) h0 hlt.2.le hlt.2.le x6
    have WF := G.wellFormed
    have hend := fun v hv => ((C14_dirichlet_vertices (d := leftDomain) h0 hlt.2.le hlt.2.le x6).2.2 v).2 ⟨e, he, hv⟩
    have hx : ∀ v ∈ s.grid.dirichlet.vertices, (s.grid.xy v).1 = 0 := by
      intro v hv
      have hv' := WF.dirichlet.1 v hv
      rw [WF.vertices, List.mem_range] at hv'
      obtain ⟨q, hq⟩ := WF.planar v hv'
      rw [xy_of_at hq]
      exact left_fixed h0 hlt.2.le x6 hv hq
    obtain ⟨t, -, -, rfl⟩ := hz
    have e1 := hx _ (hend _ (.inl rfl))
    have e2 := hx _ (hend _ (.inr rfl))
    have : (edgePoint (s.grid.xy e.1) (s.grid.xy e.2) t).1 = 0 := by simp [edgePoint, e1, e2]
    simp [stretchY, this]
  exact ⟨solver, s, a, b, J, x1, x2, x3, j1, j2⟩

end Tve
