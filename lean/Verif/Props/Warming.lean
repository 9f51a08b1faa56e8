import Verif.Props.Threshold
import Verif.Props.Pulled

/-!
# C115: the surroundings heat and cool bodies
-/

namespace Tve
open Helpers

theorem internalEnergy_mono {g : Grid ℝ} {refined : Option (RefinedGrid ℝ)} (W : (energyGrid g refined).WellFormed)
    {y0 y θ0 θ : NdArray} {U0 U : ℝ} (hsame : SameStrain g refined y0 y) (hm : ModerateStrain g refined y)
    (h0 : ∀ x ∈ θ0.data, 0 ≤ x)
    (hle : ∀ (i : ℕ) (u v : ℝ), θ0.data[i]? = some u → θ.data[i]? = some v → u ≤ v)
    (hU0 : IsInternalEnergy g refined y0 θ0 U0) (hU : IsInternalEnergy g refined y θ U) : U0 ≤ U := by
  obtain ⟨r, D0, T0, F0, x0, u0, a1, a2, a3, a4, rfl⟩ := hU0
  obtain ⟨r', D, T, F, x, u, b1, b2, b3, b4, rfl⟩ := hU
  cases a1.symm.trans b1
  obtain ⟨D0', D', r', d1, d2, d3, d4⟩ := hsame
  cases a2.symm.trans d1
  cases b2.symm.trans d2
  cases a1.symm.trans d3
  obtain ⟨D', r', m1, m2, m3⟩ := hm
  cases b2.symm.trans m1
  cases a1.symm.trans m2
  obtain ⟨r', k1, Rg⟩ := energyRule_good refined
  cases a1.symm.trans k1
  refine quad_mono Rg fun t ht c hc => ?_
  obtain ⟨p1, p2, p3⟩ := a4 t ht c hc
  obtain ⟨q1, q2, q3⟩ := b4 t ht c hc
  obtain ⟨F', A, M, n1, n2, n3, n4⟩ := m3 t ht c hc
  have e1 : F t c = F' := matOf_inj (Except.ok.inj (q1.symm.trans n1))
  have e0 : F0 t c = F' := matOf_inj (Except.ok.inj (p1.symm.trans ((d4 t ht c hc).trans n1)))
  obtain ⟨V, v1, -, v2⟩ := C84_heat_capacity F' n2 n3
  have hmono := v2.2 n4
  rw [e0, v1] at p3
  rw [e1, v1] at q3
  rw [← Except.ok.inj p3, ← Except.ok.inj q3]
  have l0 := (P1_of a3).1
  have l1 := (P1_of b3).1
  have hin := Rg.inside c hc
  rw [temp_call W a3 t ht c] at p2
  rw [temp_call W b3 t ht c] at q2
  have p2 := Except.ok.inj p2
  have q2 := Except.ok.inj q2
  obtain ⟨v1', v2', v3'⟩ := WF.valid W ht
  have hn : (energyGrid g refined).points.length = θ0.data.length := by rw [l0, W.vertices, List.length_range]
  have hn1 : (energyGrid g refined).points.length = θ.data.length := by rw [l1, W.vertices, List.length_range]
  have key : ∀ v, v < (energyGrid g refined).points.length → 0 ≤ θ0.data.getD v 0 ∧ θ0.data.getD v 0 ≤ θ.data.getD v 0 := by
    intro v hv
    have w0 := List.getElem?_eq_getElem (hn ▸ hv)
    have w1 := List.getElem?_eq_getElem (hn1 ▸ hv)
    simp only [List.getD_eq_getElem?_getD, w0, w1, Option.getD_some]
    exact ⟨h0 _ (List.getElem_mem _), hle v _ _ w0 w1⟩
  obtain ⟨k1, k2⟩ := key _ v1'
  obtain ⟨k3, k4⟩ := key _ v2'
  obtain ⟨k5, k6⟩ := key _ v3'
  obtain ⟨hnorm, i1, i2, i3⟩ := hin
  have hx0 : 0 ≤ x0 t c := by rw [← p2]; positivity
  have hx : x0 t c ≤ x t c := by rw [← p2, ← q2]; gcongr
  exact hmono.monotoneOn hx0 (hx0.trans hx) hx

theorem internalEnergy_lt {g : Grid ℝ} {refined : Option (RefinedGrid ℝ)} (E : Energetic g refined)
    {y0 y θ0 θ : NdArray} {U0 U : ℝ} (hsame : SameStrain g refined y0 y) (hm : ModerateStrain g refined y)
    (h0 : ∀ x ∈ θ0.data, 0 ≤ x)
    (hle : ∀ (i : ℕ) (u v : ℝ), θ0.data[i]? = some u → θ.data[i]? = some v → u < v)
    (hU0 : IsInternalEnergy g refined y0 θ0 U0) (hU : IsInternalEnergy g refined y θ U) : U0 < U := by
  have W := E.wf
  obtain ⟨nx, ny, sc, L⟩ := E.lib
  obtain ⟨g1, g2, g3, g4, g5, -, g6, -⟩ := C22_structure L
  obtain ⟨r, D0, T0, F0, x0, u0, a1, a2, a3, a4, rfl⟩ := hU0
  obtain ⟨r', D, T, F, x, u, b1, b2, b3, b4, rfl⟩ := hU
  cases a1.symm.trans b1
  obtain ⟨D0', D', r', d1, d2, d3, d4⟩ := hsame
  cases a2.symm.trans d1
  cases b2.symm.trans d2
  cases a1.symm.trans d3
  obtain ⟨D', r', m1, m2, m3⟩ := hm
  cases b2.symm.trans m1
  cases a1.symm.trans m2
  obtain ⟨r', k1, Rg⟩ := energyRule_good refined
  cases a1.symm.trans k1
  rw [← sub_pos, ← quad_sub]
  refine quad_pos Rg (fun h0 => ?_) (fun t ht => ?_) fun t ht c hc => sub_pos.2 ?_
  · rw [h0] at g6
    have : 0 < nx * ny := Nat.mul_pos g2 g3
    simp at g6
    omega
  · rw [library_area L ht]
    positivity
  obtain ⟨p1, p2, p3⟩ := a4 t ht c hc
  obtain ⟨q1, q2, q3⟩ := b4 t ht c hc
  obtain ⟨F', A, M, n1, n2, n3, n4⟩ := m3 t ht c hc
  have e1 : F t c = F' := matOf_inj (Except.ok.inj (q1.symm.trans n1))
  have e0 : F0 t c = F' := matOf_inj (Except.ok.inj (p1.symm.trans ((d4 t ht c hc).trans n1)))
  obtain ⟨V, v1, -, v2⟩ := C84_heat_capacity F' n2 n3
  have hmono := v2.2 n4
  rw [e0, v1] at p3
  rw [e1, v1] at q3
  rw [← Except.ok.inj p3, ← Except.ok.inj q3]
  have l0 := (P1_of a3).1
  have l1 := (P1_of b3).1
  have hin := Rg.inside c hc
  rw [temp_call W a3 t ht c] at p2
  rw [temp_call W b3 t ht c] at q2
  have p2 := Except.ok.inj p2
  have q2 := Except.ok.inj q2
  obtain ⟨v1', v2', v3'⟩ := WF.valid W ht
  have hn : (energyGrid g refined).points.length = θ0.data.length := by rw [l0, W.vertices, List.length_range]
  have hn1 : (energyGrid g refined).points.length = θ.data.length := by rw [l1, W.vertices, List.length_range]
  have key : ∀ v, v < (energyGrid g refined).points.length → 0 ≤ θ0.data.getD v 0 ∧ θ0.data.getD v 0 < θ.data.getD v 0 := by
    intro v hv
    have w0 := List.getElem?_eq_getElem (hn ▸ hv)
    have w1 := List.getElem?_eq_getElem (hn1 ▸ hv)
    simp only [List.getD_eq_getElem?_getD, w0, w1, Option.getD_some]
    exact ⟨h0 _ (List.getElem_mem _), hle v _ _ w0 w1⟩
  obtain ⟨k1, k2⟩ := key _ v1'
  obtain ⟨k3, k4⟩ := key _ v2'
  obtain ⟨k5, k6⟩ := key _ v3'
  obtain ⟨hnorm, i1, i2, i3⟩ := hin
  have hx0 : 0 ≤ x0 t c := by rw [← p2]; positivity
  have hx : x0 t c < x t c := by
    rw [← p2, ← q2]
    have m1 := mul_nonneg i1 (sub_nonneg.2 k2.le)
    have m2 := mul_nonneg i2 (sub_nonneg.2 k4.le)
    have m3 := mul_nonneg i3 (sub_nonneg.2 k6.le)
    have hs : c.l1 + c.l2 + c.l3 = 1 := hnorm
    by_contra hcon
    push Not at hcon
    have e1 : c.l1 * (θ.data.getD t.1 0 - θ0.data.getD t.1 0) = 0 := by linarith
    have e2 : c.l2 * (θ.data.getD t.2.1 0 - θ0.data.getD t.2.1 0) = 0 := by linarith
    have e3 : c.l3 * (θ.data.getD t.2.2 0 - θ0.data.getD t.2.2 0) = 0 := by linarith
    have z1 := (mul_eq_zero.1 e1).resolve_right (sub_pos.2 k2).ne'
    have z2 := (mul_eq_zero.1 e2).resolve_right (sub_pos.2 k4).ne'
    have z3 := (mul_eq_zero.1 e3).resolve_right (sub_pos.2 k6).ne'
    rw [z1, z2, z3] at hs
    norm_num at hs
  exact hmono hx0 (hx0.trans hx.le) hx

section
variable {solver : Solver} {domain : RectDomain ℝ} {params : SimParams} {ext : ExtTemp} {traction : Traction} {s : Sim}
  {leg : LegGauss} {q : GaussRule ℝ}

/-- the heat balance with a constant test function -/
theorem IsHeatBalance.total_const (E : Energetic s.grid s.refined)
    (hnone : params.regularization = none → s.refined = none) {κ R time d : ℝ}
    {y0 y θ0 θ : NdArray} (h : IsHeatBalance κ leg params ext s.grid s.refined time y0 y θ0 θ
      (NdArray.of1 ((energyGrid s.grid s.refined).vertices.map fun _ => d)) R) :
    ∃ U0 U Q B, IsInternalEnergy s.grid s.refined y0 θ0 U0 ∧ IsInternalEnergy s.grid s.refined y θ U ∧
      IsHeatProduction params.fps s.grid s.refined y0 y θ0 Q ∧ IsHeatLoss leg params ext s.grid time θ B ∧
      d * (params.fps * (U - U0)) = d * (Q - B) + R := by
  obtain ⟨r, F0, F, K, x0, x, z, qq, u, u0, G, H, b, a1, a2, a3, a4, a5, a6, rfl⟩ := h
  obtain ⟨r', k1, Rg⟩ := energyRule_good s.refined
  cases a1.symm.trans k1
  obtain ⟨Z, z1, z2⟩ := a4
  obtain ⟨D0, D, T0, c1, c2, c3, c4⟩ := id a2
  obtain ⟨T, t1, t2⟩ := a3
  have hz : ∀ t ∈ (energyGrid s.grid s.refined).triangles, ∀ c ∈ r.points, z t c = d ∧ H t c = ![0, 0] := by
    intro t ht c hc
    obtain ⟨e1, e2⟩ := z2 t ht c hc
    obtain ⟨f1, f2⟩ := E.const_field (c := d) z1 (by
      intro x hx
      obtain ⟨v, -, rfl⟩ := List.mem_map.1 hx
      rfl) ht (Rg.inside c hc).1
    exact ⟨Except.ok.inj (e1.symm.trans f1), vecOf_inj (Except.ok.inj (e2.symm.trans f2))⟩
  have hbound : ∃ B, IsHeatLoss leg params ext s.grid time θ B ∧ b = d * B := by
    by_cases hn : params.regularization = none
    · obtain ⟨q, e, f1, f2, f3⟩ := a6.1 hn
      refine ⟨_, ⟨fun _ => ⟨q, e, f1, f2, rfl⟩, fun h => absurd hn h⟩, ?_⟩
      have W := E.wf
      rw [hnone hn] at W f3
      have key : ∀ v ∈ s.grid.vertices, ((energyGrid s.grid none).vertices.map fun _ => d).getD v 0 = d := by
        intro v hv
        have hv' : v ∈ (energyGrid s.grid none).vertices := hv
        rw [W.vertices, List.mem_range] at hv'
        have : v < (energyGrid s.grid none).vertices.length := by rw [W.vertices, List.length_range]; exact hv'
        simp [List.getD_eq_getElem?_getD, this]
      rw [f3, Grid.edgeQuad, Grid.edgeQuad, ← List.sum_map_mul_left]
      congr 1
      refine List.map_congr_left fun ed hed => ?_
      obtain ⟨v1, v2⟩ := W.edges ed (W.boundary.2 ed hed)
      have hval : ∀ f f' : ℝ → ℝ, (∀ x, f x = d * f' x) → q.value f = d * q.value f' := by
        intro f f' hf
        rw [GaussRule.value, GaussRule.value, ← List.sum_map_mul_left]
        congr 1
        refine List.map_congr_left fun bw _ => ?_
        rw [hf]
        ring
      rw [mul_left_comm]
      congr 1
      refine hval _ _ fun x => ?_
      rw [show (NdArray.of1 ((energyGrid s.grid none).vertices.map fun _ => d)).data =
        (energyGrid s.grid none).vertices.map fun _ => d from rfl, key _ v1, key _ v2]
      ring
    · exact ⟨0, ⟨fun h => absurd h hn, fun _ => rfl⟩, by rw [a6.2 hn, mul_zero]⟩
  obtain ⟨B, hB, hb⟩ := hbound
  refine ⟨_, _, _, B, ⟨r, D0, T0, F0, x0, u0, a1, c1, c3, fun t ht c hc => ?_, rfl⟩,
    ⟨r, D, T, F, x, u, a1, c2, t1, fun t ht c hc => ?_, rfl⟩,
    ⟨r, F0, F, K, x0, qq, a1, a2, fun t ht c hc => (a5 t ht c hc).1, rfl⟩, hB, ?_⟩
  · exact ⟨(c4 t ht c hc).1, (c4 t ht c hc).2.2, (a5 t ht c hc).2.2⟩
  · exact ⟨(c4 t ht c hc).2.1, (t2 t ht c hc).1, (a5 t ht c hc).2.1⟩
  · rw [quad_congr (F := fun t p => (u t p - u0 t p) / (1 / params.fps) * z t p)
        (F' := fun t p => (d * params.fps) * (u t p - u0 t p)) (fun t ht c hc => by
          rw [(hz t ht c hc).1, one_div, div_inv_eq_mul]; ring),
      quad_congr (F := fun t p => qq t p * z t p) (F' := fun t p => d * qq t p) (fun t ht c hc => by rw [(hz t ht c hc).1, mul_comm]),
      quad_zero (F := fun t p => G t p ⬝ᵥ (κ • K t p).mulVec (H t p)) Rg (fun t ht c hc => by
        rw [(hz t ht c hc).2]
        have : (![0, 0] : Fin 2 → ℝ) = 0 := by ext i; fin_cases i <;> rfl
        rw [this, Matrix.mulVec_zero, dotProduct_zero]), quad_mul, quad_mul, quad_sub, hb]
    ring

/-- heat flows in if all temperatures are below the external one, and out if all are above -/
theorem IsHeatLoss.sign {it : SetIter} {g : Grid ℝ} {h : ℝ} (h0 : 0 < h) (hw : h ≤ domain.width) (hh : h ≤ domain.height)
    (hg : domain.grid it h = .ok g) (hleg : LegMidpoint leg) (hreg : params.regularization = none) {time e B : ℝ} {θ : NdArray}
    (hl : θ.data.length = g.vertices.length) (he : ext time = .ok e) (hB : IsHeatLoss leg params ext g time θ B) :
    ((∀ x ∈ θ.data, x < e) → B < 0) ∧ ((∀ x ∈ θ.data, e < x) → 0 < B) := by
  have W := C09_indices_valid (h0.le.trans hw) (h0.le.trans hh) h0 hg
  obtain ⟨r, e', h1, h2, rfl⟩ := hB.1 hreg
  cases h2.symm.trans he
  cases h1.symm.trans (midpoint_rule hleg)
  have hc : (0 : ℝ) < transferCoeff := by norm_num [transferCoeff]
  have hmem : ∀ v ∈ g.vertices, θ.data.getD v 0 ∈ θ.data := by
    intro v hv
    rw [W.vertices, List.mem_range] at hv
    rw [W.vertices, List.length_range] at hl
    rw [List.getD_eq_getElem?_getD, List.getElem?_eq_getElem (by omega), Option.getD_some]
    exact List.getElem_mem _
  obtain ⟨e0, he0⟩ : ∃ e0, e0 ∈ g.boundary.edges := by
    have hP := (C10_points (h0.le.trans hw) (h0.le.trans hh) h0 hg 0 (0, 0)).2 ⟨0, 0, by simp, by simp, by simp, by simp⟩
    obtain ⟨e0, he0, -⟩ := ((C12_boundary_vertices h0 hw hh hg).2.2 0).1 (((C12_boundary_vertices h0 hw hh hg).2.1 0).2 ⟨_, hP, .inl rfl⟩)
    exact ⟨e0, he0⟩
  have hv : ∀ e ∈ g.boundary.edges, θ.data.getD e.1 0 ∈ θ.data ∧ θ.data.getD e.2 0 ∈ θ.data := fun e he =>
    ⟨hmem _ (W.edges e (W.boundary.2 e he)).1, hmem _ (W.edges e (W.boundary.2 e he)).2⟩
  have hval : ∀ ed : Edge, edgeLen g.xy ed * GaussRule.value ⟨[1 / 2], [1]⟩ (fun s =>
      transferCoeff * (s * θ.data.getD ed.1 0 + (1 - s) * θ.data.getD ed.2 0 - e)) =
      edgeLen g.xy ed * (transferCoeff * (1 / 2 * θ.data.getD ed.1 0 + (1 - 1 / 2) * θ.data.getD ed.2 0 - e)) := by
    intro ed
    rw [midpoint_value]
  have hpos : ∀ f : Edge → ℝ, (∀ ed ∈ g.boundary.edges, 0 < f ed) → 0 < (g.boundary.edges.map f).sum := by
    intro f hf
    refine lt_of_lt_of_le (hf e0 he0) (List.single_le_sum (fun x hx => ?_) _ (List.mem_map.2 ⟨e0, he0, rfl⟩))
    obtain ⟨ed, hed, rfl⟩ := List.mem_map.1 hx
    exact (hf ed hed).le
  rw [Grid.edgeQuad, List.map_congr_left fun ed _ => hval ed]
  constructor
  · intro hlt
    have := hpos (fun ed => (-1) * (edgeLen g.xy ed *
        (transferCoeff * (1 / 2 * θ.data.getD ed.1 0 + (1 - 1 / 2) * θ.data.getD ed.2 0 - e)))) fun ed hed => by
      have h1 := hlt _ (hv ed hed).1
      have h2 := hlt _ (hv ed hed).2
      have h3 := mul_pos (boundary_edge_pos h0 hw hh hg hed)
        (mul_pos hc (show 0 < e - (1 / 2 * θ.data.getD ed.1 0 + (1 - 1 / 2) * θ.data.getD ed.2 0) by linarith))
      linarith
    rw [List.sum_map_mul_left] at this
    linarith
  · intro hgt
    refine hpos _ fun ed hed => ?_
    have h1 := hgt _ (hv ed hed).1
    have h2 := hgt _ (hv ed hed).2
    exact mul_pos (boundary_edge_pos h0 hw hh hg hed) (mul_pos hc (by linarith))

theorem SameStrain.symm {g : Grid ℝ} {refined : Option (RefinedGrid ℝ)} {y0 y : NdArray} (h : SameStrain g refined y0 y) :
    SameStrain g refined y y0 := by
  obtain ⟨D0, D, r, a1, a2, a3, a4⟩ := h
  exact ⟨D, D0, r, a2, a1, a3, fun t ht b hb => (a4 t ht b hb).symm⟩

theorem ModerateStrain.of_same {g : Grid ℝ} {refined : Option (RefinedGrid ℝ)} {y0 y : NdArray} (h : SameStrain g refined y0 y)
    (hm : ModerateStrain g refined y) : ModerateStrain g refined y0 := by
  obtain ⟨D0, D, r, a1, a2, a3, a4⟩ := h
  obtain ⟨D', r', b1, b2, b3⟩ := hm
  cases a2.symm.trans b1
  cases a3.symm.trans b2
  exact ⟨D0, r, a1, a3, fun t ht c hc => by rw [a4 t ht c hc]; exact b3 t ht c hc⟩

theorem IsInternalEnergy.length {g : Grid ℝ} {refined : Option (RefinedGrid ℝ)} {y θ : NdArray} {U : ℝ}
    (h : IsInternalEnergy g refined y θ U) (hr : refined = none) : θ.data.length = g.vertices.length := by
  subst hr
  obtain ⟨r, D, T, F, x, u, a1, a2, a3, a4, rfl⟩ := h
  exact (P1_of a3).1

/-- **C115** (warming). Without regularization, if the body does not move in a step (the strains at the quadrature points do not change and
are moderate), all its temperatures are below the external temperature at the time of the step, and the thermal problem is answered
optimally, then some temperature rises. -/
theorem C115_warms (hs : s.Healthy solver domain params ext traction) (hleg : LegMidpoint leg) (hn : solver.RespectsDomain)
    (hreg : params.regularization = none) {k : ℕ} {a b : Step} (ha : s.steps[k]? = some a) (hb : s.steps[k + 1]? = some b)
    (oa : Oriented s.grid s.refined a.yData) (hm : ModerateStrain s.grid s.refined b.yData)
    (hsame : SameStrain s.grid s.refined a.yData b.yData) {p : Problem} (hp : s.calls[2 * k + 1]? = some p)
    (hopt : p.IsOptimal leg (solver (s.calls.take (2 * k + 1)) p)) {e : ℝ} (he : ext (k / params.fps) = .ok e)
    (hlt : ∀ x ∈ a.thetaData.data, x < e) :
    ∃ (i : ℕ) (u v : ℝ), a.thetaData.data[i]? = some u ∧ b.thetaData.data[i]? = some v ∧ u < v := by
  obtain ⟨m0, t0, c⟩ := hs.reachable.context
  obtain ⟨it, hg⟩ := c.grid
  have hrad : 0 < params.searchRadius := c.setup.facts.2.1
  by_contra hcon
  push Not at hcon
  have hle : ∀ (i : ℕ) (u v : ℝ), b.thetaData.data[i]? = some u → a.thetaData.data[i]? = some v → u ≤ v := fun i u v h1 h2 => hcon i v u h2 h1
  have hAl := (c.has a (List.mem_of_getElem? ha)).2
  have hBl := (c.has b (List.mem_of_getElem? hb)).2
  have hlen : a.thetaData.data.length = b.thetaData.data.length := has_length hAl hBl
  obtain ⟨U0, U, Q, B, h1, h2, h3, h4, h5⟩ := C98_at_least hs (midpoint_rule hleg) ha hb oa hm.oriented hp hopt
    (List.forall₂_iff_get.2 ⟨hlen, fun i h1 h2 => by
      have := hcon i _ _ (List.getElem?_eq_getElem h1) (List.getElem?_eq_getElem h2)
      simp only [List.get_eq_getElem]
      linarith⟩)
  rw [h3.rest hs.fps_pos hsame] at h5
  have hB : B < 0 := by
    refine (h4.sign c.setup.facts.2.2.2.1 c.setup.width c.setup.height hg hleg hreg (h2.length (hs.grids.2 hreg)) he).1 fun x hx => ?_
    obtain ⟨i, hi, rfl⟩ := List.mem_iff_getElem.1 hx
    have := hcon i _ _ (List.getElem?_eq_getElem (hlen ▸ hi)) (List.getElem?_eq_getElem hi)
    exact this.trans_lt (hlt _ (List.getElem_mem _))
  have hU := internalEnergy_mono hs.grids.1.wf hsame.symm (hm.of_same hsame)
    (fun x hx => C59_nonneg hs.reachable hn (List.mem_of_getElem? hb) hx) hle h2 h1
  have := mul_nonneg hs.fps_pos.le (sub_nonneg.2 hU)
  linarith

/-- **C115** (cooling). Without regularization, if the body does not move in a step (the strains at the quadrature points do not change
and are moderate), all its temperatures are above the external temperature (which is not negative), and the thermal problem is answered
optimally, then some temperature falls. -/
theorem C115_cools (hs : s.Healthy solver domain params ext traction) (hleg : LegMidpoint leg) (hn : solver.RespectsDomain)
    (hreg : params.regularization = none) {k : ℕ} {a b : Step} (ha : s.steps[k]? = some a) (hb : s.steps[k + 1]? = some b)
    (oa : Oriented s.grid s.refined a.yData) (hm : ModerateStrain s.grid s.refined b.yData)
    (hsame : SameStrain s.grid s.refined a.yData b.yData) {p : Problem} (hp : s.calls[2 * k + 1]? = some p)
    (hopt : p.IsOptimal leg (solver (s.calls.take (2 * k + 1)) p)) {e : ℝ} (he : ext (k / params.fps) = .ok e) (he0 : 0 ≤ e)
    (hlt : ∀ x ∈ a.thetaData.data, e < x) :
    ∃ (i : ℕ) (u v : ℝ), a.thetaData.data[i]? = some u ∧ b.thetaData.data[i]? = some v ∧ v < u := by
  obtain ⟨m0, t0, c⟩ := hs.reachable.context
  obtain ⟨it, hg⟩ := c.grid
  have hrad : 0 < params.searchRadius := c.setup.facts.2.1
  by_contra hcon
  push Not at hcon
  have hAl := (c.has a (List.mem_of_getElem? ha)).2
  have hBl := (c.has b (List.mem_of_getElem? hb)).2
  have hlen : a.thetaData.data.length = b.thetaData.data.length := has_length hAl hBl
  obtain ⟨R, hR, hbal⟩ := C98_variational hs (midpoint_rule hleg) ha hb oa hm.oriented hp hopt (η := fun _ => -1)
    (fun i u v hu hv => ⟨fun h => by norm_num at h, fun _ => by
      have h1 := hcon i u v hu hv
      have h2 := hlt u (List.mem_of_getElem? hu)
      exact ⟨by linarith, by linarith⟩⟩)
  obtain ⟨U0, U, Q, B, h1, h2, h3, h4, h5⟩ := hbal.total_const hs.grids.1 hs.grids.2
  rw [h3.rest hs.fps_pos hsame] at h5
  have hB : 0 < B := by
    refine (h4.sign c.setup.facts.2.2.2.1 c.setup.width c.setup.height hg hleg hreg (h2.length (hs.grids.2 hreg)) he).2 fun x hx => ?_
    obtain ⟨i, hi, rfl⟩ := List.mem_iff_getElem.1 hx
    have := hcon i _ _ (List.getElem?_eq_getElem (hlen ▸ hi)) (List.getElem?_eq_getElem hi)
    exact (hlt _ (List.getElem_mem _)).trans_le this
  have hU := internalEnergy_mono hs.grids.1.wf hsame hm
    (fun x hx => C59_nonneg hs.reachable hn (List.mem_of_getElem? ha) hx) hcon h1 h2
  have := mul_nonneg hs.fps_pos.le (sub_nonneg.2 hU)
  linarith

/-- **C115** (equilibrium). If the body does not move in a step (its strains do not change and are moderate) and has the same
temperature everywhere, then without regularization the temperatures change exactly if the external temperature is another one. -/
theorem C115_equilibrium (hs : s.Healthy solver domain params ext traction) (hleg : LegMidpoint leg) (hd : solver.Decreases leg)
    (hn : solver.RespectsDomain) (hreg : params.regularization = none) {k : ℕ} {a b : Step} (ha : s.steps[k]? = some a)
    (hb : s.steps[k + 1]? = some b) (oa : Oriented s.grid s.refined a.yData) (hm : ModerateStrain s.grid s.refined b.yData)
    (hsame : SameStrain s.grid s.refined a.yData b.yData) {p : Problem} (hp : s.calls[2 * k + 1]? = some p)
    (hopt : p.IsOptimal leg (solver (s.calls.take (2 * k + 1)) p)) {c e : ℝ} (he : ext (k / params.fps) = .ok e) (he0 : 0 ≤ e)
    (hc : ∀ x ∈ a.thetaData.data, x = c) : b.thetaData.data = a.thetaData.data ↔ e = c := by
  constructor
  · intro h
    by_contra hne
    rcases lt_or_gt_of_ne hne with hlt | hlt
    · obtain ⟨i, u, v, h1, h2, h3⟩ := C115_cools hs hleg hn hreg ha hb oa hm hsame hp hopt he he0 (fun x hx => by rw [hc x hx]; exact hlt)
      rw [h, h1] at h2
      cases h2
      exact h3.ne rfl
    · obtain ⟨i, u, v, h1, h2, h3⟩ := C115_warms hs hleg hn hreg ha hb oa hm hsame hp hopt he (fun x hx => by rw [hc x hx]; exact hlt)
      rw [h, h1] at h2
      cases h2
      exact h3.ne rfl
  · rintro rfl
    exact C97_thermal hs (midpoint_rule hleg) (by simp) hd hn ha hb hm hsame hc fun _ => he

/-- **C115** (insulation). With regularization the body exchanges no heat with its surroundings: if it does not move in a step (the
strains at the quadrature points do not change and are moderate) and the thermal problem is answered optimally, then not all temperatures
rise, and not all temperatures fall. -/
theorem C115_insulated (hs : s.Healthy solver domain params ext traction) (hq : GaussRule.new leg 1 = .ok q) (hn : solver.RespectsDomain)
    (hreg : params.regularization ≠ none) {k : ℕ} {a b : Step} (ha : s.steps[k]? = some a) (hb : s.steps[k + 1]? = some b)
    (oa : Oriented s.grid s.refined a.yData) (hm : ModerateStrain s.grid s.refined b.yData)
    (hsame : SameStrain s.grid s.refined a.yData b.yData) {p : Problem} (hp : s.calls[2 * k + 1]? = some p)
    (hopt : p.IsOptimal leg (solver (s.calls.take (2 * k + 1)) p)) :
    ¬ (∀ (i : ℕ) (u v : ℝ), a.thetaData.data[i]? = some u → b.thetaData.data[i]? = some v → u < v) ∧
    ¬ (∀ (i : ℕ) (u v : ℝ), a.thetaData.data[i]? = some u → b.thetaData.data[i]? = some v → v < u) := by
  obtain ⟨m0, t0, c⟩ := hs.reachable.context
  have hrad : 0 < params.searchRadius := c.setup.facts.2.1
  have h0 : ∀ st ∈ s.steps, ∀ x ∈ st.thetaData.data, 0 ≤ x := fun st hst x hx => C59_nonneg hs.reachable hn hst hx
  have hf := hs.fps_pos
  constructor
  · intro hall
    obtain ⟨R, hR, hbal⟩ := C98_variational hs hq ha hb oa hm.oriented hp hopt (η := fun _ => -1)
      (fun i u v hu hv => ⟨fun h => by norm_num at h, fun _ => by
        have h1 := hall i u v hu hv
        have h2 := h0 a (List.mem_of_getElem? ha) u (List.mem_of_getElem? hu)
        exact ⟨by linarith, by linarith⟩⟩)
    obtain ⟨U0, U, Q, B, h1, h2, h3, h4, h5⟩ := hbal.total_const hs.grids.1 hs.grids.2
    rw [h3.rest hs.fps_pos hsame, h4.2 hreg] at h5
    have hU := internalEnergy_lt hs.grids.1 hsame hm (h0 a (List.mem_of_getElem? ha)) hall h1 h2
    have := mul_pos hf (sub_pos.2 hU)
    linarith
  · intro hall
    obtain ⟨R, hR, hbal⟩ := C98_variational hs hq ha hb oa hm.oriented hp hopt (η := fun _ => 1)
      (fun i u v hu hv => ⟨fun _ => by
        have h1 := hall i u v hu hv
        linarith, fun h => absurd h (by norm_num)⟩)
    obtain ⟨U0, U, Q, B, h1, h2, h3, h4, h5⟩ := hbal.total_const hs.grids.1 hs.grids.2
    rw [h3.rest hs.fps_pos hsame, h4.2 hreg] at h5
    have hU := internalEnergy_lt hs.grids.1 hsame.symm (hm.of_same hsame) (h0 b (List.mem_of_getElem? hb))
      (fun i u v hu hv => hall i v u hv hu) h2 h1
    have := mul_pos hf (sub_pos.2 hU)
    linarith

/-- without failures, bodies without traction that are simulated with at least half a step per time never move -/
theorem short_steps_healthy (hs : s.Healthy solver domain params ext traction) (hq : GaussRule.new leg 1 = .ok q)
    (hd : solver.Decreases leg) (hn : solver.RespectsDomain) (hf : 1 ≤ 2 * params.fps)
    (ht : params.regularization = none → ∀ time x y, traction time x y = .ok [0, 0]) {st : Step} (hst : st ∈ s.steps) :
    Undeformed s.grid s.refined st.yData := by
  have key : ∀ (k : ℕ) a, s.steps[k]? = some a → AtRest params s.grid s.refined a.yData := by
    intro k
    induction k with
    | zero => exact fun a ha => (initial_rest hs.reachable ha).1
    | succ k ih =>
      intro b hb
      have hlt := (List.getElem?_eq_some_iff.1 hb).1
      have ha := List.getElem?_eq_getElem (show k < s.steps.length by omega)
      have hr := ih _ ha
      refine C99_stays hs hq hd ha hb hr.1 hr.2 (fun x hx => ?_) fun hr v _ => ht hr _ _ _
      have hx0 := C59_nonneg hs.reachable hn (List.mem_of_getElem? ha) hx
      have : Real.exp (-5 * x) ≤ 1 := Real.exp_le_one_iff.2 (by linarith)
      exact ⟨hx0, _, aust_eq x, by linarith⟩
  obtain ⟨k, hk, rfl⟩ := List.mem_iff_getElem.1 hst
  exact (key k _ (List.getElem?_eq_getElem hk)).1

/-- **C115** (rigid bodies). Bodies without boundary traction that are simulated with steps that are not longer than two seconds do not
move (C113); as long as they are colder than their surroundings every step heats them somewhere, as long as they are warmer every step
cools them somewhere. -/
theorem C115_rigid (hs : s.Healthy solver domain params ext traction) (hleg : LegMidpoint leg)
    (hd : solver.Decreases leg) (hn : solver.RespectsDomain) (hreg : params.regularization = none) (hf : 1 ≤ 2 * params.fps)
    (ht : ∀ time x y, traction time x y = .ok [0, 0]) {k : ℕ} {a b : Step} (ha : s.steps[k]? = some a)
    (hb : s.steps[k + 1]? = some b) {p : Problem} (hp : s.calls[2 * k + 1]? = some p)
    (hopt : p.IsOptimal leg (solver (s.calls.take (2 * k + 1)) p)) {e : ℝ} (he : ext (k / params.fps) = .ok e) :
    ((∀ x ∈ a.thetaData.data, x < e) →
      ∃ (i : ℕ) (u v : ℝ), a.thetaData.data[i]? = some u ∧ b.thetaData.data[i]? = some v ∧ u < v) ∧
    (0 ≤ e → (∀ x ∈ a.thetaData.data, e < x) →
      ∃ (i : ℕ) (u v : ℝ), a.thetaData.data[i]? = some u ∧ b.thetaData.data[i]? = some v ∧ v < u) := by
  have hU : ∀ st ∈ s.steps, Undeformed s.grid s.refined st.yData := fun st hst =>
    short_steps_healthy hs (midpoint_rule hleg) hd hn hf (fun _ => ht) hst
  have hA := hU a (List.mem_of_getElem? ha)
  have hB := hU b (List.mem_of_getElem? hb)
  exact ⟨fun h => C115_warms hs hleg hn hreg ha hb hA.moderate.oriented hB.moderate (hA.same hB) hp hopt he h,
    fun h0 h => C115_cools hs hleg hn hreg ha hb hA.moderate.oriented hB.moderate (hA.same hB) hp hopt he h0 h⟩

/-- **C115** (first step). The first step of a simulation of a body without traction, with at least half a step per time and without
regularization, leaves the temperatures unchanged exactly if the initial temperature is the external one at time zero. -/
theorem C115_first (hs : s.Healthy solver domain params ext traction) (hleg : LegMidpoint leg)
    (hd : solver.Decreases leg) (hn : solver.RespectsDomain) (hreg : params.regularization = none) (hf : 1 ≤ 2 * params.fps)
    (ht : ∀ time x y, traction time x y = .ok [0, 0]) {p : Problem} (hp : s.calls[1]? = some p)
    (hopt : p.IsOptimal leg (solver (s.calls.take 1) p)) {e : ℝ} (he : ext 0 = .ok e) (he0 : 0 ≤ e) :
    ∃ a b, s.steps[0]? = some a ∧ s.steps[1]? = some b ∧
      (b.thetaData.data = a.thetaData.data ↔ e = params.initialTemperature) ∧
      (params.initialTemperature < e → ∃ x ∈ b.thetaData.data, params.initialTemperature < x) ∧
      (e < params.initialTemperature → ∃ x ∈ b.thetaData.data, x < params.initialTemperature) := by
  obtain ⟨m0, t0, c, H⟩ := hs.history
  have h2 := H.two
  have ha : s.steps[0]? = some s.steps[0] := List.getElem?_eq_getElem (by omega)
  have hb : s.steps[0 + 1]? = some s.steps[1] := List.getElem?_eq_getElem (by omega)
  have hA := short_steps_healthy hs (midpoint_rule hleg) hd hn hf (fun _ => ht) (List.mem_of_getElem? ha)
  have hB := short_steps_healthy hs (midpoint_rule hleg) hd hn hf (fun _ => ht) (List.mem_of_getElem? hb)
  have hc := (initial_rest hs.reachable ha).2
  have he' : ext ((0 : ℕ) / params.fps) = .ok e := by simpa using he
  refine ⟨_, _, ha, hb, C115_equilibrium hs hleg hd hn hreg ha hb hA.moderate.oriented hB.moderate (hA.same hB) hp hopt he' he0 hc,
    fun h => ?_, fun h => ?_⟩
  · obtain ⟨i, u, v, h1, h2, h3⟩ := C115_warms hs hleg hn hreg ha hb hA.moderate.oriented hB.moderate (hA.same hB) hp hopt he'
      (fun x hx => by rw [hc x hx]; exact h)
    exact ⟨v, List.mem_of_getElem? h2, by rw [← hc u (List.mem_of_getElem? h1)]; exact h3⟩
  · obtain ⟨i, u, v, h1, h2, h3⟩ := C115_cools hs hleg hn hreg ha hb hA.moderate.oriented hB.moderate (hA.same hB) hp hopt he' he0
      (fun x hx => by rw [hc x hx]; exact h)
    exact ⟨v, List.mem_of_getElem? h2, by rw [← hc u (List.mem_of_getElem? h1)]; exact h3⟩

end

/-- the body of the README in surroundings of temperature one: with an optimal solver it warms in the first step -/
example (it : SetIter) : ∃ (leg : LegGauss) (solver : Solver) (s : Sim) (p : Problem) (b : Step), LegMidpoint leg ∧
    solver.Decreases leg ∧ solver.RespectsDomain ∧ s.Healthy solver readmeDomain readmeParams (fun _ => .ok 1) defaultTraction ∧
    s.calls[1]? = some p ∧ p.IsOptimal leg (solver (s.calls.take 1) p) ∧ s.steps[1]? = some b ∧ ∃ x ∈ b.thetaData.data, 0 < x := by
  have hB : BoundaryDataOk (fun _ => .ok 1) defaultTraction := ⟨fun _ _ _ => ⟨_, _, rfl⟩, fun _ => ⟨1, zero_le_one, rfl⟩⟩
  set leg : LegGauss := fun _ => .ok ([0], [2]) with hleg
  have hq := gauss_new_ok (lg := leg) (n := 1) (P := [0]) (W := [2]) rfl
  have hmid : LegMidpoint leg := rfl
  obtain ⟨solver, h1, h2, h3, h4, h5, h6, h7⟩ := C78_optimal_solver _ hq
  obtain ⟨s, hs⟩ := C55_usable_partial readmeSetup (by norm_num [readmeParams]) h5 it fun _ => hB
  have hh := Sim.Healthy.new readmeSetup hs
  obtain ⟨m0, t0, c, H⟩ := hh.history
  have hc := H.calls
  have hlen := H.two
  have hp : s.calls[1]? = some s.calls[1] := List.getElem?_eq_getElem (by omega)
  have hopt := h7 hh.reachable 1 _ hp
  obtain ⟨a, b, -, h9, -, h10, -⟩ := C115_first hh hmid h6 h3 rfl (by norm_num [readmeParams]) (fun _ _ _ => rfl) hp hopt
    (e := 1) rfl zero_le_one
  exact ⟨leg, solver, s, _, b, hmid, h6, h3, hh, hp, hopt, h9, by simpa [readmeParams] using h10 (by norm_num [readmeParams])⟩

/-- a simulation with regularization that meets the hypotheses of C115_insulated -/
example (it : SetIter) : ∃ (leg : LegGauss) (q : GaussRule ℝ) (solver : Solver) (s : Sim) (p : Problem) (a b : Step),
    GaussRule.new leg 1 = .ok q ∧ solver.RespectsDomain ∧
    s.Healthy solver exampleDomain exampleParamsReg (fun t => .ok (t ^ 2)) (fun t x y => .ok [t + x, y]) ∧
    exampleParamsReg.regularization ≠ none ∧ s.steps[0]? = some a ∧ s.steps[0 + 1]? = some b ∧
    Oriented s.grid s.refined a.yData ∧ ModerateStrain s.grid s.refined b.yData ∧ SameStrain s.grid s.refined a.yData b.yData ∧
    s.calls[2 * 0 + 1]? = some p ∧ p.IsOptimal leg (solver (s.calls.take (2 * 0 + 1)) p) := by
  set leg : LegGauss := fun _ => .ok ([0], [2]) with hleg
  have hq := gauss_new_ok (lg := leg) (n := 1) (P := [0]) (W := [2]) rfl
  obtain ⟨solver, h1, h2, h3, h4, h5, h6, h7⟩ := C78_optimal_solver _ hq
  have hreg : exampleParamsReg.regularization ≠ none := by simp [exampleParamsReg]
  obtain ⟨s, hs⟩ := C55_usable_partial exampleSetupReg (by norm_num [exampleParamsReg]) h5 it fun _ => exampleBoundary
  have hh : s.Healthy solver exampleDomain exampleParamsReg (fun t => .ok (t ^ 2)) (fun t x y => .ok [t + x, y]) :=
    Sim.Healthy.new exampleSetupReg hs
  obtain ⟨m0, t0, c, H⟩ := hh.history
  have hc := H.calls
  have hlen := H.two
  have ha : s.steps[0]? = some s.steps[0] := List.getElem?_eq_getElem (by omega)
  have hb : s.steps[0 + 1]? = some s.steps[1] := List.getElem?_eq_getElem (by omega)
  have hU : ∀ st ∈ s.steps, Undeformed s.grid s.refined st.yData := fun st hst =>
    short_steps_healthy hh hq h6 h3 (by norm_num [exampleParamsReg]) (fun h => absurd h hreg) hst
  have hA := hU _ (List.mem_of_getElem? ha)
  have hB := hU _ (List.mem_of_getElem? hb)
  have hp : s.calls[2 * 0 + 1]? = some s.calls[1] := List.getElem?_eq_getElem (by omega)
  exact ⟨leg, _, solver, s, _, _, _, hq, h3, hh, hreg, ha, hb, hA.moderate.oriented, hB.moderate, hA.same hB, hp,
    h7 hh.reachable 1 _ hp⟩

end Tve
