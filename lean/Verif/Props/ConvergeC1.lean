import Verif.Lemmas.RegConverge

/-!
# C103 — the thermal objective of a simulation with regularization, and the limit of fine grids

The theorems `C103_*_limit` speak about grids whose cells are at least `10⁻¹⁵` wide after refinement, since `refine` merges the points
of finer grids (C79); the other theorems of C103 give explicit bounds for the error at a given scale.
-/

namespace Tve

open MeasureTheory Helpers

theorem hyper_continuous : Continuous fun H : Fin 2 → Fin 2 → Fin 2 → ℝ => hyperElasticPotential (tenOf H) := by
  simp only [hyper_eq]
  fun_prop

theorem grad_pi_continuous {Y : Fin 2 → ℕ → ℕ → ℝ × ℝ → ℝ} {R : Set (ℝ × ℝ)} (hY : ∀ k, PartialsOn (Y k) 2 R) :
    ContinuousOn (fun z i j => gradOf Y z i j : ℝ × ℝ → Fin 2 → Fin 2 → ℝ) R :=
  continuousOn_pi.2 fun i => continuousOn_pi.2 fun j => gradOf_continuous hY i j

theorem hess_pi_continuous {Y : Fin 2 → ℕ → ℕ → ℝ × ℝ → ℝ} {R : Set (ℝ × ℝ)}
    (hYc : ∀ k i j, i + j = 2 → ContinuousOn (Y k i j) R) : ContinuousOn (hessOf Y) R := by
  have c : ∀ k i j, ContinuousOn (fun z => hessOf Y z k i j) R := by
    intro k
    simp only [Fin.forall_fin_two]
    exact ⟨⟨hYc k 2 0 rfl, hYc k 1 1 rfl⟩, hYc k 1 1 rfl, hYc k 0 2 rfl⟩
  exact continuousOn_pi.2 fun k => continuousOn_pi.2 fun i => continuousOn_pi.2 fun j => c k i j

theorem scaled_close {a ε x y : ℝ} (hε : 0 < ε) (h : |x - y| ≤ ε / (3 * (|a| + 1))) : |a * x - a * y| ≤ ε / 3 := by
  rw [← mul_sub, abs_mul]
  refine (mul_le_mul_of_nonneg_left h (abs_nonneg _)).trans ?_
  rw [show |a| * (ε / (3 * (|a| + 1))) = (ε / 3) * (|a| / (|a| + 1)) by field_simp]
  have : |a| / (|a| + 1) ≤ 1 := by rw [div_le_one (by positivity)]; linarith
  nlinarith

/-- Mechanical step: let `Y0`, `Y` be twice continuously differentiable deformations, the gradient of `Y` of positive determinant, and
`θ` a continuous temperature. Let `y0`, `y` hold the values and derivatives of `Y0`, `Y` at the vertices of a grid and `x` the values
of `θ` at the vertices of a refinement of this grid. As the scale of the grid tends to zero, uniformly in the refinement factor, the
objective tends to elastic energy plus regularization times hyper elastic energy plus `fps` times dissipation of `Y0`, `Y` and `θ`,
times the sum of the weights of the quadrature rule, which is `1` up to `10⁻¹⁴`. -/
theorem C103_mechanical_limit (d : RectDomain ℝ) (hw : 0 < d.width) (hh : 0 < d.height) (leg : LegGauss) {params : SimParams} {c : ℝ}
    (hreg : params.regularization = some c) (traction : Traction) (time : ℝ) {Y0 Y : Fin 2 → ℕ → ℕ → ℝ × ℝ → ℝ}
    (hY0 : ∀ k, PartialsOn (Y0 k) 2 (Set.Icc (0, 0) (d.width, d.height)))
    (hY : ∀ k, PartialsOn (Y k) 2 (Set.Icc (0, 0) (d.width, d.height)))
    (hY0c : ∀ k i j, i + j = 2 → ContinuousOn (Y0 k i j) (Set.Icc (0, 0) (d.width, d.height)))
    (hYc : ∀ k i j, i + j = 2 → ContinuousOn (Y k i j) (Set.Icc (0, 0) (d.width, d.height)))
    (hdet : ∀ z ∈ Set.Icc ((0 : ℝ), (0 : ℝ)) (d.width, d.height), 0 < (gradOf Y z).det)
    {θ W V : ℝ × ℝ → ℝ} (hθ : ContinuousOn θ (Set.Icc (0, 0) (d.width, d.height)))
    (hW : ∀ z ∈ Set.Icc ((0 : ℝ), (0 : ℝ)) (d.width, d.height), totalElasticPotential (matOf (gradOf Y z)) (θ z) = .ok (W z))
    (hV : ∀ z ∈ Set.Icc ((0 : ℝ), (0 : ℝ)) (d.width, d.height),
      dissipationPotential (matOf (gradOf Y0 z)) (matOf (gradOf Y z)) = .ok (V z)) :
    ∃ rule, dunavant5 ℝ = .ok rule ∧ 1 - 1 / 10 ^ 14 ≤ rule.weights.sum ∧ rule.weights.sum ≤ 1 ∧
      ∀ ε > 0, ∃ δ > 0, ∀ s, 0 < s → s < δ → ∀ it g, d.grid it s = .ok g → ∀ n : ℕ, 1 ≤ n → 1 / 10 ^ 15 ≤ s / n → ∀ r,
        d.refine g n = .ok r → ∀ y0 y x : NdArray, y0.HoldsC1 g Y0 → y.HoldsC1 g Y → x.Has [r.toGrid.vertices.length] →
        (∀ v q, r.toGrid.At v q → x.data[v]? = some (θ q)) →
        ∃ J, IsMechObjective leg params traction g (some r) time y0 y x J ∧
          |J - rule.weights.sum * ((∫ z in Set.Icc ((0 : ℝ), (0 : ℝ)) (d.width, d.height), W z) +
            c * (∫ z in Set.Icc ((0 : ℝ), (0 : ℝ)) (d.width, d.height), hyperElasticPotential (tenOf (hessOf Y z))) +
            params.fps * ∫ z in Set.Icc ((0 : ℝ), (0 : ℝ)) (d.width, d.height), V z)| ≤ ε := by
  obtain ⟨q, hq, hgood, q1, q2⟩ := dunavant5_sum
  have q0 : 0 < q.weights.sum := by linarith
  refine ⟨q, hq, q2, q1, fun ε hε => ?_⟩
  set R := Set.Icc ((0 : ℝ), (0 : ℝ)) (d.width, d.height) with hR
  have hF0' := grad_pi_continuous hY0
  have hF' := grad_pi_continuous hY
  have hH' := hess_pi_continuous hYc
  set Φ : (Fin 2 → Fin 2 → ℝ) × ℝ → ℝ := fun p =>
    (1 - Real.exp (-5 * p.2)) * wA (Matrix.of p.1) + Real.exp (-5 * p.2) * wM (Matrix.of p.1) with hΦ
  obtain ⟨δ1, h1, η1, hη1, c1⟩ := reg_consistency d hw hh hgood q0 q1 (V := fun z => ((fun i j => gradOf Y z i j), θ z)) (W := Φ)
    (hF'.prodMk hθ) (fun z hz => wAM_continuousAt (hdet z hz)) (show 0 < ε / 3 by positivity)
  obtain ⟨δ2, h2, η2, hη2, c2⟩ := reg_consistency d hw hh hgood q0 q1
    (V := fun z => ((fun i j => gradOf Y0 z i j), (fun i j => gradOf Y z i j))) (hF0'.prodMk hF')
    (fun z _ => dissip_continuous.continuousAt) (show 0 < ε / (3 * (|params.fps| + 1)) by positivity)
  obtain ⟨δ3, h3, η3, hη3, c3⟩ := reg_consistency d hw hh hgood q0 q1 (V := hessOf Y) hH'
    (fun z _ => hyper_continuous.continuousAt) (show 0 < ε / (3 * (|c| + 1)) by positivity)
  obtain ⟨η4, hη4, c4⟩ := det_close isCompact_Icc hF' hdet
  obtain ⟨η, hη, m1, m2, m3, m4⟩ : ∃ η > 0, η ≤ η1 ∧ η ≤ η2 ∧ η ≤ η3 ∧ η ≤ η4 :=
    ⟨min (min η1 η2) (min η3 η4), by positivity, by simp, by simp, by simp, by simp⟩
  obtain ⟨δ5, h5, c5⟩ := c1_convergence d hw hh hY0 hY0c hη
  obtain ⟨δ6, h6, c6⟩ := c1_convergence d hw hh hY hYc hη
  obtain ⟨δ7, h7, c7⟩ := temp_convergence d hw hh hθ hη
  refine ⟨min (min (min δ1 δ2) (min δ3 δ5)) (min (min δ6 δ7) (min d.width d.height)), by positivity,
    fun s hs hsδ it g hg n hn hsn r hr y0 y x hy0 hy hx hxθ => ?_⟩
  simp only [lt_min_iff] at hsδ
  obtain ⟨⟨⟨s1, s2⟩, s3, s5⟩, ⟨s6, s7⟩, sw, sh⟩ := hsδ
  obtain ⟨D0, S0, H0, hD0, hS0⟩ := c5 s hs s5 it g hg n hn hsn r hr y0 hy0
  obtain ⟨D, S, H, hD, hS⟩ := c6 s hs s6 it g hg n hn hsn r hr y hy
  obtain ⟨T, u, hT, hu⟩ := c7 s hs s7 it g hg n hn hsn r hr x hx hxθ
  have G := LibraryGrid.grid hs sw.le sh.le hg
  have GR := LibraryGrid.refine G hn hsn hr
  have hsub : gridRect (n * cells d.width s) (n * cells d.height s) (s / n) ⊆ R := by
    rw [refined_rect hn]
    exact Set.Icc_subset_Icc le_rfl ⟨(cells_strip hs hw.le).1, (cells_strip hs hh.le).1⟩
  have e1 := c1 s hs s1 it g hg n hn hsn r hr (fun t b => (S t b, u t b)) fun t ht b hb => by
    have hb' := hgood.inside b hb
    rw [Prod.dist_eq, max_lt_iff]
    exact ⟨(hS t ht b hb').2.2.1.trans_le m1, (hu t ht b hb').2.trans_le m1⟩
  have e2 := c2 s hs s2 it g hg n hn hsn r hr (fun t b => (S0 t b, S t b)) fun t ht b hb => by
    have hb' := hgood.inside b hb
    rw [Prod.dist_eq, max_lt_iff]
    exact ⟨(hS0 t ht b hb').2.2.1.trans_le m2, (hS t ht b hb').2.2.1.trans_le m2⟩
  have e3 := c3 s hs s3 it g hg n hn hsn r hr H fun t ht b hb => (hS t ht b (hgood.inside b hb)).2.2.2.trans_le m3
  have hE : IsElasticEnergy g (some r) y x (r.toGrid.quad q fun t b => Φ (S t b, u t b)) :=
    ⟨D, T, q, _, hD, hT, hq, fun t ht b hb => ⟨_, _, (hS t ht b (hgood.inside b hb)).1, (hu t ht b (hgood.inside b hb)).1,
      totalElastic_value (c4 _ (hsub (tri_subset GR ht (pointAt_mem r.toGrid t (hgood.inside b hb)))) _
        ((hS t ht b (hgood.inside b hb)).2.2.1.trans_le m4)) _⟩, rfl⟩
  have hDi : IsDissipation g (some r) y0 y (r.toGrid.quad q fun t b =>
      (∑ i, ∑ j, ((Matrix.of (S t b) - Matrix.of (S0 t b)).transpose * Matrix.of (S0 t b) +
        (Matrix.of (S0 t b)).transpose * (Matrix.of (S t b) - Matrix.of (S0 t b))) i j ^ 2) / 2) :=
    ⟨D0, D, q, _, hD0, hD, hq, fun t ht b hb => ⟨_, _, (hS0 t ht b (hgood.inside b hb)).1, (hS t ht b (hgood.inside b hb)).1,
      C51_value _ _⟩, rfl⟩
  have hHy : IsHyperEnergy g r y (r.toGrid.quad q fun t b => hyperElasticPotential (tenOf (H t b))) :=
    ⟨D, q, _, hD, hq, fun t ht b hb => ⟨_, (hS t ht b (hgood.inside b hb)).2.1, rfl⟩, rfl⟩
  have hJ : ∃ J, IsMechObjective leg params traction g (some r) time y0 y x J ∧ J =
      (r.toGrid.quad q fun t b => Φ (S t b, u t b)) + c * (r.toGrid.quad q fun t b => hyperElasticPotential (tenOf (H t b))) +
        params.fps * r.toGrid.quad q fun t b => (∑ i, ∑ j, ((Matrix.of (S t b) - Matrix.of (S0 t b)).transpose * Matrix.of (S0 t b) +
        (Matrix.of (S0 t b)).transpose * (Matrix.of (S t b) - Matrix.of (S0 t b))) i j ^ 2) / 2 := by
    refine ⟨_, ⟨_, _, hE, hDi, fun h => (by rw [hreg] at h; cases h), fun κ' h' => ?_⟩, rfl⟩
    rw [hreg] at h'
    cases h'
    exact ⟨r, _, rfl, hHy, rfl⟩
  obtain ⟨J, hJ1, hJ2⟩ := hJ
  refine ⟨J, hJ1, ?_⟩
  · have i1 : ∫ z in R, W z = ∫ z in R, Φ ((fun i j => gradOf Y z i j), θ z) := by
      refine setIntegral_congr_fun measurableSet_Icc fun z hz => ?_
      exact Except.ok.inj ((hW z hz).symm.trans (totalElastic_value (hdet z hz) _))
    have i2 : ∫ z in R, V z = ∫ z in R, (∑ i, ∑ j, ((Matrix.of (fun i j => gradOf Y z i j) - Matrix.of (fun i j => gradOf Y0 z i j)).transpose *
        Matrix.of (fun i j => gradOf Y0 z i j) + (Matrix.of (fun i j => gradOf Y0 z i j)).transpose *
        (Matrix.of (fun i j => gradOf Y z i j) - Matrix.of (fun i j => gradOf Y0 z i j))) i j ^ 2) / 2 := by
      refine setIntegral_congr_fun measurableSet_Icc fun z hz => ?_
      exact Except.ok.inj ((hV z hz).symm.trans (C51_value _ _))
    rw [i1, i2, hJ2]
    have e2' := scaled_close hε e2
    have e3' := scaled_close hε e3
    rw [abs_le] at *
    constructor <;> linarith [e1.1, e1.2, e2'.1, e2'.2, e3'.1, e3'.2]

/-- Thermal step: in addition let the gradient of `Y0` have positive determinant, the previous temperature `θ0` be continuous and the
temperature `θ` continuously differentiable with gradient `G`. The objective tends, in the same way, to the integral of diffusion minus
heat production times temperature plus `fps` times the integral of the thermal dissipation; there is no exchange of heat with the
environment. -/
theorem C103_thermal_limit (d : RectDomain ℝ) (hw : 0 < d.width) (hh : 0 < d.height) (leg : LegGauss) {params : SimParams} {c : ℝ}
    (hreg : params.regularization = some c) (hfps : params.fps ≠ 0) (ext : ExtTemp) (time : ℝ)
    {Y0 Y : Fin 2 → ℕ → ℕ → ℝ × ℝ → ℝ} {θ0 θ q a u : ℝ × ℝ → ℝ} {G : ℝ × ℝ → Fin 2 → ℝ} {K : ℝ × ℝ → Matrix (Fin 2) (Fin 2) ℝ}
    (hY0 : ∀ k, PartialsOn (Y0 k) 2 (Set.Icc (0, 0) (d.width, d.height)))
    (hY : ∀ k, PartialsOn (Y k) 2 (Set.Icc (0, 0) (d.width, d.height)))
    (hY0c : ∀ k i j, i + j = 2 → ContinuousOn (Y0 k i j) (Set.Icc (0, 0) (d.width, d.height)))
    (hYc : ∀ k i j, i + j = 2 → ContinuousOn (Y k i j) (Set.Icc (0, 0) (d.width, d.height)))
    (hdet : ∀ z ∈ Set.Icc ((0 : ℝ), (0 : ℝ)) (d.width, d.height), 0 < (gradOf Y0 z).det ∧ 0 < (gradOf Y z).det)
    (hθ0 : ContinuousOn θ0 (Set.Icc (0, 0) (d.width, d.height)))
    (hθ : ∀ z ∈ Set.Icc ((0 : ℝ), (0 : ℝ)) (d.width, d.height), HasFDerivAt θ (lin (G z 0) (G z 1)) z)
    (hG : ∀ i, ContinuousOn (fun z => G z i) (Set.Icc (0, 0) (d.width, d.height)))
    (hK : ∀ z ∈ Set.Icc ((0 : ℝ), (0 : ℝ)) (d.width, d.height),
      IsHeatCoeff params.fps (gradOf Y0 z) (gradOf Y z) (θ0 z) (K z) (q z))
    (ha : ∀ z ∈ Set.Icc ((0 : ℝ), (0 : ℝ)) (d.width, d.height),
      tempAntiderInternalEnergyNoEntropy (matOf (gradOf Y z)) (θ z) = .ok (a z))
    (hu : ∀ z ∈ Set.Icc ((0 : ℝ), (0 : ℝ)) (d.width, d.height),
      internalEnergyNoEntropy (matOf (gradOf Y0 z)) (θ0 z) = .ok (u z)) :
    ∃ rule, dunavant5 ℝ = .ok rule ∧ 1 - 1 / 10 ^ 14 ≤ rule.weights.sum ∧ rule.weights.sum ≤ 1 ∧
      ∀ ε > 0, ∃ δ > 0, ∀ s, 0 < s → s < δ → ∀ it g, d.grid it s = .ok g → ∀ n : ℕ, 1 ≤ n → 1 / 10 ^ 15 ≤ s / n → ∀ r,
        d.refine g n = .ok r → ∀ y0 y x0 x : NdArray, y0.HoldsC1 g Y0 → y.HoldsC1 g Y → x0.Has [r.toGrid.vertices.length] →
        x.Has [r.toGrid.vertices.length] →
        (∀ v q, r.toGrid.At v q → x0.data[v]? = some (θ0 q) ∧ x.data[v]? = some (θ q)) →
        ∃ J, IsThermObjective leg params ext g (some r) time y0 y x0 x J ∧
          |J - rule.weights.sum * ((∫ z in Set.Icc ((0 : ℝ), (0 : ℝ)) (d.width, d.height), (G z ⬝ᵥ (K z).mulVec (G z) - q z * θ z)) +
            params.fps * ∫ z in Set.Icc ((0 : ℝ), (0 : ℝ)) (d.width, d.height),
              (10 / 2 * (θ z - θ0 z) ^ 2 + (a z - u z * θ z)))| ≤ ε := by
  obtain ⟨r5, hr5, hgood, q1, q2⟩ := dunavant5_sum
  have q0 : 0 < r5.weights.sum := by linarith
  refine ⟨r5, hr5, q2, q1, fun ε hε => ?_⟩
  set R := Set.Icc ((0 : ℝ), (0 : ℝ)) (d.width, d.height) with hR
  have hF0' := grad_pi_continuous hY0
  have hF' := grad_pi_continuous hY
  have hG' : ContinuousOn G R := continuousOn_pi.2 hG
  have hθc : ContinuousOn θ R := fun z hz => (hθ z hz).continuousAt.continuousWithinAt
  have hV : ContinuousOn (fun z => (((fun i j => gradOf Y0 z i j), (fun i j => gradOf Y z i j), θ0 z, θ z, G z) : HeatPoint)) R :=
    hF0'.prodMk (hF'.prodMk (hθ0.prodMk (hθc.prodMk hG')))
  obtain ⟨δ1, h1, η1, hη1, c1⟩ := reg_consistency d hw hh hgood q0 q1 hV (W := heatPhi params.fps)
    (fun z hz => heatPhi_continuousAt _ (hdet z hz).1) (show 0 < ε / 3 by positivity)
  obtain ⟨δ2, h2, η2, hη2, c2⟩ := reg_consistency d hw hh hgood q0 q1 hV (W := heatPsi)
    (fun z hz => heatPsi_continuousAt (hdet z hz).1 (hdet z hz).2) (show 0 < ε / (3 * (|params.fps| + 1)) by positivity)
  obtain ⟨η3, hη3, c3⟩ := det_close isCompact_Icc hF0' fun z hz => (hdet z hz).1
  obtain ⟨η4, hη4, c4⟩ := det_close isCompact_Icc hF' fun z hz => (hdet z hz).2
  obtain ⟨η, hη, m1, m2, m3, m4⟩ : ∃ η > 0, η ≤ η1 ∧ η ≤ η2 ∧ η ≤ η3 ∧ η ≤ η4 :=
    ⟨min (min η1 η2) (min η3 η4), by positivity, by simp, by simp, by simp, by simp⟩
  obtain ⟨δ5, h5, c5⟩ := c1_convergence d hw hh hY0 hY0c hη
  obtain ⟨δ6, h6, c6⟩ := c1_convergence d hw hh hY hYc hη
  obtain ⟨δ7, h7, c7⟩ := temp_convergence d hw hh hθ0 hη
  obtain ⟨δ8, h8, c8⟩ := temp_convergence d hw hh hθc hη
  obtain ⟨δ9, h9, c9⟩ := tempGrad_convergence d hw hh hθ hG hη
  refine ⟨min (min (min δ1 δ2) (min δ8 δ5)) (min (min (min δ9 δ6) δ7) (min d.width d.height)), by positivity,
    fun s hs hsδ it g hg n hn hsn r hr y0 y x0 x hy0 hy hx0 hx hxθ => ?_⟩
  simp only [lt_min_iff] at hsδ
  obtain ⟨⟨⟨s1, s2⟩, s8, s5⟩, ⟨⟨s9, s6⟩, s7⟩, sw, sh⟩ := hsδ
  obtain ⟨D0, S0, H0, hD0, hS0⟩ := c5 s hs s5 it g hg n hn hsn r hr y0 hy0
  obtain ⟨D, S, H, hD, hS⟩ := c6 s hs s6 it g hg n hn hsn r hr y hy
  obtain ⟨T0, w0, hT0, hw0⟩ := c7 s hs s7 it g hg n hn hsn r hr x0 hx0 fun v q h => (hxθ v q h).1
  obtain ⟨T, w1, hT, hw1⟩ := c8 s hs s8 it g hg n hn hsn r hr x hx fun v q h => (hxθ v q h).2
  obtain ⟨w2, hw2⟩ := c9 s hs s9 it g hg n hn hsn r hr x (fun v q h => (hxθ v q h).2) T hT
  have HG := LibraryGrid.grid hs sw.le sh.le hg
  have GR := LibraryGrid.refine HG hn hsn hr
  have hsub : gridRect (n * cells d.width s) (n * cells d.height s) (s / n) ⊆ R := by
    rw [refined_rect hn]
    exact Set.Icc_subset_Icc le_rfl ⟨(cells_strip hs hw.le).1, (cells_strip hs hh.le).1⟩
  set P : Tri → Bary ℝ → HeatPoint := fun t b => (S0 t b, S t b, w0 t b, w1 t b, w2 t b) with hP
  have hPdist : ∀ t ∈ r.toGrid.triangles, ∀ b ∈ r5.points, dist (((fun i j => gradOf Y0 (r.toGrid.pointAt t b) i j),
      (fun i j => gradOf Y (r.toGrid.pointAt t b) i j), θ0 (r.toGrid.pointAt t b), θ (r.toGrid.pointAt t b),
      G (r.toGrid.pointAt t b)) : HeatPoint) (P t b) < η := by
    intro t ht b hb
    have hb' := hgood.inside b hb
    rw [Prod.dist_eq, Prod.dist_eq, Prod.dist_eq, Prod.dist_eq, max_lt_iff, max_lt_iff, max_lt_iff, max_lt_iff]
    exact ⟨(hS0 t ht b hb').2.2.1, (hS t ht b hb').2.2.1, (hw0 t ht b hb').2, (hw1 t ht b hb').2, (hw2 t ht b hb').2⟩
  have hdetS : ∀ t ∈ r.toGrid.triangles, ∀ b ∈ r5.points, 0 < (Matrix.of (S0 t b)).det ∧ 0 < (Matrix.of (S t b)).det := by
    intro t ht b hb
    have hb' := hgood.inside b hb
    have hz := hsub (tri_subset GR ht (pointAt_mem r.toGrid t hb'))
    exact ⟨c3 _ hz _ ((hS0 t ht b hb').2.2.1.trans_le m3), c4 _ hz _ ((hS t ht b hb').2.2.1.trans_le m4)⟩
  have e1 := c1 s hs s1 it g hg n hn hsn r hr P fun t ht b hb => (hPdist t ht b hb).trans_le m1
  have e2 := c2 s hs s2 it g hg n hn hsn r hr P fun t ht b hb => (hPdist t ht b hb).trans_le m2
  refine ⟨_, ⟨r5, fun t b => Matrix.of (S0 t b), fun t b => Matrix.of (S t b), fun t b => kVal (S0 t b), w0, w1,
    fun t b => qVal params.fps (S0 t b) (S t b) (w0 t b), fun t b =>
      anti (w1 t b) * (wA (Matrix.of (S t b)) - wM (Matrix.of (S t b))), fun t b =>
      ((1 - Real.exp (-5 * (w0 t b)) - (w0 t b) * (5 * Real.exp (-5 * (w0 t b)))) *
        (wA (Matrix.of (S0 t b)) - wM (Matrix.of (S0 t b)))), w2, 0, hr5,
    ⟨D0, D, T0, hD0, hD, hT0, fun t ht b hb => ⟨(hS0 t ht b (hgood.inside b hb)).1, (hS t ht b (hgood.inside b hb)).1,
      (hw0 t ht b (hgood.inside b hb)).1⟩⟩,
    ⟨T, hT, fun t ht b hb => ⟨(hw1 t ht b (hgood.inside b hb)).1, (hw2 t ht b (hgood.inside b hb)).1⟩⟩,
    fun t ht b hb => ⟨heatCoeff_value hfps (hdetS t ht b hb).1 _, tempAntider_value (hdetS t ht b hb).2 _,
      internal_value (hdetS t ht b hb).1 _⟩,
    ⟨fun h => (by rw [hreg] at h; cases h), fun _ => rfl⟩, rfl⟩, ?_⟩
  have i1 : ∫ z in R, (G z ⬝ᵥ (K z).mulVec (G z) - q z * θ z) =
      ∫ z in R, heatPhi params.fps ((fun i j => gradOf Y0 z i j), (fun i j => gradOf Y z i j), θ0 z, θ z, G z) := by
    refine setIntegral_congr_fun measurableSet_Icc fun z hz => ?_
    obtain ⟨k1, k2⟩ := heatCoeff_unique (hK z hz) (heatCoeff_value (F0 := fun i j => gradOf Y0 z i j)
      (F := fun i j => gradOf Y z i j) hfps (hdet z hz).1 (θ0 z))
    simp only [heatPhi, k1, k2]
  have i2 : ∫ z in R, (10 / 2 * (θ z - θ0 z) ^ 2 + (a z - u z * θ z)) =
      ∫ z in R, heatPsi ((fun i j => gradOf Y0 z i j), (fun i j => gradOf Y z i j), θ0 z, θ z, G z) := by
    refine setIntegral_congr_fun measurableSet_Icc fun z hz => ?_
    have k1 := Except.ok.inj ((ha z hz).symm.trans (tempAntider_value (hdet z hz).2 _))
    have k2 := Except.ok.inj ((hu z hz).symm.trans (internal_value (hdet z hz).1 _))
    simp only [heatPsi, k1, k2]
    rfl
  rw [i1, i2]
  have e3 := scaled_close hε e2
  simp only [add_zero]
  have e1' : |r.toGrid.quad r5 (fun t b => w2 t b ⬝ᵥ (kVal (S0 t b)).mulVec (w2 t b) -
      qVal params.fps (S0 t b) (S t b) (w0 t b) * w1 t b) - r5.weights.sum *
      ∫ z in R, heatPhi params.fps ((fun i j => gradOf Y0 z i j), (fun i j => gradOf Y z i j), θ0 z, θ z, G z)| ≤ ε / 3 := e1
  have e3' : |params.fps * r.toGrid.quad r5 (fun t b => 10 / 2 * (w1 t b - w0 t b) ^ 2 +
      (anti (w1 t b) * (wA (Matrix.of (S t b)) - wM (Matrix.of (S t b))) -
        ((1 - Real.exp (-5 * (w0 t b)) - (w0 t b) * (5 * Real.exp (-5 * (w0 t b)))) *
        (wA (Matrix.of (S0 t b)) - wM (Matrix.of (S0 t b)))) * w1 t b)) - params.fps * (r5.weights.sum *
      ∫ z in R, heatPsi ((fun i j => gradOf Y0 z i j), (fun i j => gradOf Y z i j), θ0 z, θ z, G z))| ≤ ε / 3 := e3
  rw [energyGrid] at *
  rw [abs_le] at *
  constructor <;> linarith [e1'.1, e1'.2, e3'.1, e3'.2]

theorem choose_fields {α : Type} [Inhabited α] {L : List Tri} {P : Tri → Bary ℝ → α → Prop}
    (h : ∀ t ∈ L, ∀ b : Bary ℝ, b.Inside → ∃ p, P t b p) : ∃ f : Tri → Bary ℝ → α, ∀ t ∈ L, ∀ b : Bary ℝ, b.Inside → P t b (f t b) := by
  classical
  refine ⟨fun t b => if h' : t ∈ L ∧ b.Inside then (h t h'.1 b h'.2).choose else default, fun t ht b hb => ?_⟩
  simp only [dif_pos (And.intro ht hb)]
  exact (h t ht b hb).choose_spec

/-- Thermal step at a given scale: let the second derivatives of `Y0` and `Y` vary by at most `ω` over a cell, the temperatures `θ0`, `θ`
by at most `τ` and the gradient `G` of `θ` by at most `γ` over a cell of the refined grid. The objective differs from the integral of
diffusion minus heat production times temperature plus `fps` times the integral of the thermal dissipation by at most the area times
the sum of (`κ`) the change of the integrands if the strains change by at most `240 s ω`, the temperatures by at most `τ` and the
temperature gradient by at most `γ` per entry, (`ν`) the variation of the integrands over a cell of the refined grid and `10⁻¹⁴` times
their largest values. There is no exchange of heat with the environment. -/
theorem C103_thermal {g : Grid ℝ} {nx ny : ℕ} {s : ℝ} {n : ℕ} {d : RectDomain ℝ} {r : RefinedGrid ℝ} (HG : LibraryGrid g nx ny s)
    (hn : 1 ≤ n) (hs : 1 / 10 ^ 15 ≤ s / n) (hr : d.refine g n = .ok r) (leg : LegGauss) {params : SimParams} {c : ℝ}
    (hreg : params.regularization = some c) (ext : ExtTemp) (time : ℝ) {Y0 Y : Fin 2 → ℕ → ℕ → ℝ × ℝ → ℝ}
    {y0 y x0 x : NdArray} {ω τ γ κ₁ κ₂ ν₁ ν₂ M₁ M₂ : ℝ} {θ0 θ q a u : ℝ × ℝ → ℝ} {G : ℝ × ℝ → Fin 2 → ℝ}
    {K : ℝ × ℝ → Matrix (Fin 2) (Fin 2) ℝ} (hy0 : y0.HoldsC1 g Y0) (hy : y.HoldsC1 g Y) (hx0 : x0.Has [r.toGrid.vertices.length])
    (hx : x.Has [r.toGrid.vertices.length]) (hxθ : ∀ v q, r.toGrid.At v q → x0.data[v]? = some (θ0 q) ∧ x.data[v]? = some (θ q))
    (hY0 : ∀ k, PartialsOn (Y0 k) 2 (Set.Icc (0, 0) (nx * s, ny * s)))
    (hY : ∀ k, PartialsOn (Y k) 2 (Set.Icc (0, 0) (nx * s, ny * s)))
    (hω0 : ∀ k i j, i + j = 2 → Varies (Y0 k i j) (Set.Icc (0, 0) (nx * s, ny * s)) s ω)
    (hω : ∀ k i j, i + j = 2 → Varies (Y k i j) (Set.Icc (0, 0) (nx * s, ny * s)) s ω)
    (hτ : Varies θ0 (Set.Icc (0, 0) (nx * s, ny * s)) (s / n) τ ∧ Varies θ (Set.Icc (0, 0) (nx * s, ny * s)) (s / n) τ)
    (hθ : ∀ z ∈ Set.Icc ((0 : ℝ), (0 : ℝ)) (nx * s, ny * s), HasFDerivAt θ (lin (G z 0) (G z 1)) z)
    (hγ : ∀ i, Varies (fun z => G z i) (Set.Icc (0, 0) (nx * s, ny * s)) (s / n) γ)
    (hK : ∀ z ∈ Set.Icc ((0 : ℝ), (0 : ℝ)) (nx * s, ny * s), IsHeatCoeff params.fps (gradOf Y0 z) (gradOf Y z) (θ0 z) (K z) (q z) ∧
      tempAntiderInternalEnergyNoEntropy (matOf (gradOf Y z)) (θ z) = .ok (a z) ∧
      internalEnergyNoEntropy (matOf (gradOf Y0 z)) (θ0 z) = .ok (u z))
    (hκ : ∀ z ∈ Set.Icc ((0 : ℝ), (0 : ℝ)) (nx * s, ny * s), ∀ (F0 F : Matrix (Fin 2) (Fin 2) ℝ) (T0 T : ℝ) (D : Fin 2 → ℝ),
      (∀ i j, |F0 i j - gradOf Y0 z i j| ≤ 240 * s * ω ∧ |F i j - gradOf Y z i j| ≤ 240 * s * ω) → |T0 - θ0 z| ≤ τ →
      |T - θ z| ≤ τ → (∀ i, |D i - G z i| ≤ γ) →
      ∃ K' q' a' u', IsHeatCoeff params.fps F0 F T0 K' q' ∧ tempAntiderInternalEnergyNoEntropy (matOf F) T = .ok a' ∧
        internalEnergyNoEntropy (matOf F0) T0 = .ok u' ∧
        |(D ⬝ᵥ K'.mulVec D - q' * T) - (G z ⬝ᵥ (K z).mulVec (G z) - q z * θ z)| ≤ κ₁ ∧
        |(10 / 2 * (T - T0) ^ 2 + (a' - u' * T)) - (10 / 2 * (θ z - θ0 z) ^ 2 + (a z - u z * θ z))| ≤ κ₂)
    (hc : ContinuousOn (fun z => G z ⬝ᵥ (K z).mulVec (G z) - q z * θ z) (Set.Icc (0, 0) (nx * s, ny * s)) ∧
      ContinuousOn (fun z => 10 / 2 * (θ z - θ0 z) ^ 2 + (a z - u z * θ z)) (Set.Icc (0, 0) (nx * s, ny * s)))
    (hν : Varies (fun z => G z ⬝ᵥ (K z).mulVec (G z) - q z * θ z) (Set.Icc (0, 0) (nx * s, ny * s)) (s / n) ν₁ ∧
      Varies (fun z => 10 / 2 * (θ z - θ0 z) ^ 2 + (a z - u z * θ z)) (Set.Icc (0, 0) (nx * s, ny * s)) (s / n) ν₂)
    (hM : ∀ z ∈ Set.Icc ((0 : ℝ), (0 : ℝ)) (nx * s, ny * s), |G z ⬝ᵥ (K z).mulVec (G z) - q z * θ z| ≤ M₁ ∧
      |10 / 2 * (θ z - θ0 z) ^ 2 + (a z - u z * θ z)| ≤ M₂) :
    ∃ J, IsThermObjective leg params ext g (some r) time y0 y x0 x J ∧
      |J - ((∫ z in Set.Icc ((0 : ℝ), (0 : ℝ)) (nx * s, ny * s), (G z ⬝ᵥ (K z).mulVec (G z) - q z * θ z)) +
        params.fps * ∫ z in Set.Icc ((0 : ℝ), (0 : ℝ)) (nx * s, ny * s), (10 / 2 * (θ z - θ0 z) ^ 2 + (a z - u z * θ z)))| ≤
        (nx * s) * (ny * s) * ((κ₁ + ν₁ + M₁ / 10 ^ 14) + |params.fps| * (κ₂ + ν₂ + M₂ / 10 ^ 14)) := by
  have GR := LibraryGrid.refine HG hn hs hr
  have hrect : gridRect (n * nx) (n * ny) (s / n) = Set.Icc ((0 : ℝ), (0 : ℝ)) (nx * s, ny * s) := refined_rect hn
  have hn' : (n : ℝ) ≠ 0 := by exact_mod_cast (by omega : n ≠ 0)
  have ex : ((n * nx : ℕ) : ℝ) * (s / n) = nx * s := by push_cast; field_simp
  have ey : ((n * ny : ℕ) : ℝ) * (s / n) = ny * s := by push_cast; field_simp
  obtain ⟨D0, hD0, hf0⟩ := C103_fields HG hn hs hr hy0 hY0 hω0
  obtain ⟨D, hD, hf⟩ := C103_fields HG hn hs hr hy hY hω
  have hlx : ∀ {x : NdArray}, x.Has [r.toGrid.vertices.length] → x.data.length = r.toGrid.vertices.length := fun {x} hx => by
    have := hx.2; rw [NdArray.Ok, hx.1] at this; simpa using this
  obtain ⟨T0, hT0, -⟩ := (C34_ctor r.toGrid x0.data).1 (hlx hx0)
  obtain ⟨T, hT, -⟩ := (C34_ctor r.toGrid x.data).1 (hlx hx)
  obtain ⟨r5, hr5, hgood, q1, q2⟩ := dunavant5_sum
  have key : ∀ t ∈ r.toGrid.triangles, ∀ b : Bary ℝ, b.Inside → ∃ p : (Matrix (Fin 2) (Fin 2) ℝ × Matrix (Fin 2) (Fin 2) ℝ ×
      Matrix (Fin 2) (Fin 2) ℝ) × (ℝ × ℝ × ℝ × ℝ × ℝ) × (Fin 2 → ℝ),
      (D0.strain t b = .ok (matOf p.1.1) ∧ D.strain t b = .ok (matOf p.1.2.1) ∧ T0.call t b = .ok p.2.1.1) ∧
      (T.call t b = .ok p.2.1.2.1 ∧ T.gradient t b = .ok (vecOf p.2.2)) ∧
      (IsHeatCoeff params.fps p.1.1 p.1.2.1 p.2.1.1 p.1.2.2 p.2.1.2.2.1 ∧
        tempAntiderInternalEnergyNoEntropy (matOf p.1.2.1) p.2.1.2.1 = .ok p.2.1.2.2.2.1 ∧
        internalEnergyNoEntropy (matOf p.1.1) p.2.1.1 = .ok p.2.1.2.2.2.2) ∧
      |(p.2.2 ⬝ᵥ p.1.2.2.mulVec p.2.2 - p.2.1.2.2.1 * p.2.1.2.1) -
        (fun z => G z ⬝ᵥ (K z).mulVec (G z) - q z * θ z) (r.toGrid.pointAt t b)| ≤ κ₁ ∧
      |(10 / 2 * (p.2.1.2.1 - p.2.1.1) ^ 2 + (p.2.1.2.2.2.1 - p.2.1.2.2.2.2 * p.2.1.2.1)) -
        (fun z => 10 / 2 * (θ z - θ0 z) ^ 2 + (a z - u z * θ z)) (r.toGrid.pointAt t b)| ≤ κ₂ := by
    intro t ht b hb
    have hz : r.toGrid.pointAt t b ∈ Set.Icc ((0 : ℝ), (0 : ℝ)) (nx * s, ny * s) := by
      rw [← hrect]; exact tri_subset GR ht (pointAt_mem _ t hb)
    obtain ⟨-, F0, -, -, e1, -, -, e2, -⟩ := hf0 t ht b hb
    obtain ⟨-, F, -, -, e3, -, -, e4, -⟩ := hf t ht b hb
    obtain ⟨v0, e5, e6⟩ := P1_values GR hT0 ht (fun v q h => (hxθ v q h).1) (ω := τ) (by rw [hrect]; exact hτ.1) hb
    obtain ⟨v, e7, e8⟩ := P1_values GR hT ht (fun v q h => (hxθ v q h).2) (ω := τ) (by rw [hrect]; exact hτ.2) hb
    obtain ⟨-, gx, gy, -, e9, -, e10, e11⟩ := P1_second_order GR hT ht (fun v q h => (hxθ v q h).2) (M := γ)
      (by rw [hrect]; exact hθ) (by rw [hrect]; exact fun z hz z' hz' a b => ⟨hγ 0 z hz z' hz' a b, hγ 1 z hz z' hz' a b⟩) hb
    obtain ⟨K', q', a', u', k1, k2, k3, k4, k5⟩ := hκ _ hz F0 F v0 v ![gx, gy] (fun i j => ⟨e2 i j, e4 i j⟩) e6 e8
      (by rw [Fin.forall_fin_two]; exact ⟨e10, e11⟩)
    exact ⟨((F0, F, K'), (v0, v, q', a', u'), ![gx, gy]), ⟨e1, e3, e5⟩, ⟨e7, e9⟩, ⟨k1, k2, k3⟩, k4, k5⟩
  obtain ⟨p, hp⟩ := choose_fields key
  have hpk := fun t ht b hb => hp t ht b (hgood.inside b hb)
  have hκ0 : 0 ≤ κ₁ ∧ 0 ≤ κ₂ := by
    have h0 : ((0 : ℝ), (0 : ℝ)) ∈ Set.Icc ((0 : ℝ), (0 : ℝ)) (nx * s, ny * s) := by
      have := (C22_structure HG).1
      exact ⟨le_rfl, by constructor <;> simp <;> positivity⟩
    have hs0 := (C22_structure HG).1
    have hsn : 0 ≤ s / n := by positivity
    have hτ0 : 0 ≤ τ := (abs_nonneg _).trans (hτ.1 _ h0 _ h0 (by simpa using hsn) (by simpa using hsn))
    have hγ0 : 0 ≤ γ := (abs_nonneg _).trans (hγ 0 _ h0 _ h0 (by simpa using hsn) (by simpa using hsn))
    have hω0 : 0 ≤ ω := (abs_nonneg _).trans (hω 0 2 0 rfl _ h0 _ h0 (by simpa using hs0.le) (by simpa using hs0.le))
    have he : 0 ≤ 240 * s * ω := by positivity
    obtain ⟨_, _, _, _, -, -, -, h1, h2⟩ := hκ _ h0 (gradOf Y0 (0, 0)) (gradOf Y (0, 0)) (θ0 (0, 0)) (θ (0, 0)) (G (0, 0))
      (fun i j => by simpa using he) (by simpa using hτ0) (by simpa using hτ0) (fun i => by simpa using hγ0)
    exact ⟨(abs_nonneg _).trans h1, (abs_nonneg _).trans h2⟩
  have c1 := close_error GR hgood q1 q2 (by rw [hrect]; exact hc.1) (by rw [hrect]; exact hν.1)
    (by rw [hrect]; exact fun z hz => (hM z hz).1) (fun t ht b hb => (hpk t ht b hb).2.2.2.1) hκ0.1
  have c2 := close_error GR hgood q1 q2 (by rw [hrect]; exact hc.2) (by rw [hrect]; exact hν.2)
    (by rw [hrect]; exact fun z hz => (hM z hz).2) (fun t ht b hb => (hpk t ht b hb).2.2.2.2) hκ0.2
  rw [ex, ey, hrect] at c1 c2
  refine ⟨_, ⟨r5, fun t b => (p t b).1.1, fun t b => (p t b).1.2.1, fun t b => (p t b).1.2.2, fun t b => (p t b).2.1.1,
    fun t b => (p t b).2.1.2.1, fun t b => (p t b).2.1.2.2.1, fun t b => (p t b).2.1.2.2.2.1, fun t b => (p t b).2.1.2.2.2.2,
    fun t b => (p t b).2.2, 0, hr5, ⟨D0, D, T0, hD0, hD, hT0, fun t ht b hb => (hpk t ht b hb).1⟩,
    ⟨T, hT, fun t ht b hb => (hpk t ht b hb).2.1⟩, fun t ht b hb => (hpk t ht b hb).2.2.1,
    ⟨fun h => (by rw [hreg] at h; cases h), fun _ => rfl⟩, rfl⟩, ?_⟩
  rw [energyGrid]
  have c2' := mul_le_mul_of_nonneg_left c2 (abs_nonneg params.fps)
  rw [← abs_mul, mul_sub] at c2'
  rw [abs_le] at *
  constructor <;> linarith [c1.1, c1.2, c2'.1, c2'.2]

/-! ### concrete cases -/

theorem stretch_grad (a c : ℝ) (z : ℝ × ℝ) : gradOf (stretchY a c) z = !![a + 2 * c * z.1, 0; 0, 1] := by
  ext i j
  fin_cases i <;> fin_cases j <;> simp [gradOf, stretchY]

theorem stretch_det {a c : ℝ} (ha : 0 < a) (hc : 0 ≤ c) {z : ℝ × ℝ} (hz : 0 ≤ z.1) : 0 < (gradOf (stretchY a c) z).det := by
  rw [stretch_grad, Matrix.det_fin_two]
  simp
  positivity

/-- nodal values of a function on a grid -/
theorem nodal_values {g : Grid ℝ} {nx ny : ℕ} {s : ℝ} (G : LibraryGrid g nx ny s) (θ : ℝ × ℝ → ℝ) :
    ∃ x : NdArray, x.Has [g.vertices.length] ∧ ∀ v q, g.At v q → x.data[v]? = some (θ q) := by
  refine ⟨⟨[g.vertices.length], (List.range g.vertices.length).map fun v => θ (g.xy v)⟩, ⟨rfl, by simp [NdArray.Ok]⟩, fun v q hq => ?_⟩
  have h : v < g.points.length := (List.getElem?_eq_some_iff.1 hq).1
  have h' : v < g.vertices.length := by
    rw [(C22_structure G).2.2.2.1, List.length_range]
    rwa [(C22_structure G).2.2.2.2.1] at h
  simp [List.getElem?_range h', xy_of_at hq]

/-- The body is stretched from `(x, y)` to `(2 x, y)` and heated from `1` to `2`: the thermal objective on the sample grid is the value
of the integrands at the two strains and temperatures, up to rounding errors of the weights of the quadrature rule. -/
example (it : SetIter) (leg : LegGauss) (ext : ExtTemp) : ∃ y0 y x0 x J K q a u,
    y0.HoldsC1 (sampleGrid it) (stretchY 1 0) ∧ y.HoldsC1 (sampleGrid it) (stretchY 2 0) ∧
    IsThermObjective leg exampleParamsReg ext (sampleGrid it) (some (sampleRefined it)) 0 y0 y x0 x J ∧
    IsHeatCoeff 3 !![1, 0; 0, 1] !![2, 0; 0, 1] 1 K q ∧
    tempAntiderInternalEnergyNoEntropy (matOf !![2, 0; 0, 1]) 2 = .ok a ∧ internalEnergyNoEntropy (matOf !![1, 0; 0, 1]) 1 = .ok u ∧
    |J - (-(q * 2) + 3 * (5 + (a - u * 2)))| ≤ (|q * 2| + 3 * |5 + (a - u * 2)|) / 10 ^ 14 := by
  have G : LibraryGrid (sampleGrid it) 2 2 (1 / 2) := sampleGrid_library it
  obtain ⟨y0, hy0⟩ := nodal_arrays_c1 G (stretchY 1 0)
  obtain ⟨y, hy⟩ := nodal_arrays_c1 G (stretchY 2 0)
  obtain ⟨x0, hx0, hx0'⟩ := nodal_values (sampleRefined_spec it).1 fun _ => 1
  obtain ⟨x, hx, hx'⟩ := nodal_values (sampleRefined_spec it).1 fun _ => 2
  have g1 : ∀ a z, gradOf (stretchY a 0) z = !![a, 0; 0, 1] := fun a z => by rw [stretch_grad]; simp
  have d1 : 0 < (Matrix.of (!![1, 0; 0, 1] : Matrix (Fin 2) (Fin 2) ℝ)).det := by
    change 0 < (!![1, 0; 0, 1] : Matrix (Fin 2) (Fin 2) ℝ).det
    simp [Matrix.det_fin_two]
  have d2 : 0 < (!![2, 0; 0, 1] : Matrix (Fin 2) (Fin 2) ℝ).det := by simp [Matrix.det_fin_two]
  have hK := heatCoeff_value (fps := 3) (by norm_num) (F0 := !![1, 0; 0, 1]) (F := !![2, 0; 0, 1]) d1 1
  have ha := tempAntider_value d2 2
  have hu := internal_value (F := !![1, 0; 0, 1]) d1 1
  set K := kVal !![1, 0; 0, 1] with hKd
  set q := qVal 3 !![1, 0; 0, 1] !![2, 0; 0, 1] 1 with hqd
  generalize hav : anti 2 * (wA !![2, 0; 0, 1] - wM !![2, 0; 0, 1]) = a at ha
  generalize huv : (1 - Real.exp (-5 * 1) - 1 * (5 * Real.exp (-5 * 1))) * (wA !![1, 0; 0, 1] - wM !![1, 0; 0, 1]) = u at hu
  obtain ⟨J, h1, h2⟩ := C103_thermal G (n := 2) (by norm_num) (by norm_num) (sampleRefined_eq it) leg (params := exampleParamsReg)
    (c := 1 / 10) rfl ext 0 hy0 hy hx0 hx (fun v q h => ⟨hx0' v q h, hx' v q h⟩) (θ0 := fun _ => 1) (θ := fun _ => 2) (q := fun _ => q)
    (a := fun _ => a) (u := fun _ => u) (K := fun _ => K) (G := fun _ => 0) (ω := 0) (τ := 0) (γ := 0) (κ₁ := 0) (κ₂ := 0) (ν₁ := 0)
    (ν₂ := 0) (M₁ := |q * 2|) (M₂ := |5 + (a - u * 2)|) (fun k => stretch_partials _ _ _ k)
    (fun k => stretch_partials _ _ _ k) (fun k i j h => stretch_varies _ _ _ _ _ h _ _) (fun k i j h => stretch_varies _ _ _ _ _ h _ _)
    ⟨fun z _ z' _ _ _ => by simp, fun z _ z' _ _ _ => by simp⟩
    (fun z _ => (hasFDerivAt_const (2 : ℝ) z).congr_fderiv (by ext <;> simp [lin])) (fun i z _ z' _ _ _ => by simp)
    (fun z _ => ⟨by rw [g1, g1]; exact hK, by rw [g1]; exact ha, by rw [g1]; exact hu⟩)
    (fun z _ F0 F T0 T D hF hT0 hT hD => by
      have z0 : ∀ {a b : ℝ}, |a - b| ≤ 0 → a = b := fun h => sub_eq_zero.1 (abs_nonpos_iff.1 h)
      simp only [mul_zero, g1] at hF
      have f0 : F0 = !![1, 0; 0, 1] := by ext i j; exact z0 (hF i j).1
      have f1 : F = !![2, 0; 0, 1] := by ext i j; exact z0 (hF i j).2
      have t0 := z0 hT0
      have t1 := z0 hT
      have dd : D = 0 := funext fun i => z0 (hD i)
      subst f0 f1 t0 t1 dd
      exact ⟨K, q, a, u, hK, ha, hu, by simp, by simp⟩)
    ⟨continuousOn_const, continuousOn_const⟩ ⟨fun z _ z' _ _ _ => by simp, fun z _ z' _ _ _ => by simp⟩
    (fun z _ => ⟨by simp, by norm_num⟩)
  refine ⟨y0, y, x0, x, J, K, q, a, u, hy0, hy, h1, hK, ha, hu, ?_⟩
  have hvol : volume.real (Set.Icc ((0 : ℝ), (0 : ℝ)) (((2 : ℕ) : ℝ) * (1 / 2), ((2 : ℕ) : ℝ) * (1 / 2))) = 1 := by
    rw [measureReal_def, ← Set.Icc_prod_Icc, Measure.volume_eq_prod, Measure.prod_prod, Real.volume_Icc, ENNReal.toReal_mul]
    norm_num
  have hf : exampleParamsReg.fps = 3 := rfl
  rw [setIntegral_const, setIntegral_const, hvol, hf] at h2
  have e : (10 / 2 * (2 - 1) ^ 2 + (a - u * 2) : ℝ) = 5 + (a - u * 2) := by norm_num
  simp only [smul_eq_mul, one_mul, zero_dotProduct, zero_sub, e] at h2
  refine h2.trans (le_of_eq ?_)
  norm_num
  ring

/-- The body is stretched from `(x, y)` to `(x + x² / 10, y)` and its temperature changes from `1 + x` to `x`: the hypotheses of
`C103_mechanical_limit` and `C103_thermal_limit` are met. -/
example (leg : LegGauss) (traction : Traction) (ext : ExtTemp) : ∃ L L' : ℝ, ∀ ε > 0, ∃ δ > 0, ∀ s, 0 < s → s < δ → ∀ it g,
    sampleDomain.grid it s = .ok g → ∀ n : ℕ, 1 ≤ n → 1 / 10 ^ 15 ≤ s / n → ∃ r y0 y x0 x J J', sampleDomain.refine g n = .ok r ∧
      IsMechObjective leg exampleParamsReg traction g (some r) 1 y0 y x0 J ∧
      IsThermObjective leg exampleParamsReg ext g (some r) 1 y0 y x0 x J' ∧ |J - L| ≤ ε ∧ |J' - L'| ≤ ε := by
  have hw : 0 < sampleDomain.width := by norm_num [sampleDomain]
  have hh : 0 < sampleDomain.height := by norm_num [sampleDomain]
  have hd : ∀ c, 0 ≤ c → ∀ z ∈ Set.Icc ((0 : ℝ), (0 : ℝ)) (sampleDomain.width, sampleDomain.height),
      0 < (gradOf (stretchY 1 c) z).det := fun c hc z hz => stretch_det one_pos hc hz.1.1
  have hp := fun a c k => stretch_partials a c (Set.Icc (0, 0) (sampleDomain.width, sampleDomain.height)) k
  have hcont : ∀ a c k i j, i + j = 2 → ContinuousOn (stretchY a c k i j) (Set.Icc (0, 0) (sampleDomain.width, sampleDomain.height)) :=
    fun a c k i j h => by rw [stretch_second _ _ _ h]; exact continuousOn_const
  obtain ⟨r1, -, -, -, c1⟩ := C103_mechanical_limit sampleDomain hw hh leg (params := exampleParamsReg) (c := 1 / 10) rfl traction 1
    (Y0 := stretchY 1 0) (Y := stretchY 1 (1 / 10)) (θ := fun z => 1 + z.1) (hp _ _) (hp _ _) (hcont _ _) (hcont _ _)
    (hd _ (by norm_num)) (by fun_prop) (fun z hz => totalElastic_value (hd _ (by norm_num) z hz) _) (fun z _ => C51_value _ _)
  obtain ⟨r2, -, -, -, c2⟩ := C103_thermal_limit sampleDomain hw hh leg (params := exampleParamsReg) (c := 1 / 10) rfl
    (by norm_num [exampleParamsReg, exampleParams]) ext 1 (Y0 := stretchY 1 0) (Y := stretchY 1 (1 / 10)) (θ0 := fun z => 1 + z.1)
    (θ := fun z => z.1) (G := fun _ => ![1, 0]) (hp _ _) (hp _ _) (hcont _ _) (hcont _ _)
    (fun z hz => ⟨hd _ le_rfl z hz, hd _ (by norm_num) z hz⟩) (by fun_prop)
    (fun z _ => hasFDerivAt_fst.congr_fderiv (by ext <;> simp [lin])) (fun i => continuousOn_const)
    (fun z hz => heatCoeff_value (F0 := fun i j => gradOf (stretchY 1 0) z i j) (F := fun i j => gradOf (stretchY 1 (1 / 10)) z i j)
      (by norm_num [exampleParamsReg, exampleParams]) (hd _ le_rfl z hz) _)
    (fun z hz => tempAntider_value (hd _ (by norm_num) z hz) _) (fun z hz => internal_value (hd _ le_rfl z hz) _)
  apply Exists.intro
  apply Exists.intro
  intro ε hε
  obtain ⟨δ1, h1, k1⟩ := c1 ε hε
  obtain ⟨δ2, h2, k2⟩ := c2 ε hε
  refine ⟨min (min δ1 δ2) 1, by positivity, fun s hs hsδ it g hg n hn hsn => ?_⟩
  simp only [lt_min_iff] at hsδ
  obtain ⟨⟨s1, s2⟩, s3⟩ := hsδ
  have G := LibraryGrid.grid hs (s3.le.trans (by norm_num [sampleDomain])) (s3.le.trans (by norm_num [sampleDomain])) hg
  obtain ⟨r, hr, GR, -⟩ := C22_refine G sampleDomain hn hsn
  obtain ⟨y0, hy0⟩ := nodal_arrays_c1 G (stretchY 1 0)
  obtain ⟨y, hy⟩ := nodal_arrays_c1 G (stretchY 1 (1 / 10))
  obtain ⟨x0, hx0, hx0'⟩ := nodal_values GR fun z => 1 + z.1
  obtain ⟨x, hx, hx'⟩ := nodal_values GR fun z => z.1
  obtain ⟨J, j1, j2⟩ := k1 s hs s1 it g hg n hn hsn r hr y0 y x0 hy0 hy hx0 hx0'
  obtain ⟨J', j3, j4⟩ := k2 s hs s2 it g hg n hn hsn r hr y0 y x0 x hy0 hy hx0 hx fun v q h => ⟨hx0' v q h, hx' v q h⟩
  exact ⟨r, y0, y, x0, x, J, J', hr, j1, j3, j2, j4⟩

end Tve
