import Verif.Lemmas.ConsistencyTherm
import Verif.Props.Usable

/-!
# C95 — consistency of the energies of a simulation without regularization
-/

namespace Tve

open MeasureTheory Helpers

theorem wAM_continuousAt {A : Fin 2 → Fin 2 → ℝ} {x : ℝ} (h : 0 < (Matrix.of A).det) :
    ContinuousAt (fun p : (Fin 2 → Fin 2 → ℝ) × ℝ =>
      (1 - Real.exp (-5 * p.2)) * wA (Matrix.of p.1) + Real.exp (-5 * p.2) * wM (Matrix.of p.1)) (A, x) := by
  have hd : ∀ i j, ContinuousAt (fun p : (Fin 2 → Fin 2 → ℝ) × ℝ => p.1 i j) (A, x) := fun i j => by fun_prop
  have hx : ContinuousAt (fun p : (Fin 2 → Fin 2 → ℝ) × ℝ => p.2) (A, x) := by fun_prop
  rw [Matrix.det_fin_two] at h
  simp only [Matrix.of_apply] at h
  have hne := h.ne'
  simp only [wA, wM, fsq, Matrix.det_fin_two, Matrix.of_apply]
  have h0 := hd 0 0
  have h1 := hd 0 1
  have h2 := hd 1 0
  have h3 := hd 1 1
  fun_prop (disch := first | assumption | positivity)

theorem det_close {R : Set (ℝ × ℝ)} (hR : IsCompact R) {F : ℝ × ℝ → Fin 2 → Fin 2 → ℝ} (hF : ContinuousOn F R)
    (hdet : ∀ z ∈ R, 0 < (Matrix.of (F z)).det) :
    ∃ η > 0, ∀ z ∈ R, ∀ A : Fin 2 → Fin 2 → ℝ, dist (F z) A < η → 0 < (Matrix.of A).det := by
  have ho : IsOpen {A : Fin 2 → Fin 2 → ℝ | 0 < (Matrix.of A).det} := by
    refine isOpen_lt continuous_const ?_
    simp only [Matrix.det_fin_two, Matrix.of_apply]
    fun_prop
  obtain ⟨η, hη, hsub⟩ := (hR.image_of_continuousOn hF).exists_thickening_subset_open ho
    (by rintro _ ⟨z, hz, rfl⟩; exact hdet z hz)
  refine ⟨η, hη, fun z hz A hA => hsub ?_⟩
  rw [Metric.mem_thickening_iff]
  exact ⟨_, ⟨z, hz, rfl⟩, by rwa [dist_comm]⟩

/-- Elastic energy: for a continuously differentiable deformation `Y` of the rectangle of a domain, with gradient `F` of positive
determinant, and a continuous temperature `θ`, the elastic energies of the nodal interpolations of `Y` and `θ`, as used in the
mechanical step without regularization, converge to the integral of the total elastic potential of `F` and `θ` as the scale of the
grids of the domain tends to zero. -/
theorem C95_elastic (d : RectDomain ℝ) (hw : 0 < d.width) (hh : 0 < d.height) {Y : ℝ × ℝ → ℝ × ℝ}
    {F : ℝ × ℝ → Fin 2 → Fin 2 → ℝ} {θ : ℝ × ℝ → ℝ} {W : ℝ × ℝ → ℝ}
    (hY : ∀ z ∈ Set.Icc ((0 : ℝ), (0 : ℝ)) (d.width, d.height),
      HasFDerivAt (fun z => (Y z).1) (lin (F z 0 0) (F z 0 1)) z ∧ HasFDerivAt (fun z => (Y z).2) (lin (F z 1 0) (F z 1 1)) z)
    (hF : ∀ i j, ContinuousOn (fun z => F z i j) (Set.Icc (0, 0) (d.width, d.height)))
    (hdet : ∀ z ∈ Set.Icc ((0 : ℝ), (0 : ℝ)) (d.width, d.height), 0 < (Matrix.of (F z)).det)
    (hθ : ContinuousOn θ (Set.Icc (0, 0) (d.width, d.height)))
    (hW : ∀ z ∈ Set.Icc ((0 : ℝ), (0 : ℝ)) (d.width, d.height), totalElasticPotential (matOf (Matrix.of (F z))) (θ z) = .ok (W z))
    {ε : ℝ} (hε : 0 < ε) :
    ∃ δ > 0, ∀ s, 0 < s → s < δ → ∀ it g, d.grid it s = .ok g → ∀ y x : NdArray, y.Has [g.vertices.length, 2] →
      x.Has [g.vertices.length] → (∀ v q, g.At v q → y.deformed v = Y q ∧ x.data[v]? = some (θ q)) →
      ∃ E, IsElasticEnergy g none y x E ∧ |E - ∫ z in Set.Icc ((0 : ℝ), (0 : ℝ)) (d.width, d.height), W z| ≤ ε := by
  set R := Set.Icc ((0 : ℝ), (0 : ℝ)) (d.width, d.height) with hR
  have hF' : ContinuousOn F R := continuousOn_pi.2 fun i => continuousOn_pi.2 fun j => hF i j
  set Φ : (Fin 2 → Fin 2 → ℝ) × ℝ → ℝ := fun p =>
    (1 - Real.exp (-5 * p.2)) * wA (Matrix.of p.1) + Real.exp (-5 * p.2) * wM (Matrix.of p.1) with hΦ
  obtain ⟨r, hr, hgood, hsum⟩ := dunavant2_good
  obtain ⟨δ1, h1, η1, hη1, c1⟩ := consistency d hw hh hgood.len hgood.inside hsum (V := fun z => (F z, θ z)) (W := Φ)
    (hF'.prodMk hθ) (fun z hz => wAM_continuousAt (hdet z hz)) hε
  obtain ⟨η2, hη2, c2⟩ := det_close isCompact_Icc hF' hdet
  obtain ⟨δ3, h3, c3⟩ := strain_convergence d hw hh hY hF (lt_min hη1 hη2)
  obtain ⟨δ4, h4, c4⟩ := small_variation hθ (half_pos hη1)
  refine ⟨min (min δ1 δ3) (min δ4 (min d.width d.height)), by positivity, fun s hs hsδ it g hg y x hy hx hn => ?_⟩
  simp only [lt_min_iff] at hsδ
  obtain ⟨⟨s1, s3⟩, s4, sw, sh⟩ := hsδ
  have G := LibraryGrid.grid hs sw.le sh.le hg
  have hsub : gridRect (cells d.width s) (cells d.height s) s ⊆ R :=
    Set.Icc_subset_Icc le_rfl ⟨(cells_strip hs hw.le).1, (cells_strip hs hh.le).1⟩
  obtain ⟨D, S, hD, hS⟩ := c3 s hs s3 it g hg y hy fun v q h => (hn v q h).1
  obtain ⟨T, hT, -⟩ := (C34_ctor g x.data).1 (by have := hx.2; rw [NdArray.Ok, hx.1] at this; simpa using this)
  have hval : ∀ t ∈ g.triangles, ∀ b : Bary ℝ, b.Inside → ∃ v, T.call t b = .ok v ∧ |v - θ (g.pointAt t b)| ≤ η1 / 2 :=
    fun t ht b hb => P1_values G hT ht (fun v q h => (hn v q h).2)
      (fun z hz z' hz' e1 e2 => c4 s s4 z (hsub hz) z' (hsub hz') e1 e2) hb
  classical
  set x' : Tri → Bary ℝ → ℝ := fun t b => if h : t ∈ g.triangles ∧ b.Inside then (hval t h.1 b h.2).choose else 0 with hx'
  have hx'' : ∀ t ∈ g.triangles, ∀ b : Bary ℝ, b.Inside → T.call t b = .ok (x' t b) ∧ |x' t b - θ (g.pointAt t b)| ≤ η1 / 2 := by
    intro t ht b hb
    simp only [hx', dif_pos (And.intro ht hb)]
    exact (hval t ht b hb).choose_spec
  refine ⟨g.quad r fun t b => Φ (S t b, x' t b), ⟨D, T, r, _, hD, hT, hr, fun t ht b hb => ⟨_, _, (hS t ht b (hgood.inside b hb)).1,
    (hx'' t ht b (hgood.inside b hb)).1, ?_⟩, rfl⟩, ?_⟩
  · have hz := hsub (tri_subset G ht (pointAt_mem g t (hgood.inside b hb)))
    exact totalElastic_value (c2 _ hz _ ((hS t ht b (hgood.inside b hb)).2.trans_le (min_le_right _ _))) _
  · have hint : ∫ z in R, W z = ∫ z in R, Φ (F z, θ z) := by
      refine setIntegral_congr_fun measurableSet_Icc fun z hz => ?_
      exact Except.ok.inj ((hW z hz).symm.trans (totalElastic_value (hdet z hz) _))
    rw [hint]
    refine c1 s hs s1 it g hg (fun t b => (S t b, x' t b)) fun t ht b hb => ?_
    rw [Prod.dist_eq, max_lt_iff]
    refine ⟨(hS t ht b (hgood.inside b hb)).2.trans_le (min_le_left _ _), ?_⟩
    rw [dist_comm, Real.dist_eq]
    exact (hx'' t ht b (hgood.inside b hb)).2.trans_lt (by linarith)

theorem dissip_continuous : Continuous fun p : (Fin 2 → Fin 2 → ℝ) × (Fin 2 → Fin 2 → ℝ) =>
    (∑ i, ∑ j, ((Matrix.of p.2 - Matrix.of p.1).transpose * Matrix.of p.1 +
      (Matrix.of p.1).transpose * (Matrix.of p.2 - Matrix.of p.1)) i j ^ 2) / 2 := by
  simp only [Fin.sum_univ_two, Matrix.add_apply, Matrix.mul_apply, Matrix.transpose_apply, Matrix.sub_apply, Matrix.of_apply]
  fun_prop

/-- Dissipation: for two continuously differentiable deformations `Y0`, `Y` with gradients `F0`, `F`, the dissipation of their nodal
interpolations, as used in the mechanical step without regularization, converges to the integral of the dissipation potential. -/
theorem C95_dissipation (d : RectDomain ℝ) (hw : 0 < d.width) (hh : 0 < d.height) {Y0 Y : ℝ × ℝ → ℝ × ℝ}
    {F0 F : ℝ × ℝ → Fin 2 → Fin 2 → ℝ} {W : ℝ × ℝ → ℝ}
    (hY0 : ∀ z ∈ Set.Icc ((0 : ℝ), (0 : ℝ)) (d.width, d.height),
      HasFDerivAt (fun z => (Y0 z).1) (lin (F0 z 0 0) (F0 z 0 1)) z ∧ HasFDerivAt (fun z => (Y0 z).2) (lin (F0 z 1 0) (F0 z 1 1)) z)
    (hY : ∀ z ∈ Set.Icc ((0 : ℝ), (0 : ℝ)) (d.width, d.height),
      HasFDerivAt (fun z => (Y z).1) (lin (F z 0 0) (F z 0 1)) z ∧ HasFDerivAt (fun z => (Y z).2) (lin (F z 1 0) (F z 1 1)) z)
    (hF0 : ∀ i j, ContinuousOn (fun z => F0 z i j) (Set.Icc (0, 0) (d.width, d.height)))
    (hF : ∀ i j, ContinuousOn (fun z => F z i j) (Set.Icc (0, 0) (d.width, d.height)))
    (hW : ∀ z ∈ Set.Icc ((0 : ℝ), (0 : ℝ)) (d.width, d.height),
      dissipationPotential (matOf (Matrix.of (F0 z))) (matOf (Matrix.of (F z))) = .ok (W z))
    {ε : ℝ} (hε : 0 < ε) :
    ∃ δ > 0, ∀ s, 0 < s → s < δ → ∀ it g, d.grid it s = .ok g → ∀ y0 y : NdArray, y0.Has [g.vertices.length, 2] →
      y.Has [g.vertices.length, 2] → (∀ v q, g.At v q → y0.deformed v = Y0 q ∧ y.deformed v = Y q) →
      ∃ D, IsDissipation g none y0 y D ∧ |D - ∫ z in Set.Icc ((0 : ℝ), (0 : ℝ)) (d.width, d.height), W z| ≤ ε := by
  set R := Set.Icc ((0 : ℝ), (0 : ℝ)) (d.width, d.height) with hR
  have hF0' : ContinuousOn F0 R := continuousOn_pi.2 fun i => continuousOn_pi.2 fun j => hF0 i j
  have hF' : ContinuousOn F R := continuousOn_pi.2 fun i => continuousOn_pi.2 fun j => hF i j
  obtain ⟨r, hr, hgood, hsum⟩ := centroid_good
  obtain ⟨δ1, h1, η1, hη1, c1⟩ := consistency d hw hh hgood.len hgood.inside hsum (V := fun z => (F0 z, F z)) (hF0'.prodMk hF')
    (fun z _ => dissip_continuous.continuousAt) hε
  obtain ⟨δ2, h2, c2⟩ := strain_convergence d hw hh hY0 hF0 hη1
  obtain ⟨δ3, h3, c3⟩ := strain_convergence d hw hh hY hF hη1
  refine ⟨min δ1 (min δ2 δ3), by positivity, fun s hs hsδ it g hg y0 y hy0 hy hn => ?_⟩
  simp only [lt_min_iff] at hsδ
  obtain ⟨s1, s2, s3⟩ := hsδ
  obtain ⟨D0, S0, hD0, hS0⟩ := c2 s hs s2 it g hg y0 hy0 fun v q h => (hn v q h).1
  obtain ⟨D, S, hD, hS⟩ := c3 s hs s3 it g hg y hy fun v q h => (hn v q h).2
  refine ⟨_, ⟨D0, D, r, _, hD0, hD, hr, fun t ht b hb => ⟨_, _, (hS0 t ht b (hgood.inside b hb)).1,
    (hS t ht b (hgood.inside b hb)).1, C51_value _ _⟩, rfl⟩, ?_⟩
  have hint : ∫ z in R, W z = ∫ z in R, (∑ i, ∑ j, ((Matrix.of (F z) - Matrix.of (F0 z)).transpose * Matrix.of (F0 z) +
      (Matrix.of (F0 z)).transpose * (Matrix.of (F z) - Matrix.of (F0 z))) i j ^ 2) / 2 := by
    refine setIntegral_congr_fun measurableSet_Icc fun z hz => ?_
    exact Except.ok.inj ((hW z hz).symm.trans (C51_value _ _))
  rw [hint]
  refine c1 s hs s1 it g hg (fun t b => (S0 t b, S t b)) fun t ht b hb => ?_
  rw [Prod.dist_eq, max_lt_iff]
  exact ⟨(hS0 t ht b (hgood.inside b hb)).2, (hS t ht b (hgood.inside b hb)).2⟩

theorem LegSound.rule {leg : LegGauss} (h : LegSound leg) : ∃ r, GaussRule.new leg 1 = .ok r ∧
    r.points.length = r.weights.length ∧ (∀ t ∈ r.points, 0 ≤ t ∧ t ≤ 1) ∧ r.weights.sum = 1 := by
  obtain ⟨Q, W, h1, h2, h3, h4⟩ := h
  refine ⟨_, by rw [GaussRule.new, h1]; rfl, by simpa using h2, ?_, ?_⟩
  · intro t ht
    obtain ⟨q, hq, rfl⟩ := List.mem_map.1 ht
    obtain ⟨a, b⟩ := h3 q hq
    constructor <;> linarith
  · simp only [div_eq_mul_inv]
    rw [List.sum_map_mul_right]
    simp [h4]

/-- Work of the boundary traction: for continuous `Y` and continuous traction `T` at a time, the work of the nodal interpolations
over the Neumann edges converges to the integral of `T · Y` over the sides that are not fixed. -/
theorem C95_work (d : RectDomain ℝ) (hw : 0 < d.width) (hh : 0 < d.height) {leg : LegGauss} (hleg : LegSound leg)
    {traction : Traction} {time : ℝ} {Y T : ℝ × ℝ → ℝ × ℝ} (hY : ContinuousOn Y (Set.Icc (0, 0) (d.width, d.height)))
    (hT : ContinuousOn T (Set.Icc (0, 0) (d.width, d.height)))
    (htr : ∀ z ∈ Set.Icc ((0 : ℝ), (0 : ℝ)) (d.width, d.height), traction time z.1 z.2 = .ok [(T z).1, (T z).2])
    {ε : ℝ} (hε : 0 < ε) :
    ∃ δ > 0, ∀ s, 0 < s → s < δ → ∀ it g, d.grid it s = .ok g → ∀ y : NdArray, (∀ v q, g.At v q → y.deformed v = Y q) →
      ∃ w, IsBoundaryWork leg g traction time y w ∧ |w - ((allSides.filter (· ∉ d.fix.options)).map
        (sideIntegral d.width d.height fun z => (T z).1 * (Y z).1 + (T z).2 * (Y z).2)).sum| ≤ ε := by
  obtain ⟨r, hr, hlen, hin, hsum⟩ := hleg.rule
  obtain ⟨δ1, h1, η, hη, c1⟩ := edge_consistency d hw hh (allSides.filter (· ∉ d.fix.options)) hlen hin hsum
    (V := fun z => (T z, Y z)) (hT.prodMk hY) (W := fun p : (ℝ × ℝ) × (ℝ × ℝ) => p.1.1 * p.2.1 + p.1.2 * p.2.2)
    (fun z _ => by fun_prop) hε
  obtain ⟨δ2, h2, c2⟩ := small_variation hT.fst (half_pos hη)
  obtain ⟨δ3, h3, c3⟩ := small_variation hT.snd (half_pos hη)
  obtain ⟨δ4, h4, c4⟩ := small_variation hY.fst (half_pos hη)
  obtain ⟨δ5, h5, c5⟩ := small_variation hY.snd (half_pos hη)
  refine ⟨min (min δ1 (min δ2 δ3)) (min (min δ4 δ5) (min d.width d.height)), by positivity, fun s hs hsδ it g hg y hn => ?_⟩
  simp only [lt_min_iff] at hsδ
  obtain ⟨⟨s1, s2, s3⟩, ⟨s4, s5⟩, sw, sh⟩ := hsδ
  have G := LibraryGrid.grid hs sw.le sh.le hg
  have hWF := G.wellFormed
  have hxy : ∀ v ∈ g.vertices, g.At v (g.xy v) := by
    intro v hv
    rw [hWF.vertices, List.mem_range] at hv
    obtain ⟨q, hq⟩ := hWF.planar v hv
    rwa [xy_of_at hq]
  have hmem : ∀ v ∈ g.vertices, g.xy v ∈ Set.Icc ((0 : ℝ), (0 : ℝ)) (d.width, d.height) := by
    intro v hv
    obtain ⟨a, b, c, e⟩ := (C10_points_in_rectangle hw.le hh.le hs hg).1 v _ (hxy v hv)
    exact ⟨⟨a, c⟩, b, e⟩
  refine ⟨_, ⟨r, fun v => T (g.xy v), hr, fun v hv => ⟨_, htr _ (hmem v (hWF.neumann.1 v hv)), rfl, rfl⟩, rfl⟩, ?_⟩
  have hsub : gridRect (cells d.width s) (cells d.height s) s ⊆ Set.Icc ((0 : ℝ), (0 : ℝ)) (d.width, d.height) :=
    Set.Icc_subset_Icc le_rfl ⟨(cells_strip hs hw.le).1, (cells_strip hs hh.le).1⟩
  have hbd : ∀ e ∈ g.neumann.edges, e ∈ g.boundary.edges := fun e he => ((C13_partition hw.le hh.le hs hg).2.2.1 e).2 (.inr he)
  refine c1 s hs s1 it g hg g.neumann.edges hbd (fun f hf => (C93_parts hs sw.le sh.le hg hf).2) (fun e τ =>
    ((τ * (T (g.xy e.1)).1 + (1 - τ) * (T (g.xy e.2)).1, τ * (T (g.xy e.1)).2 + (1 - τ) * (T (g.xy e.2)).2),
      (τ * (y.deformed e.1).1 + (1 - τ) * (y.deformed e.2).1, τ * (y.deformed e.1).2 + (1 - τ) * (y.deformed e.2).2)))
    fun e he τ hτ => ?_
  obtain ⟨-, t, ⟨ht, hside⟩, -⟩ := ((C12_boundary_edges hs sw.le sh.le hg).2 e).1 (hbd e he)
  obtain ⟨hτ0, hτ1⟩ := hin τ hτ
  have hv := hWF.edges e (hWF.neumann.2 e he)
  rw [hn _ _ (hxy _ hv.1), hn _ _ (hxy _ hv.2)]
  have k1 := edge_value_close G ht hside (f := fun z => (T z).1) (fun z hz z' hz' e1 e2 => c2 s s2 z (hsub hz) z' (hsub hz') e1 e2)
    hτ0 hτ1
  have k2 := edge_value_close G ht hside (f := fun z => (T z).2) (fun z hz z' hz' e1 e2 => c3 s s3 z (hsub hz) z' (hsub hz') e1 e2)
    hτ0 hτ1
  have k3 := edge_value_close G ht hside (f := fun z => (Y z).1) (fun z hz z' hz' e1 e2 => c4 s s4 z (hsub hz) z' (hsub hz') e1 e2)
    hτ0 hτ1
  have k4 := edge_value_close G ht hside (f := fun z => (Y z).2) (fun z hz z' hz' e1 e2 => c5 s s5 z (hsub hz) z' (hsub hz') e1 e2)
    hτ0 hτ1
  have hlt : η / 2 < η := by linarith
  rw [dist_comm, Prod.dist_eq, Prod.dist_eq, Prod.dist_eq, max_lt_iff, max_lt_iff, max_lt_iff]
  simp only [Real.dist_eq]
  exact ⟨⟨k1.trans_lt hlt, k2.trans_lt hlt⟩, k3.trans_lt hlt, k4.trans_lt hlt⟩

/-- The objective of the mechanical step without regularization: for continuously differentiable deformations `Y0`, `Y`, continuous
temperature `θ` and continuous traction `T`, the objectives at the nodal interpolations converge to elastic energy minus work of the
traction on the sides that are not fixed plus `fps` times dissipation. -/
theorem C95_objective (d : RectDomain ℝ) (hw : 0 < d.width) (hh : 0 < d.height) {leg : LegGauss} (hleg : LegSound leg)
    {traction : Traction} {time : ℝ} {params : SimParams} (hreg : params.regularization = none) {Y0 Y T : ℝ × ℝ → ℝ × ℝ}
    {F0 F : ℝ × ℝ → Fin 2 → Fin 2 → ℝ} {θ W V : ℝ × ℝ → ℝ}
    (hY0 : ∀ z ∈ Set.Icc ((0 : ℝ), (0 : ℝ)) (d.width, d.height),
      HasFDerivAt (fun z => (Y0 z).1) (lin (F0 z 0 0) (F0 z 0 1)) z ∧ HasFDerivAt (fun z => (Y0 z).2) (lin (F0 z 1 0) (F0 z 1 1)) z)
    (hY : ∀ z ∈ Set.Icc ((0 : ℝ), (0 : ℝ)) (d.width, d.height),
      HasFDerivAt (fun z => (Y z).1) (lin (F z 0 0) (F z 0 1)) z ∧ HasFDerivAt (fun z => (Y z).2) (lin (F z 1 0) (F z 1 1)) z)
    (hF0 : ∀ i j, ContinuousOn (fun z => F0 z i j) (Set.Icc (0, 0) (d.width, d.height)))
    (hF : ∀ i j, ContinuousOn (fun z => F z i j) (Set.Icc (0, 0) (d.width, d.height)))
    (hdet : ∀ z ∈ Set.Icc ((0 : ℝ), (0 : ℝ)) (d.width, d.height), 0 < (Matrix.of (F z)).det)
    (hθ : ContinuousOn θ (Set.Icc (0, 0) (d.width, d.height)))
    (hT : ContinuousOn T (Set.Icc (0, 0) (d.width, d.height)))
    (htr : ∀ z ∈ Set.Icc ((0 : ℝ), (0 : ℝ)) (d.width, d.height), traction time z.1 z.2 = .ok [(T z).1, (T z).2])
    (hW : ∀ z ∈ Set.Icc ((0 : ℝ), (0 : ℝ)) (d.width, d.height), totalElasticPotential (matOf (Matrix.of (F z))) (θ z) = .ok (W z))
    (hV : ∀ z ∈ Set.Icc ((0 : ℝ), (0 : ℝ)) (d.width, d.height),
      dissipationPotential (matOf (Matrix.of (F0 z))) (matOf (Matrix.of (F z))) = .ok (V z))
    {ε : ℝ} (hε : 0 < ε) :
    ∃ δ > 0, ∀ s, 0 < s → s < δ → ∀ it g, d.grid it s = .ok g → ∀ y0 y x : NdArray, y0.Has [g.vertices.length, 2] →
      y.Has [g.vertices.length, 2] → x.Has [g.vertices.length] →
      (∀ v q, g.At v q → y0.deformed v = Y0 q ∧ y.deformed v = Y q ∧ x.data[v]? = some (θ q)) →
      ∃ J, IsMechObjective leg params traction g none time y0 y x J ∧
        |J - ((∫ z in Set.Icc ((0 : ℝ), (0 : ℝ)) (d.width, d.height), W z) -
          ((allSides.filter (· ∉ d.fix.options)).map
            (sideIntegral d.width d.height fun z => (T z).1 * (Y z).1 + (T z).2 * (Y z).2)).sum +
          params.fps * ∫ z in Set.Icc ((0 : ℝ), (0 : ℝ)) (d.width, d.height), V z)| ≤ ε := by
  have hYc : ContinuousOn Y (Set.Icc (0, 0) (d.width, d.height)) := fun z hz => by
    have h1 := (hY z hz).1.continuousAt.continuousWithinAt (s := Set.Icc ((0 : ℝ), (0 : ℝ)) (d.width, d.height))
    have h2 := (hY z hz).2.continuousAt.continuousWithinAt (s := Set.Icc ((0 : ℝ), (0 : ℝ)) (d.width, d.height))
    exact h1.prodMk h2
  have hc : 0 < ε / (3 * (|params.fps| + 1)) := by positivity
  obtain ⟨δ1, h1, c1⟩ := C95_elastic d hw hh hY hF hdet hθ hW (show 0 < ε / 3 by positivity)
  obtain ⟨δ2, h2, c2⟩ := C95_dissipation d hw hh hY0 hY hF0 hF hV hc
  obtain ⟨δ3, h3, c3⟩ := C95_work d hw hh hleg hYc hT htr (show 0 < ε / 3 by positivity)
  refine ⟨min δ1 (min δ2 δ3), by positivity, fun s hs hsδ it g hg y0 y x hy0 hy hx hn => ?_⟩
  simp only [lt_min_iff] at hsδ
  obtain ⟨s1, s2, s3⟩ := hsδ
  obtain ⟨E, hE, e1⟩ := c1 s hs s1 it g hg y x hy hx fun v q h => (hn v q h).2
  obtain ⟨D, hD, e2⟩ := c2 s hs s2 it g hg y0 y hy0 hy fun v q h => ⟨(hn v q h).1, (hn v q h).2.1⟩
  obtain ⟨w, hw', e3⟩ := c3 s hs s3 it g hg y fun v q h => (hn v q h).2.1
  refine ⟨E - w + params.fps * D, ⟨E, D, hE, hD, fun _ => ⟨w, hw', rfl⟩, fun κ h => by rw [hreg] at h; cases h⟩, ?_⟩
  have e4 : |params.fps * (D - ∫ z in Set.Icc ((0 : ℝ), (0 : ℝ)) (d.width, d.height), V z)| ≤ ε / 3 := by
    rw [abs_mul]
    refine (mul_le_mul_of_nonneg_left e2 (abs_nonneg _)).trans ?_
    rw [show |params.fps| * (ε / (3 * (|params.fps| + 1))) = (ε / 3) * (|params.fps| / (|params.fps| + 1)) by field_simp]
    have : |params.fps| / (|params.fps| + 1) ≤ 1 := by rw [div_le_one (by positivity)]; linarith
    nlinarith
  rw [mul_sub] at e4
  rw [abs_le] at *
  constructor <;> linarith [e1.1, e1.2, e3.1, e3.2, e4.1, e4.2]

/-- The objective of the thermal step without regularization: for continuously differentiable deformations `Y0`, `Y` with gradients
of positive determinant, continuous previous temperature `θ0` and continuously differentiable temperature `θ` with gradient `G`, the
objectives at the nodal interpolations converge to the integral of diffusion minus heat production times temperature, plus half the
transfer coefficient times the integral of the squared difference to the external temperature over all four sides, plus `fps` times
the integral of the thermal dissipation. -/
theorem C95_thermal (d : RectDomain ℝ) (hw : 0 < d.width) (hh : 0 < d.height) {leg : LegGauss} (hleg : LegSound leg)
    {ext : ExtTemp} {time e : ℝ} (hext : ext time = .ok e) {params : SimParams} (hreg : params.regularization = none)
    (hfps : params.fps ≠ 0) {Y0 Y : ℝ × ℝ → ℝ × ℝ} {F0 F : ℝ × ℝ → Fin 2 → Fin 2 → ℝ} {θ0 θ q a u : ℝ × ℝ → ℝ}
    {G : ℝ × ℝ → Fin 2 → ℝ} {K : ℝ × ℝ → Matrix (Fin 2) (Fin 2) ℝ}
    (hY0 : ∀ z ∈ Set.Icc ((0 : ℝ), (0 : ℝ)) (d.width, d.height),
      HasFDerivAt (fun z => (Y0 z).1) (lin (F0 z 0 0) (F0 z 0 1)) z ∧ HasFDerivAt (fun z => (Y0 z).2) (lin (F0 z 1 0) (F0 z 1 1)) z)
    (hY : ∀ z ∈ Set.Icc ((0 : ℝ), (0 : ℝ)) (d.width, d.height),
      HasFDerivAt (fun z => (Y z).1) (lin (F z 0 0) (F z 0 1)) z ∧ HasFDerivAt (fun z => (Y z).2) (lin (F z 1 0) (F z 1 1)) z)
    (hF0 : ∀ i j, ContinuousOn (fun z => F0 z i j) (Set.Icc (0, 0) (d.width, d.height)))
    (hF : ∀ i j, ContinuousOn (fun z => F z i j) (Set.Icc (0, 0) (d.width, d.height)))
    (hdet : ∀ z ∈ Set.Icc ((0 : ℝ), (0 : ℝ)) (d.width, d.height), 0 < (Matrix.of (F0 z)).det ∧ 0 < (Matrix.of (F z)).det)
    (hθ0 : ContinuousOn θ0 (Set.Icc (0, 0) (d.width, d.height)))
    (hθ : ∀ z ∈ Set.Icc ((0 : ℝ), (0 : ℝ)) (d.width, d.height), HasFDerivAt θ (lin (G z 0) (G z 1)) z)
    (hG : ∀ i, ContinuousOn (fun z => G z i) (Set.Icc (0, 0) (d.width, d.height)))
    (hK : ∀ z ∈ Set.Icc ((0 : ℝ), (0 : ℝ)) (d.width, d.height),
      IsHeatCoeff params.fps (Matrix.of (F0 z)) (Matrix.of (F z)) (θ0 z) (K z) (q z))
    (ha : ∀ z ∈ Set.Icc ((0 : ℝ), (0 : ℝ)) (d.width, d.height),
      tempAntiderInternalEnergyNoEntropy (matOf (Matrix.of (F z))) (θ z) = .ok (a z))
    (hu : ∀ z ∈ Set.Icc ((0 : ℝ), (0 : ℝ)) (d.width, d.height),
      internalEnergyNoEntropy (matOf (Matrix.of (F0 z))) (θ0 z) = .ok (u z))
    {ε : ℝ} (hε : 0 < ε) :
    ∃ δ > 0, ∀ s, 0 < s → s < δ → ∀ it g, d.grid it s = .ok g → ∀ y0 y x0 x : NdArray, y0.Has [g.vertices.length, 2] →
      y.Has [g.vertices.length, 2] → x0.Has [g.vertices.length] → x.Has [g.vertices.length] →
      (∀ v q, g.At v q → y0.deformed v = Y0 q ∧ y.deformed v = Y q ∧ x0.data[v]? = some (θ0 q) ∧ x.data[v]? = some (θ q)) →
      ∃ J, IsThermObjective leg params ext g none time y0 y x0 x J ∧
        |J - ((∫ z in Set.Icc ((0 : ℝ), (0 : ℝ)) (d.width, d.height), (G z ⬝ᵥ (K z).mulVec (G z) - q z * θ z)) +
          (allSides.map (sideIntegral d.width d.height fun z => transferCoeff / 2 * (θ z - e) ^ 2)).sum +
          params.fps * ∫ z in Set.Icc ((0 : ℝ), (0 : ℝ)) (d.width, d.height),
            (10 / 2 * (θ z - θ0 z) ^ 2 + (a z - u z * θ z)))| ≤ ε := by
  set R := Set.Icc ((0 : ℝ), (0 : ℝ)) (d.width, d.height) with hR
  have hF0' : ContinuousOn F0 R := continuousOn_pi.2 fun i => continuousOn_pi.2 fun j => hF0 i j
  have hF' : ContinuousOn F R := continuousOn_pi.2 fun i => continuousOn_pi.2 fun j => hF i j
  have hG' : ContinuousOn G R := continuousOn_pi.2 hG
  have hθc : ContinuousOn θ R := fun z hz => (hθ z hz).continuousAt.continuousWithinAt
  have hc : 0 < ε / (3 * (|params.fps| + 1)) := by positivity
  have hV : ContinuousOn (fun z => ((F0 z, F z, θ0 z, θ z, G z) : HeatPoint)) R :=
    hF0'.prodMk (hF'.prodMk (hθ0.prodMk (hθc.prodMk hG')))
  obtain ⟨r, hr, hgood, hsum⟩ := dunavant2_good
  obtain ⟨δ1, h1, η1, hη1, c1⟩ := consistency d hw hh hgood.len hgood.inside hsum hV (W := heatPhi params.fps)
    (fun z hz => heatPhi_continuousAt _ (hdet z hz).1) (show 0 < ε / 3 by positivity)
  obtain ⟨δ2, h2, η2, hη2, c2⟩ := consistency d hw hh hgood.len hgood.inside hsum hV (W := heatPsi)
    (fun z hz => heatPsi_continuousAt (hdet z hz).1 (hdet z hz).2) hc
  obtain ⟨η3, hη3, c3⟩ := det_close isCompact_Icc hF0' fun z hz => (hdet z hz).1
  obtain ⟨η4, hη4, c4⟩ := det_close isCompact_Icc hF' fun z hz => (hdet z hz).2
  obtain ⟨rg, hrg, hlen, hin, hsumg⟩ := hleg.rule
  obtain ⟨δ8, h8, η8, hη8, c8⟩ := edge_consistency d hw hh allSides hlen hin hsumg (V := θ) hθc
    (W := fun x => transferCoeff / 2 * (x - e) ^ 2) (fun z _ => by fun_prop) (show 0 < ε / 3 by positivity)
  obtain ⟨η, hη, m1, m2, m3, m4, m8⟩ : ∃ η > 0, η ≤ η1 ∧ η ≤ η2 ∧ η ≤ η3 ∧ η ≤ η4 ∧ η ≤ η8 :=
    ⟨min (min η1 η2) (min (min η3 η4) η8), by positivity, by simp, by simp, by simp, by simp, by simp⟩
  obtain ⟨δ3, h3, c5⟩ := strain_convergence d hw hh hY0 hF0 hη
  obtain ⟨δ4, h4, c6⟩ := strain_convergence d hw hh hY hF hη
  obtain ⟨δ5, h5, c7⟩ := small_variation hθ0 (half_pos hη)
  obtain ⟨δ6, h6, c9⟩ := small_variation hθc (half_pos hη)
  obtain ⟨δ7, h7, c10⟩ := C94_convergence d hw hh hθ (hG 0) (hG 1) (half_pos hη)
  obtain ⟨δ, hδ, l1, l2, l3, l4, l5, l6, l7, l8, lw, lh⟩ : ∃ δ > 0, δ ≤ δ1 ∧ δ ≤ δ2 ∧ δ ≤ δ3 ∧ δ ≤ δ4 ∧ δ ≤ δ5 ∧ δ ≤ δ6 ∧
      δ ≤ δ7 ∧ δ ≤ δ8 ∧ δ ≤ d.width ∧ δ ≤ d.height :=
    ⟨min (min (min δ1 δ2) (min δ3 δ4)) (min (min (min δ5 δ6) (min δ7 δ8)) (min d.width d.height)), by positivity,
      by simp, by simp, by simp, by simp, by simp, by simp, by simp, by simp, by simp, by simp⟩
  refine ⟨δ, hδ, fun s hs hsδ it g hg y0 y x0 x hy0 hy hx0 hx hn => ?_⟩
  have sw : s ≤ d.width := hsδ.le.trans lw
  have sh : s ≤ d.height := hsδ.le.trans lh
  have HL := LibraryGrid.grid hs sw sh hg
  have hWF := HL.wellFormed
  have hsub : gridRect (cells d.width s) (cells d.height s) s ⊆ R :=
    Set.Icc_subset_Icc le_rfl ⟨(cells_strip hs hw.le).1, (cells_strip hs hh.le).1⟩
  obtain ⟨D0, S0, hD0, hS0⟩ := c5 s hs (hsδ.trans_le l3) it g hg y0 hy0 fun v q h => (hn v q h).1
  obtain ⟨D, S, hD, hS⟩ := c6 s hs (hsδ.trans_le l4) it g hg y hy fun v q h => (hn v q h).2.1
  have hlx : ∀ {x : NdArray}, x.Has [g.vertices.length] → x.data.length = g.vertices.length := fun {x} hx => by
    have := hx.2; rw [NdArray.Ok, hx.1] at this; simpa using this
  obtain ⟨T0, hT0, -⟩ := (C34_ctor g x0.data).1 (hlx hx0)
  obtain ⟨T, hT, -⟩ := (C34_ctor g x.data).1 (hlx hx)
  have key : ∀ t ∈ g.triangles, ∀ b : Bary ℝ, b.Inside → ∃ w : ℝ × ℝ × (Fin 2 → ℝ), T0.call t b = .ok w.1 ∧
      T.call t b = .ok w.2.1 ∧ T.gradient t b = .ok (vecOf w.2.2) ∧
      dist ((θ0 (g.pointAt t b), θ (g.pointAt t b), G (g.pointAt t b)) : ℝ × ℝ × (Fin 2 → ℝ)) w < η := by
    intro t ht b hb
    obtain ⟨v0, e1, e2⟩ := P1_values HL hT0 ht (fun v q h => (hn v q h).2.2.1)
      (fun z hz z' hz' e1 e2 => c7 s (hsδ.trans_le l5) z (hsub hz) z' (hsub hz') e1 e2) hb
    obtain ⟨v1, e3, e4⟩ := P1_values HL hT ht (fun v q h => (hn v q h).2.2.2)
      (fun z hz z' hz' e1 e2 => c9 s (hsδ.trans_le l6) z (hsub hz) z' (hsub hz') e1 e2) hb
    obtain ⟨-, gx, gy, -, e5, -, e6, e7⟩ := c10 s hs (hsδ.trans_le l7) it g hg x.data (fun v q h => (hn v q h).2.2.2) T hT t ht b hb
    have hlt : η / 2 < η := by linarith
    refine ⟨(v0, v1, ![gx, gy]), e1, e3, e5, ?_⟩
    rw [dist_comm, Prod.dist_eq, Prod.dist_eq, max_lt_iff, max_lt_iff, dist_pi_lt_iff hη, Fin.forall_fin_two]
    simp only [Real.dist_eq]
    exact ⟨e2.trans_lt hlt, e4.trans_lt hlt, e6.trans_lt hlt, e7.trans_lt hlt⟩
  classical
  set w : Tri → Bary ℝ → ℝ × ℝ × (Fin 2 → ℝ) := fun t b =>
    if h : t ∈ g.triangles ∧ b.Inside then (key t h.1 b h.2).choose else (0, 0, 0) with hwdef
  have hwk : ∀ t ∈ g.triangles, ∀ b : Bary ℝ, b.Inside → T0.call t b = .ok (w t b).1 ∧
      T.call t b = .ok (w t b).2.1 ∧ T.gradient t b = .ok (vecOf (w t b).2.2) ∧
      dist ((θ0 (g.pointAt t b), θ (g.pointAt t b), G (g.pointAt t b)) : ℝ × ℝ × (Fin 2 → ℝ)) (w t b) < η := by
    intro t ht b hb
    simp only [hwdef, dif_pos (And.intro ht hb)]
    exact (key t ht b hb).choose_spec
  set P : Tri → Bary ℝ → HeatPoint := fun t b => (S0 t b, S t b, w t b) with hP
  have hPdist : ∀ t ∈ g.triangles, ∀ b ∈ r.points, dist ((F0 (g.pointAt t b), F (g.pointAt t b), θ0 (g.pointAt t b),
      θ (g.pointAt t b), G (g.pointAt t b)) : HeatPoint) (P t b) < η := by
    intro t ht b hb
    have hb' := hgood.inside b hb
    rw [Prod.dist_eq, Prod.dist_eq, max_lt_iff, max_lt_iff]
    exact ⟨(hS0 t ht b hb').2, (hS t ht b hb').2, (hwk t ht b hb').2.2.2⟩
  have hdetS : ∀ t ∈ g.triangles, ∀ b ∈ r.points, 0 < (Matrix.of (S0 t b)).det ∧ 0 < (Matrix.of (S t b)).det := by
    intro t ht b hb
    have hb' := hgood.inside b hb
    have hz := hsub (tri_subset HL ht (pointAt_mem g t hb'))
    exact ⟨c3 _ hz _ ((hS0 t ht b hb').2.trans_le m3), c4 _ hz _ ((hS t ht b hb').2.trans_le m4)⟩
  have hxy : ∀ v ∈ g.vertices, g.At v (g.xy v) := by
    intro v hv
    rw [hWF.vertices, List.mem_range] at hv
    obtain ⟨q, hq⟩ := hWF.planar v hv
    rwa [xy_of_at hq]
  set B := g.edgeQuad g.boundary.edges rg fun ed τ =>
    transferCoeff / 2 * (τ * x.data.getD ed.1 0 + (1 - τ) * x.data.getD ed.2 0 - e) ^ 2 with hB
  have eB : |B - (allSides.map (sideIntegral d.width d.height fun z => transferCoeff / 2 * (θ z - e) ^ 2)).sum| ≤ ε / 3 := by
    refine c8 s hs (hsδ.trans_le l8) it g hg g.boundary.edges (fun _ h => h) (fun f hf => C93_boundary HL hf)
      (fun ed τ => τ * x.data.getD ed.1 0 + (1 - τ) * x.data.getD ed.2 0) fun ed hed τ hτ => ?_
    obtain ⟨-, t, ⟨ht, hside⟩, -⟩ := ((C12_boundary_edges hs sw sh hg).2 ed).1 hed
    obtain ⟨hτ0, hτ1⟩ := hin τ hτ
    have hv := hWF.edges ed (hWF.boundary.2 ed hed)
    have v1 := (hn _ _ (hxy _ hv.1)).2.2.2
    have v2 := (hn _ _ (hxy _ hv.2)).2.2.2
    rw [List.getD_eq_getElem?_getD, List.getD_eq_getElem?_getD, v1, v2, Option.getD_some, Option.getD_some, dist_comm, Real.dist_eq]
    refine (edge_value_close HL ht hside (f := θ)
      (fun z hz z' hz' e1 e2 => c9 s (hsδ.trans_le l6) z (hsub hz) z' (hsub hz') e1 e2) hτ0 hτ1).trans_lt ?_
    linarith
  have e1 := c1 s hs (hsδ.trans_le l1) it g hg P fun t ht b hb => (hPdist t ht b hb).trans_le m1
  have e2 := c2 s hs (hsδ.trans_le l2) it g hg P fun t ht b hb => (hPdist t ht b hb).trans_le m2
  refine ⟨_, ⟨r, fun t b => Matrix.of (S0 t b), fun t b => Matrix.of (S t b), fun t b => kVal (S0 t b), fun t b => (w t b).1,
    fun t b => (w t b).2.1, fun t b => qVal params.fps (S0 t b) (S t b) (w t b).1, fun t b =>
      anti (w t b).2.1 * (wA (Matrix.of (S t b)) - wM (Matrix.of (S t b))), fun t b =>
      ((1 - Real.exp (-5 * (w t b).1) - (w t b).1 * (5 * Real.exp (-5 * (w t b).1))) *
        (wA (Matrix.of (S0 t b)) - wM (Matrix.of (S0 t b)))), fun t b => (w t b).2.2, B, hr,
    ⟨D0, D, T0, hD0, hD, hT0, fun t ht b hb => ⟨(hS0 t ht b (hgood.inside b hb)).1, (hS t ht b (hgood.inside b hb)).1,
      (hwk t ht b (hgood.inside b hb)).1⟩⟩,
    ⟨T, hT, fun t ht b hb => ⟨(hwk t ht b (hgood.inside b hb)).2.1, (hwk t ht b (hgood.inside b hb)).2.2.1⟩⟩,
    fun t ht b hb => ⟨heatCoeff_value hfps (hdetS t ht b hb).1 _, tempAntider_value (hdetS t ht b hb).2 _,
      internal_value (hdetS t ht b hb).1 _⟩,
    ⟨fun _ => ⟨rg, e, hrg, hext, rfl⟩, fun h => absurd hreg h⟩, rfl⟩, ?_⟩
  have i1 : ∫ z in R, (G z ⬝ᵥ (K z).mulVec (G z) - q z * θ z) = ∫ z in R, heatPhi params.fps (F0 z, F z, θ0 z, θ z, G z) := by
    refine setIntegral_congr_fun measurableSet_Icc fun z hz => ?_
    obtain ⟨k1, k2⟩ := heatCoeff_unique (hK z hz) (heatCoeff_value hfps (hdet z hz).1 (θ0 z))
    simp only [heatPhi, k1, k2]
  have i2 : ∫ z in R, (10 / 2 * (θ z - θ0 z) ^ 2 + (a z - u z * θ z)) = ∫ z in R, heatPsi (F0 z, F z, θ0 z, θ z, G z) := by
    refine setIntegral_congr_fun measurableSet_Icc fun z hz => ?_
    have k1 := Except.ok.inj ((ha z hz).symm.trans (tempAntider_value (hdet z hz).2 _))
    have k2 := Except.ok.inj ((hu z hz).symm.trans (internal_value (hdet z hz).1 _))
    simp only [heatPsi, k1, k2]
  rw [i1, i2]
  have e3 : |params.fps * (g.quad r (fun t b => heatPsi (P t b)) - ∫ z in R, heatPsi (F0 z, F z, θ0 z, θ z, G z))| ≤ ε / 3 := by
    rw [abs_mul]
    refine (mul_le_mul_of_nonneg_left e2 (abs_nonneg _)).trans ?_
    rw [show |params.fps| * (ε / (3 * (|params.fps| + 1))) = (ε / 3) * (|params.fps| / (|params.fps| + 1)) by field_simp]
    have : |params.fps| / (|params.fps| + 1) ≤ 1 := by rw [div_le_one (by positivity)]; linarith
    nlinarith
  rw [mul_sub] at e3
  have q1 : ((energyGrid g none).quad r fun t c => (w t c).2.2 ⬝ᵥ (kVal (S0 t c)).mulVec (w t c).2.2 -
      qVal params.fps (S0 t c) (S t c) (w t c).1 * (w t c).2.1) = g.quad r fun t b => heatPhi params.fps (P t b) := rfl
  have q2 : ((energyGrid g none).quad r fun t c => 10 / 2 * ((w t c).2.1 - (w t c).1) ^ 2 +
      (anti (w t c).2.1 * (wA (Matrix.of (S t c)) - wM (Matrix.of (S t c))) -
        (1 - Real.exp (-5 * (w t c).1) - (w t c).1 * (5 * Real.exp (-5 * (w t c).1))) *
          (wA (Matrix.of (S0 t c)) - wM (Matrix.of (S0 t c))) * (w t c).2.1)) = g.quad r fun t b => heatPsi (P t b) := rfl
  rw [q1, q2]
  rw [abs_le] at *
  constructor <;> linarith [e1.1, e1.2, e3.1, e3.2, eB.1, eB.2]

/-! ### a concrete case -/

/-- nodal values of a deformation and of a temperature on a grid of the library -/
theorem nodal_arrays {g : Grid ℝ} {nx ny : ℕ} {s : ℝ} (G : LibraryGrid g nx ny s) (Y : ℝ × ℝ → ℝ × ℝ) (θ : ℝ × ℝ → ℝ) :
    ∃ y x : NdArray, y.Has [g.vertices.length, 2] ∧ x.Has [g.vertices.length] ∧
      ∀ v q, g.At v q → y.deformed v = Y q ∧ x.data[v]? = some (θ q) := by
  set n := g.vertices.length with hn
  have hpos : 0 < n := by
    rw [hn, (C22_structure G).2.2.2.1, List.length_range]
    positivity
  have hv : ∀ v q, g.At v q → v < n := by
    intro v q hq
    have h : v < g.points.length := (List.getElem?_eq_some_iff.1 hq).1
    rw [hn, (C22_structure G).2.2.2.1, List.length_range]
    rwa [(C22_structure G).2.2.2.2.1] at h
  have hy := NdArray.has_pairs (a := (List.range n).map fun v => (Y (g.xy v)).1) (b := (List.range n).map fun v => (Y (g.xy v)).2)
    (n := n) (by simp) (by simp) hpos
  refine ⟨_, ⟨[n], (List.range n).map fun v => θ (g.xy v)⟩, hy, ⟨rfl, by simp [NdArray.Ok]⟩, fun v q hq => ⟨?_, ?_⟩⟩
  · obtain ⟨e1, e2⟩ := NdArray.at2_pairs (a := (List.range n).map fun v => (Y (g.xy v)).1)
      (b := (List.range n).map fun v => (Y (g.xy v)).2) (n := n) (by simp) (by simp) (hv v q hq)
    rw [NdArray.deformed, hy.1]
    simp only
    rw [e1, e2]
    simp [List.getD_eq_getElem?_getD, List.getElem?_range (hv v q hq), xy_of_at hq]
  · simp [List.getElem?_range (hv v q hq), xy_of_at hq]

/-- a stretch that grows with `x`, its gradient, and a temperature that grows with `x` -/
noncomputable def caseY (z : ℝ × ℝ) : ℝ × ℝ := (z.1 + z.1 ^ 2 / 10, z.2)

noncomputable def caseF (z : ℝ × ℝ) : Fin 2 → Fin 2 → ℝ := ![![1 + z.1 / 5, 0], ![0, 1]]

theorem caseY_deriv (z : ℝ × ℝ) : HasFDerivAt (fun z => (caseY z).1) (lin (caseF z 0 0) (caseF z 0 1)) z ∧
    HasFDerivAt (fun z => (caseY z).2) (lin (caseF z 1 0) (caseF z 1 1)) z := by
  have h1 : HasFDerivAt (fun z : ℝ × ℝ => z.1) (ContinuousLinearMap.fst ℝ ℝ ℝ) z := hasFDerivAt_fst
  have h2 : HasFDerivAt (fun z : ℝ × ℝ => z.2) (ContinuousLinearMap.snd ℝ ℝ ℝ) z := hasFDerivAt_snd
  constructor
  · refine (h1.add ((h1.pow 2).mul_const (1 / 10))).congr_fderiv ?_ |>.congr_of_eventuallyEq (.of_forall fun z => ?_)
    · ext <;> simp [lin, caseF] <;> ring
    · simp [caseY]; ring
  · refine h2.congr_fderiv ?_
    ext <;> simp [lin, caseF]

theorem id_deriv (z : ℝ × ℝ) : HasFDerivAt (fun z : ℝ × ℝ => z.1) (lin ((1 : Matrix (Fin 2) (Fin 2) ℝ) 0 0)
    ((1 : Matrix (Fin 2) (Fin 2) ℝ) 0 1)) z ∧
    HasFDerivAt (fun z : ℝ × ℝ => z.2) (lin ((1 : Matrix (Fin 2) (Fin 2) ℝ) 1 0) ((1 : Matrix (Fin 2) (Fin 2) ℝ) 1 1)) z := by
  constructor
  · refine (hasFDerivAt_fst (𝕜 := ℝ) (E := ℝ) (F := ℝ) (p := z)).congr_fderiv ?_
    ext <;> simp [lin]
  · refine (hasFDerivAt_snd (𝕜 := ℝ) (E := ℝ) (F := ℝ) (p := z)).congr_fderiv ?_
    ext <;> simp [lin]

theorem caseF_continuous (S : Set (ℝ × ℝ)) (i j : Fin 2) : ContinuousOn (fun z => caseF z i j) S := by
  have : Continuous fun z : ℝ × ℝ => 1 + z.1 / 5 := by fun_prop
  fin_cases i <;> fin_cases j <;> simp only [caseF] <;> simp <;> first | exact continuousOn_const | exact this.continuousOn

theorem caseF_det {w h : ℝ} {z : ℝ × ℝ} (hz : z ∈ Set.Icc ((0 : ℝ), (0 : ℝ)) (w, h)) : 0 < (Matrix.of (caseF z)).det := by
  have : 0 ≤ z.1 := hz.1.1
  simp [Matrix.det_fin_two, caseF]
  positivity

/-- the midpoint rule -/
noncomputable def midLeg : LegGauss := fun _ => .ok ([0], [2])

theorem midLeg_sound : LegSound midLeg := ⟨[0], [2], rfl, rfl, by simp, by simp⟩

/-- Both objectives converge on the grids of the sample domain for a deformation that is not affine. -/
example : ∃ J1 J2 δ : ℝ, 0 < δ ∧ ∀ s, 0 < s → s < δ → ∀ it, ∃ g y0 y x0 x, sampleDomain.grid it s = .ok g ∧
    ∃ v1 v2, IsMechObjective midLeg (exampleParams) (fun _ a b => .ok [a, b]) g none 1 y0 y x0 v1 ∧
      IsThermObjective midLeg exampleParams (fun t => .ok t) g none 1 y0 y x0 x v2 ∧ |v1 - J1| ≤ 1 / 100 ∧ |v2 - J2| ≤ 1 / 100 := by
  have hw : 0 < sampleDomain.width := by norm_num [sampleDomain]
  have hh : 0 < sampleDomain.height := by norm_num [sampleDomain]
  have hone : ∀ i j : Fin 2, ContinuousOn (fun _ : ℝ × ℝ => (1 : Matrix (Fin 2) (Fin 2) ℝ) i j)
    (Set.Icc (0, 0) (sampleDomain.width, sampleDomain.height)) := fun i j => continuousOn_const
  have d1 : 0 < (Matrix.of fun i j => (1 : Matrix (Fin 2) (Fin 2) ℝ) i j).det := by
    have : (Matrix.of fun i j => (1 : Matrix (Fin 2) (Fin 2) ℝ) i j) = 1 := rfl
    rw [this, Matrix.det_one]; norm_num
  obtain ⟨δ1, h1, c1⟩ := C95_objective sampleDomain hw hh midLeg_sound (traction := fun _ a b => .ok [a, b]) (time := 1)
    (params := exampleParams) rfl (Y0 := id) (Y := caseY) (T := id) (F0 := fun _ i j => (1 : Matrix (Fin 2) (Fin 2) ℝ) i j)
    (F := caseF) (θ := fun z => 1 + z.1) (fun z _ => id_deriv z) (fun z _ => caseY_deriv z) hone (caseF_continuous _)
    (fun z hz => caseF_det hz) (by fun_prop) continuousOn_id (fun z _ => rfl) (fun z hz => totalElastic_value (caseF_det hz) _)
    (fun z _ => C51_value _ _) (ε := 1 / 100) (by norm_num)
  obtain ⟨δ2, h2, c2⟩ := C95_thermal sampleDomain hw hh midLeg_sound (ext := fun t => .ok t) (time := 1) (e := 1) rfl
    (params := exampleParams) rfl (by norm_num [exampleParams]) (Y0 := id) (Y := caseY)
    (F0 := fun _ i j => (1 : Matrix (Fin 2) (Fin 2) ℝ) i j) (F := caseF) (θ0 := fun z => 1 + z.1) (θ := fun z => z.1)
    (G := fun _ => ![1, 0]) (fun z _ => id_deriv z) (fun z _ => caseY_deriv z) hone (caseF_continuous _)
    (fun z hz => ⟨d1, caseF_det hz⟩) (by fun_prop) (fun z _ => by simpa using (id_deriv z).1) (fun i => continuousOn_const)
    (fun z hz => heatCoeff_value (by norm_num [exampleParams]) d1 _) (fun z hz => tempAntider_value (caseF_det hz) _)
    (fun z hz => internal_value d1 _) (ε := 1 / 100) (by norm_num)
  apply Exists.intro
  apply Exists.intro
  refine ⟨min (min δ1 δ2) 1, by positivity, fun s hs hsδ it => ?_⟩
  simp only [lt_min_iff] at hsδ
  obtain ⟨⟨s1, s2⟩, s3⟩ := hsδ
  have sw : s ≤ sampleDomain.width := s3.le.trans (by norm_num [sampleDomain])
  have sh : s ≤ sampleDomain.height := s3.le.trans (by norm_num [sampleDomain])
  obtain ⟨g, ts, hg, -⟩ := rect_grid_spec it sampleDomain (hs.le.trans sw) (hs.le.trans sh) hs
  have G := LibraryGrid.grid hs sw sh hg
  obtain ⟨y0, x0, a1, a2, a3⟩ := nodal_arrays G id fun z => 1 + z.1
  obtain ⟨y, x, b1, b2, b3⟩ := nodal_arrays G caseY fun z => z.1
  obtain ⟨v1, e1, e2⟩ := c1 s hs s1 it g hg y0 y x0 a1 b1 a2 fun v q h => ⟨(a3 v q h).1, (b3 v q h).1, (a3 v q h).2⟩
  obtain ⟨v2, e3, e4⟩ := c2 s hs s2 it g hg y0 y x0 x a1 b1 a2 b2 fun v q h => ⟨(a3 v q h).1, (b3 v q h).1, (a3 v q h).2, (b3 v q h).2⟩
  exact ⟨g, y0, y, x0, x, hg, v1, v2, e1, e3, e2, e4⟩

end Tve
