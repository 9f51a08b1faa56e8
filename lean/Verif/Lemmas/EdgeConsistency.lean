import Verif.Lemmas.Consistency

/-!
# Gauss quadratures of functions of interpolated fields on the boundary
-/

namespace Tve

open MeasureTheory

/-- the nearest point of a rectangle -/
noncomputable def clampR (w h : ℝ) (z : ℝ × ℝ) : ℝ × ℝ := (max 0 (min z.1 w), max 0 (min z.2 h))

theorem clampR_mem {w h : ℝ} (hw : 0 ≤ w) (hh : 0 ≤ h) (z : ℝ × ℝ) : clampR w h z ∈ Set.Icc ((0 : ℝ), (0 : ℝ)) (w, h) :=
  ⟨⟨le_max_left _ _, le_max_left _ _⟩, ⟨max_le hw (min_le_right _ _), max_le hh (min_le_right _ _)⟩⟩

theorem clampR_eq {w h : ℝ} {z : ℝ × ℝ} (hz : z ∈ Set.Icc ((0 : ℝ), (0 : ℝ)) (w, h)) : clampR w h z = z := by
  obtain ⟨⟨h1, h2⟩, h3, h4⟩ := hz
  simp only at h1 h2 h3 h4
  simp only [clampR]
  rw [min_eq_left h3, min_eq_left h4, max_eq_right h1, max_eq_right h2]

theorem clampR_continuous (w h : ℝ) : Continuous (clampR w h) := by
  unfold clampR
  fun_prop

/-- integrals along sides depend only on the values on the rectangle -/
theorem sideIntegral_congr {w h : ℝ} (hw : 0 ≤ w) (hh : 0 ≤ h) {f f' : ℝ × ℝ → ℝ}
    (hf : ∀ z ∈ Set.Icc ((0 : ℝ), (0 : ℝ)) (w, h), f z = f' z) (σ : FixOption) : sideIntegral w h f σ = sideIntegral w h f' σ := by
  cases σ <;> simp only [sideIntegral] <;> refine intervalIntegral.integral_congr fun x hx => hf _ ?_
  all_goals
    first
    | rw [Set.uIcc_of_le hw] at hx
      exact ⟨⟨by first | exact hx.1 | exact le_rfl, by first | exact hh | exact le_rfl⟩, by exact hx.2, by first | exact hh | exact le_rfl⟩
    | rw [Set.uIcc_of_le hh] at hx
      exact ⟨⟨by first | exact hw | exact le_rfl, by exact hx.1⟩, by first | exact hw | exact le_rfl, by exact hx.2⟩

/-- integrals along sides depend continuously on the rectangle -/
theorem sideIntegral_continuous {f : ℝ × ℝ → ℝ} (hf : Continuous f) (σ : FixOption) :
    Continuous fun p : ℝ × ℝ => sideIntegral p.1 p.2 f σ := by
  cases σ <;> simp only [sideIntegral]
  · exact intervalIntegral.continuous_parametric_intervalIntegral_of_continuous (by fun_prop) (by fun_prop)
  · exact intervalIntegral.continuous_parametric_intervalIntegral_of_continuous (by fun_prop) (by fun_prop)
  · exact intervalIntegral.continuous_parametric_intervalIntegral_of_continuous (by fun_prop) (by fun_prop)
  · exact intervalIntegral.continuous_parametric_intervalIntegral_of_continuous (by fun_prop) (by fun_prop)
  · exact continuous_const

theorem sideSum_continuous {f : ℝ × ℝ → ℝ} (hf : Continuous f) (S : List FixOption) :
    Continuous fun p : ℝ × ℝ => (S.map (sideIntegral p.1 p.2 f)).sum := by
  induction S with
  | nil => exact continuous_const
  | cons σ S ih =>
    simp only [List.map_cons, List.sum_cons]
    exact (sideIntegral_continuous hf σ).add ih

theorem edge_mem_tri {g : Grid ℝ} {e : Edge} {t : Tri} (h : e.undirected ∈ t.sides) {τ : ℝ} (h0 : 0 ≤ τ) (h1 : τ ≤ 1) :
    edgePoint (g.xy e.1) (g.xy e.2) τ ∈ closedTriangle (g.xy t.1) (g.xy t.2.1) (g.xy t.2.2) := by
  have h1' : 0 ≤ 1 - τ := by linarith
  simp only [Edge.undirected, Tri.sides, List.mem_cons, List.not_mem_nil, or_false, Sym2.eq_iff] at h
  rcases h with (⟨a, b⟩ | ⟨a, b⟩) | (⟨a, b⟩ | ⟨a, b⟩) | (⟨a, b⟩ | ⟨a, b⟩) <;> rw [a, b]
  · exact ⟨τ, 1 - τ, 0, h0, h1', le_rfl, by ring, by simp [edgePoint, baryPoint]⟩
  · exact ⟨1 - τ, τ, 0, h1', h0, le_rfl, by ring, by simp [edgePoint, baryPoint]; ring_nf⟩
  · exact ⟨0, τ, 1 - τ, le_rfl, h0, h1', by ring, by simp [edgePoint, baryPoint]⟩
  · exact ⟨0, 1 - τ, τ, le_rfl, h1', h0, by ring, by simp [edgePoint, baryPoint]; ring_nf⟩
  · exact ⟨1 - τ, 0, τ, h1', le_rfl, h0, by ring, by simp [edgePoint, baryPoint]; ring_nf⟩
  · exact ⟨τ, 0, 1 - τ, h0, le_rfl, h1', by ring, by simp [edgePoint, baryPoint]⟩

/-- a rule with weights of sum one approximates an integral up to the deviation -/
theorem gauss_error {r : GaussRule ℝ} (hlen : r.points.length = r.weights.length) (hsum : r.weights.sum = 1) {A f : ℝ → ℝ}
    (hf : Continuous f) {ε : ℝ} (h : ∀ t ∈ r.points, ∀ τ, 0 ≤ τ → τ ≤ 1 → |A t - f τ| ≤ ε) :
    |r.value A - ∫ τ in (0 : ℝ)..1, f τ| ≤ (r.weights.map abs).sum * ε := by
  have key : ∀ t ∈ r.points, |A t - ∫ τ in (0 : ℝ)..1, f τ| ≤ ε := by
    intro t ht
    have e : A t - ∫ τ in (0 : ℝ)..1, f τ = ∫ τ in (0 : ℝ)..1, (A t - f τ) := by
      rw [intervalIntegral.integral_sub (by simp) (hf.intervalIntegrable _ _)]
      simp
    have := intervalIntegral.norm_integral_le_of_norm_le_const (a := (0 : ℝ)) (b := 1) (f := fun τ => A t - f τ) (C := ε)
      fun τ hτ => by
        rw [Set.uIoc_of_le zero_le_one] at hτ
        exact h t ht τ hτ.1.le hτ.2
    rw [e]
    simpa using this
  have hc : (∫ τ in (0 : ℝ)..1, f τ) = ((r.points.zip r.weights).map fun pw => pw.2 * ∫ τ in (0 : ℝ)..1, f τ).sum := by
    rw [List.sum_map_mul_right]
    have : ((r.points.zip r.weights).map fun pw => pw.2) = r.weights := List.map_snd_zip hlen.ge
    rw [this, hsum, one_mul]
  rw [GaussRule.value, hc]
  refine (abs_sum_map_sub_le _ _ _ (fun pw => |pw.2| * ε) fun pw hpw => ?_).trans (le_of_eq ?_)
  · rw [← mul_sub, abs_mul]
    exact mul_le_mul_of_nonneg_left (key _ (List.of_mem_zip (a := pw.1) (b := pw.2) hpw).1) (abs_nonneg _)
  · rw [List.sum_map_mul_right]
    have : ((r.points.zip r.weights).map fun pw => |pw.2|) = r.weights.map abs := by
      conv_rhs => rw [← List.map_snd_zip (l₁ := r.points) (l₂ := r.weights) hlen.ge]
      rw [List.map_map]; rfl
    rw [this]

/-- Consistency on the boundary: Gauss quadratures, over edges that make up given sides, of a continuous function of fields that are
uniformly close to a continuous field converge to the integral over the sides. -/
theorem edge_consistency {X : Type} [PseudoMetricSpace X] (d : RectDomain ℝ) (hw : 0 < d.width) (hh : 0 < d.height)
    (S : List FixOption) {r : GaussRule ℝ} (hlen : r.points.length = r.weights.length)
    (hin : ∀ t ∈ r.points, 0 ≤ t ∧ t ≤ 1) (hsum : r.weights.sum = 1)
    {V : ℝ × ℝ → X} (hV : ContinuousOn V (Set.Icc (0, 0) (d.width, d.height))) {W : X → ℝ}
    (hW : ∀ z ∈ Set.Icc ((0 : ℝ), (0 : ℝ)) (d.width, d.height), ContinuousAt W (V z)) {ε : ℝ} (hε : 0 < ε) :
    ∃ δ > 0, ∃ η > 0, ∀ s, 0 < s → s < δ → ∀ it g, d.grid it s = .ok g → ∀ es : List Edge, (∀ e ∈ es, e ∈ g.boundary.edges) →
      (∀ f : ℝ × ℝ → ℝ, Continuous f →
        (es.map fun e => edgeLen g.xy e * ∫ t in (0 : ℝ)..1, f (edgePoint (g.xy e.1) (g.xy e.2) t)).sum =
          (S.map (sideIntegral (cells d.width s * s) (cells d.height s * s) f)).sum) →
      ∀ Vh : Edge → ℝ → X, (∀ e ∈ es, ∀ t ∈ r.points, dist (V (edgePoint (g.xy e.1) (g.xy e.2) t)) (Vh e t) < η) →
      |g.edgeQuad es r (fun e t => W (Vh e t)) - (S.map (sideIntegral d.width d.height fun z => W (V z))).sum| ≤ ε := by
  set R := Set.Icc ((0 : ℝ), (0 : ℝ)) (d.width, d.height) with hR
  have hcR : IsCompact R := isCompact_Icc
  have hf : ContinuousOn (fun z => W (V z)) R := fun z hz => (hW z hz).comp_continuousWithinAt (hV z hz)
  set f : ℝ × ℝ → ℝ := fun z => W (V (clampR d.width d.height z)) with hfdef
  have hfc : Continuous f := hf.comp_continuous (clampR_continuous _ _) (clampR_mem hw.le hh.le)
  have hfR : ∀ z ∈ R, f z = W (V z) := fun z hz => by rw [hfdef]; simp only [clampR_eq hz]
  set K := (r.weights.map abs).sum with hK
  have hK0 : 0 ≤ K := List.sum_nonneg fun x hx => by
    obtain ⟨y, -, rfl⟩ := List.mem_map.1 hx
    exact abs_nonneg y
  set L := |(S.map (sideIntegral d.width d.height fun _ => 1)).sum| with hL
  have hL0 : 0 ≤ L := abs_nonneg _
  have hL1 : L + 1 ≠ 0 := by positivity
  have hK1 : K + 1 ≠ 0 := by positivity
  set ε1 := ε / (2 * ((K + 1) * (L + 1))) with hε1
  have hε1' : 0 < ε1 := by positivity
  have huc := (hcR.image_of_continuousOn hV).uniformContinuousAt_of_continuousAt W
    (fun x hx => by obtain ⟨z, hz, rfl⟩ := hx; exact hW z hz) (Metric.dist_mem_uniformity (half_pos hε1'))
  rw [Metric.mem_uniformity_dist] at huc
  obtain ⟨η, hη, huc⟩ := huc
  obtain ⟨δ1, h1, c1⟩ := small_variation hf (half_pos hε1')
  obtain ⟨δ2, h2, c2⟩ := Metric.continuousAt_iff.1 ((sideSum_continuous hfc S).continuousAt (x := (d.width, d.height))) (ε / 2)
    (half_pos hε)
  obtain ⟨δ3, h3, c3⟩ := Metric.continuousAt_iff.1 ((sideSum_continuous (f := fun _ => 1) continuous_const S).continuousAt
    (x := (d.width, d.height))) 1 one_pos
  refine ⟨min (min δ1 δ2) (min δ3 (min d.width d.height)), by positivity, η, hη, fun s hs hsδ it g hg es hes hsides Vh hVh => ?_⟩
  simp only [lt_min_iff] at hsδ
  obtain ⟨⟨s1, s2⟩, s3, sw, sh⟩ := hsδ
  have G := LibraryGrid.grid hs sw.le sh.le hg
  have cw := cells_strip hs hw.le
  have ch := cells_strip hs hh.le
  have hsub : gridRect (cells d.width s) (cells d.height s) s ⊆ R := Set.Icc_subset_Icc le_rfl ⟨cw.1, ch.1⟩
  have hdist : dist (cells d.width s * s, cells d.height s * s) (d.width, d.height) ≤ s := by
    rw [Prod.dist_eq, Real.dist_eq, Real.dist_eq]
    refine max_le ?_ ?_ <;> rw [abs_le] <;> constructor <;> linarith
  have d2 := c2 (hdist.trans_lt s2)
  have d3 := c3 (hdist.trans_lt s3)
  simp only [Real.dist_eq] at d2 d3
  have hlenes : (es.map fun e => edgeLen g.xy e).sum ≤ L + 1 := by
    have := hsides (fun _ => 1) continuous_const
    simp only [intervalIntegral.integral_const, sub_zero, smul_eq_mul, mul_one] at this
    rw [this]
    have e1 := (abs_lt.1 d3).2
    have e2 := le_abs_self (S.map (sideIntegral d.width d.height fun _ => 1)).sum
    linarith
  have hedge : |g.edgeQuad es r (fun e t => W (Vh e t)) -
      (es.map fun e => edgeLen g.xy e * ∫ t in (0 : ℝ)..1, f (edgePoint (g.xy e.1) (g.xy e.2) t)).sum| ≤ ε / 2 := by
    rw [Grid.edgeQuad]
    refine (abs_sum_map_sub_le _ _ _ (fun e => edgeLen g.xy e * (K * ε1)) fun e he => ?_).trans ?_
    · have h0 : 0 ≤ edgeLen g.xy e := Real.sqrt_nonneg _
      rw [← mul_sub, abs_mul, abs_of_nonneg h0]
      refine mul_le_mul_of_nonneg_left ?_ h0
      obtain ⟨-, t, ⟨ht, hside⟩, -⟩ := ((C12_boundary_edges hs sw.le sh.le hg).2 e).1 (hes e he)
      refine gauss_error hlen hsum (by
        refine hfc.comp ?_
        unfold edgePoint
        fun_prop) fun τ hτ τ' h0' h1' => ?_
      obtain ⟨hτ0, hτ1⟩ := hin τ hτ
      have m1 := edge_mem_tri (g := g) hside hτ0 hτ1
      have m2 := edge_mem_tri (g := g) hside h0' h1'
      have z1 := hsub (tri_subset G ht m1)
      have z2 := hsub (tri_subset G ht m2)
      obtain ⟨dd1, dd2⟩ := tri_diam G ht m1 m2
      have k1 := c1 s s1 _ z1 _ z2 dd1 dd2
      have k2 := huc (hVh e he τ hτ) ⟨_, z1, rfl⟩
      simp only [Set.mem_setOf_eq, Real.dist_eq] at k2
      rw [hfR _ z2]
      rw [abs_sub_comm] at k2
      have := abs_sub_le (W (Vh e τ)) (W (V (edgePoint (g.xy e.1) (g.xy e.2) τ))) (W (V (edgePoint (g.xy e.1) (g.xy e.2) τ')))
      linarith
    · rw [List.sum_map_mul_right]
      refine (mul_le_mul_of_nonneg_right hlenes (by positivity)).trans ?_
      rw [hε1, show (L + 1) * (K * (ε / (2 * ((K + 1) * (L + 1))))) = (ε / 2) * (K / (K + 1)) by field_simp]
      have : K / (K + 1) ≤ 1 := by rw [div_le_one (by positivity)]; linarith
      nlinarith
  have hS : (S.map (sideIntegral d.width d.height fun z => W (V z))).sum = (S.map (sideIntegral d.width d.height f)).sum :=
    congrArg List.sum (List.map_congr_left fun σ _ => sideIntegral_congr hw.le hh.le (fun z hz => (hfR z hz).symm) σ)
  rw [hS]
  rw [hsides f hfc] at hedge
  have := abs_sub_le (g.edgeQuad es r fun e t => W (Vh e t))
    ((S.map (sideIntegral (cells d.width s * s) (cells d.height s * s) f)).sum) ((S.map (sideIntegral d.width d.height f)).sum)
  linarith

/-- linear interpolation along a boundary edge -/
theorem edge_value_close {g : Grid ℝ} {nx ny : ℕ} {s : ℝ} (G : LibraryGrid g nx ny s) {t : Tri} (ht : t ∈ g.triangles) {e : Edge}
    (h : e.undirected ∈ t.sides) {f : ℝ × ℝ → ℝ} {ω : ℝ}
    (hω : ∀ z ∈ gridRect nx ny s, ∀ z' ∈ gridRect nx ny s, |z.1 - z'.1| ≤ s → |z.2 - z'.2| ≤ s → |f z - f z'| ≤ ω)
    {τ : ℝ} (h0 : 0 ≤ τ) (h1 : τ ≤ 1) :
    |τ * f (g.xy e.1) + (1 - τ) * f (g.xy e.2) - f (edgePoint (g.xy e.1) (g.xy e.2) τ)| ≤ ω := by
  have m := edge_mem_tri (g := g) h h0 h1
  have m1 : g.xy e.1 ∈ closedTriangle (g.xy t.1) (g.xy t.2.1) (g.xy t.2.2) := by
    simpa [edgePoint] using edge_mem_tri (g := g) h (τ := 1) zero_le_one le_rfl
  have m2 : g.xy e.2 ∈ closedTriangle (g.xy t.1) (g.xy t.2.1) (g.xy t.2.2) := by
    simpa [edgePoint] using edge_mem_tri (g := g) h (τ := 0) le_rfl zero_le_one
  have k1 := hω _ (tri_subset G ht m1) _ (tri_subset G ht m) (tri_diam G ht m1 m).1 (tri_diam G ht m1 m).2
  have k2 := hω _ (tri_subset G ht m2) _ (tri_subset G ht m) (tri_diam G ht m2 m).1 (tri_diam G ht m2 m).2
  rw [abs_le] at k1 k2 ⊢
  constructor <;> nlinarith

end Tve
