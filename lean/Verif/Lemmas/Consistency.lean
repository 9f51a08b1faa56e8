import Verif.Props.Approx
import Verif.Lemmas.Optimal
import Verif.Lemmas.SimFixed

/-!
# Quadratures of functions of interpolated fields
-/

namespace Tve

open MeasureTheory Helpers

/-- quadratures of close functions are close -/
theorem quad_close {g : Grid ℝ} {r : TriRule ℝ} (hlen : r.points.length = r.weights.length) {A B : Tri → Bary ℝ → ℝ} {ε : ℝ}
    (h : ∀ t ∈ g.triangles, ∀ b ∈ r.points, |A t b - B t b| ≤ ε) :
    |g.quad r A - g.quad r B| ≤ g.area * (ε * (r.weights.map abs).sum) := by
  rw [Grid.quad, Grid.quad, Grid.area]
  refine (abs_sum_map_sub_le _ _ _ (fun t => triArea g.xy t * (ε * (r.weights.map abs).sum)) fun t ht => ?_).trans (le_of_eq ?_)
  · have h0 : 0 ≤ triArea g.xy t := by rw [triArea]; positivity
    rw [← mul_sub, abs_mul, abs_of_nonneg h0]
    refine mul_le_mul_of_nonneg_left ?_ h0
    refine (abs_sum_map_sub_le _ _ _ (fun bw => ε * |bw.2|) fun bw hbw => ?_).trans (le_of_eq ?_)
    · rw [← mul_sub, abs_mul, mul_comm]
      exact mul_le_mul_of_nonneg_right (h t ht _ (List.of_mem_zip (a := bw.1) (b := bw.2) hbw).1) (abs_nonneg _)
    · rw [List.sum_map_mul_left]
      have : ((r.points.zip r.weights).map fun bw => |bw.2|) = r.weights.map abs := by
        conv_rhs => rw [← List.map_snd_zip (l₁ := r.points) (l₂ := r.weights) hlen.ge]
        rw [List.map_map]; rfl
      rw [this]
  · rw [List.sum_map_mul_right]

/-- Consistency: quadratures of a continuous function of fields that are uniformly close to a continuous field converge to the
integral. -/
theorem consistency {X : Type} [PseudoMetricSpace X] (d : RectDomain ℝ) (hw : 0 < d.width) (hh : 0 < d.height) {r : TriRule ℝ}
    (hlen : r.points.length = r.weights.length) (hin : ∀ b ∈ r.points, b.Inside) (hsum : r.weights.sum = 1)
    {V : ℝ × ℝ → X} (hV : ContinuousOn V (Set.Icc (0, 0) (d.width, d.height))) {W : X → ℝ}
    (hW : ∀ z ∈ Set.Icc ((0 : ℝ), (0 : ℝ)) (d.width, d.height), ContinuousAt W (V z)) {ε : ℝ} (hε : 0 < ε) :
    ∃ δ > 0, ∃ η > 0, ∀ s, 0 < s → s < δ → ∀ it g, d.grid it s = .ok g → ∀ Vh : Tri → Bary ℝ → X,
      (∀ t ∈ g.triangles, ∀ b ∈ r.points, dist (V (g.pointAt t b)) (Vh t b) < η) →
      |g.quad r (fun t b => W (Vh t b)) - ∫ z in Set.Icc ((0 : ℝ), (0 : ℝ)) (d.width, d.height), W (V z)| ≤ ε := by
  set R := Set.Icc ((0 : ℝ), (0 : ℝ)) (d.width, d.height) with hR
  have hcR : IsCompact R := isCompact_Icc
  have hf : ContinuousOn (fun z => W (V z)) R := fun z hz => (hW z hz).comp_continuousWithinAt (hV z hz)
  obtain ⟨M, hM⟩ : ∃ M, ∀ z ∈ R, |W (V z)| ≤ M := by
    obtain ⟨M, hM⟩ := hcR.exists_bound_of_continuousOn hf
    exact ⟨M, fun z hz => hM z hz⟩
  obtain ⟨δ, hδ, hconv⟩ := C93_convergence d hw hh r hlen hin hf hM (half_pos hε)
  set K := (r.weights.map abs).sum with hK
  have hK0 : 0 ≤ K := List.sum_nonneg fun x hx => by
    obtain ⟨y, -, rfl⟩ := List.mem_map.1 hx
    exact abs_nonneg y
  set ε1 := ε / (2 * (d.width * d.height * K + 1)) with hε1
  have hε1' : 0 < ε1 := by positivity
  have huc := (hcR.image_of_continuousOn hV).uniformContinuousAt_of_continuousAt W
    (fun x hx => by obtain ⟨z, hz, rfl⟩ := hx; exact hW z hz) (Metric.dist_mem_uniformity hε1')
  rw [Metric.mem_uniformity_dist] at huc
  obtain ⟨η, hη, huc⟩ := huc
  refine ⟨min δ (min d.width d.height), by positivity, η, hη, fun s hs hsδ it g hg Vh hVh => ?_⟩
  have s1 : s < δ := hsδ.trans_le (min_le_left _ _)
  have s2 : s ≤ d.width := (hsδ.trans_le ((min_le_right _ _).trans (min_le_left _ _))).le
  have s3 : s ≤ d.height := (hsδ.trans_le ((min_le_right _ _).trans (min_le_right _ _))).le
  have G := LibraryGrid.grid hs s2 s3 hg
  have hsub : gridRect (cells d.width s) (cells d.height s) s ⊆ R :=
    Set.Icc_subset_Icc le_rfl ⟨(cells_strip hs hw.le).1, (cells_strip hs hh.le).1⟩
  obtain ⟨I, v, hI, hv, herr⟩ := hconv s hs s1 it g hg
  cases hI.symm.trans (integrator_ok G.wellFormed r)
  have hv' := call_quad (G := g) (r := r) (f := fun t b => .ok (W (V (g.pointAt t b)))) (fun t b => W (V (g.pointAt t b)))
    fun _ _ _ _ => rfl
  have hv'' := Except.ok.inj (hv.symm.trans hv')
  rw [hv'', hsum, sub_self, abs_zero, zero_mul, mul_zero, zero_add] at herr
  have hclose := quad_close (g := g) hlen (A := fun t b => W (Vh t b)) (B := fun t b => W (V (g.pointAt t b))) (ε := ε1)
    fun t ht b hb => by
      have hz := hsub (tri_subset G ht (pointAt_mem g t (hin b hb)))
      have := huc (hVh t ht b hb) ⟨_, hz, rfl⟩
      simp only [Set.mem_setOf_eq] at this
      rw [abs_sub_comm, ← Real.dist_eq]
      exact this.le
  have harea : g.area ≤ d.width * d.height := by
    rw [Grid.area, library_total_area G]
    exact mul_le_mul (cells_strip hs hw.le).1 (cells_strip hs hh.le).1 (by positivity) hw.le
  have h2 : g.area * (ε1 * K) ≤ ε / 2 := by
    have : g.area * (ε1 * K) ≤ d.width * d.height * (ε1 * K) := mul_le_mul_of_nonneg_right harea (by positivity)
    refine this.trans ?_
    rw [hε1, show d.width * d.height * (ε / (2 * (d.width * d.height * K + 1)) * K) =
      (ε / 2) * ((d.width * d.height * K) / (d.width * d.height * K + 1)) by field_simp]
    have : (d.width * d.height * K) / (d.width * d.height * K + 1) ≤ 1 := by rw [div_le_one (by positivity)]; linarith
    nlinarith
  have := abs_sub_le (g.quad r fun t b => W (Vh t b)) (g.quad r fun t b => W (V (g.pointAt t b))) (∫ z in R, W (V z))
  linarith

/-- the strain of the interpolation of a continuously differentiable deformation -/
theorem strain_convergence (d : RectDomain ℝ) (hw : 0 < d.width) (hh : 0 < d.height) {Y : ℝ × ℝ → ℝ × ℝ}
    {F : ℝ × ℝ → Fin 2 → Fin 2 → ℝ}
    (hY : ∀ z ∈ Set.Icc ((0 : ℝ), (0 : ℝ)) (d.width, d.height),
      HasFDerivAt (fun z => (Y z).1) (lin (F z 0 0) (F z 0 1)) z ∧ HasFDerivAt (fun z => (Y z).2) (lin (F z 1 0) (F z 1 1)) z)
    (hF : ∀ i j, ContinuousOn (fun z => F z i j) (Set.Icc (0, 0) (d.width, d.height))) {η : ℝ} (hη : 0 < η) :
    ∃ δ > 0, ∀ s, 0 < s → s < δ → ∀ it g, d.grid it s = .ok g → ∀ y : NdArray, y.Has [g.vertices.length, 2] →
      (∀ v q, g.At v q → y.deformed v = Y q) →
      ∃ (D : Deformation) (S : Tri → Bary ℝ → Fin 2 → Fin 2 → ℝ), deformOf g none y = .ok D ∧
        ∀ t ∈ g.triangles, ∀ b : Bary ℝ, b.Inside → D.strain t b = .ok (matOf (Matrix.of (S t b))) ∧
          dist (F (g.pointAt t b)) (S t b) < η := by
  obtain ⟨δ1, h1, c1⟩ := C94_convergence d hw hh (f := fun z => (Y z).1) (fx := fun z => F z 0 0) (fy := fun z => F z 0 1)
    (fun z hz => (hY z hz).1) (hF 0 0) (hF 0 1) (half_pos hη)
  obtain ⟨δ2, h2, c2⟩ := C94_convergence d hw hh (f := fun z => (Y z).2) (fx := fun z => F z 1 0) (fy := fun z => F z 1 1)
    (fun z hz => (hY z hz).2) (hF 1 0) (hF 1 1) (half_pos hη)
  refine ⟨min (min δ1 δ2) (min d.width d.height), by positivity, fun s hs hsδ it g hg y hy hyY => ?_⟩
  have s1 : s < δ1 := hsδ.trans_le ((min_le_left _ _).trans (min_le_left _ _))
  have s2 : s < δ2 := hsδ.trans_le ((min_le_left _ _).trans (min_le_right _ _))
  have s3 : s ≤ d.width := (hsδ.trans_le ((min_le_right _ _).trans (min_le_left _ _))).le
  have s4 : s ≤ d.height := (hsδ.trans_le ((min_le_right _ _).trans (min_le_right _ _))).le
  have G := LibraryGrid.grid hs s3 s4 hg
  have W := G.wellFormed
  set n := g.vertices.length with hn
  set A := (List.range n).map fun i => y.at2 2 i 0 with hA
  set B := (List.range n).map fun i => y.at2 2 i 1 with hB
  have hnod : ∀ v q, g.At v q → A[v]? = some (Y q).1 ∧ B[v]? = some (Y q).2 := by
    intro v q hq
    have hv : v < n := by
      have h : v < g.points.length := (List.getElem?_eq_some_iff.1 hq).1
      rw [hn, (C22_structure G).2.2.2.1, List.length_range]
      rwa [(C22_structure G).2.2.2.2.1] at h
    have e := hyY v q hq
    rw [NdArray.deformed, hy.1] at e
    rw [hA, hB, List.getElem?_map, List.getElem?_map, List.getElem?_range hv, ← e]
    exact ⟨rfl, rfl⟩
  obtain ⟨I1, hI1, -⟩ := (C34_ctor g A).1 (by rw [hA, List.length_map, List.length_range])
  obtain ⟨I2, hI2, -⟩ := (C34_ctor g B).1 (by rw [hB, List.length_map, List.length_range])
  have hD : deformOf g none y = .ok ⟨I1, I2⟩ := by
    rw [deformOf, NdArray.col_eq hy (by norm_num), bind_ok, NdArray.col_eq hy (by norm_num), bind_ok, P1MechModel.deformation,
      hI1, bind_ok, hI2, bind_ok]
    rfl
  have key : ∀ t ∈ g.triangles, ∀ b : Bary ℝ, b.Inside → ∃ S : Fin 2 → Fin 2 → ℝ,
      (Deformation.mk I1 I2).strain t b = .ok (matOf (Matrix.of S)) ∧ dist (F (g.pointAt t b)) S < η := by
    intro t ht b hb
    obtain ⟨-, p1, p2, -, e1, -, e2, e3⟩ := c1 s hs s1 it g hg A (fun v q h => (hnod v q h).1) I1 hI1 t ht b hb
    obtain ⟨-, q1, q2, -, e1', -, e2', e3'⟩ := c2 s hs s2 it g hg B (fun v q h => (hnod v q h).2) I2 hI2 t ht b hb
    refine ⟨![![p1, p2], ![q1, q2]], ?_, ?_⟩
    · rw [Deformation.strain]
      simp only
      rw [e1, bind_ok, e1', bind_ok, stack_pairs]
    · rw [dist_pi_lt_iff hη]
      intro i
      rw [dist_pi_lt_iff hη]
      intro j
      rw [dist_comm, Real.dist_eq]
      have : η / 2 < η := by linarith
      fin_cases i <;> fin_cases j
      · exact e2.trans_lt this
      · exact e3.trans_lt this
      · exact e2'.trans_lt this
      · exact e3'.trans_lt this
  classical
  refine ⟨⟨I1, I2⟩, fun t b => if h : t ∈ g.triangles ∧ b.Inside then (key t h.1 b h.2).choose else 0, hD, fun t ht b hb => ?_⟩
  simp only [dif_pos (And.intro ht hb)]
  exact (key t ht b hb).choose_spec

end Tve
