import Verif.Props.Consistency
import Verif.Props.ConsistencyC1

/-!
# Convergence of quadratures over refined grids
-/

namespace Tve

open MeasureTheory Helpers

/-- the integral over a smaller rectangle -/
theorem strip_integral {w h a b M : ℝ} {f : ℝ × ℝ → ℝ} (ha0 : 0 ≤ a) (hb0 : 0 ≤ b) (haw : a ≤ w) (hbh : b ≤ h)
    (hf : ContinuousOn f (Set.Icc (0, 0) (w, h))) (hM : ∀ z ∈ Set.Icc ((0 : ℝ), (0 : ℝ)) (w, h), |f z| ≤ M) :
    |(∫ z in Set.Icc ((0 : ℝ), (0 : ℝ)) (w, h), f z) - ∫ z in Set.Icc ((0 : ℝ), (0 : ℝ)) (a, b), f z| ≤ M * (w * h - a * b) := by
  have hsub : Set.Icc ((0 : ℝ), (0 : ℝ)) (a, b) ⊆ Set.Icc (0, 0) (w, h) := Set.Icc_subset_Icc le_rfl ⟨haw, hbh⟩
  have hcR : IsCompact (Set.Icc ((0 : ℝ), (0 : ℝ)) (w, h)) := isCompact_Icc
  have hvol : ∀ x y : ℝ, 0 ≤ x → 0 ≤ y → volume.real (Set.Icc ((0 : ℝ), (0 : ℝ)) (x, y)) = x * y := by
    intro x y hx hy
    rw [← Set.Icc_prod_Icc, measureReal_def, Measure.volume_eq_prod, Measure.prod_prod, Real.volume_Icc, Real.volume_Icc,
      ENNReal.toReal_mul, ENNReal.toReal_ofReal (by linarith), ENNReal.toReal_ofReal (by linarith)]
    ring
  have hint : IntegrableOn f (Set.Icc ((0 : ℝ), (0 : ℝ)) (w, h)) := hf.integrableOn_compact hcR
  rw [← setIntegral_sdiff measurableSet_Icc hint hsub, ← Real.norm_eq_abs]
  have hfin : volume (Set.Icc ((0 : ℝ), (0 : ℝ)) (w, h)) < ⊤ := hcR.measure_lt_top
  refine (norm_setIntegral_le_of_norm_le_const ((measure_mono Set.sdiff_subset).trans_lt hfin)
    fun z hz => hM z hz.1).trans (le_of_eq ?_)
  rw [measureReal_sdiff hsub measurableSet_Icc, hvol _ _ (ha0.trans haw) (hb0.trans hbh), hvol _ _ ha0 hb0]

/-- scaling the weights of a rule -/
theorem quad_scale (g : Grid ℝ) (q : TriRule ℝ) (A : Tri → Bary ℝ → ℝ) {σ : ℝ} (hσ : σ ≠ 0) :
    g.quad q A = σ * g.quad ⟨q.weights.map (· / σ), q.points⟩ A := by
  rw [Grid.quad, Grid.quad, ← List.sum_map_mul_left]
  congr 1
  refine List.map_congr_left fun t _ => ?_
  simp only
  rw [mul_left_comm σ]
  congr 1
  rw [← List.sum_map_mul_left, List.zip_map_right, List.map_map]
  congr 1
  refine List.map_congr_left fun bw _ => ?_
  simp only [Function.comp, Prod.map, id]
  field_simp

/-- Quadratures, over refined grids, of a continuous function of fields that are uniformly close to a continuous field converge to
the integral times the sum of the weights of the rule. -/
theorem reg_consistency {X : Type} [PseudoMetricSpace X] (d : RectDomain ℝ) (hw : 0 < d.width) (hh : 0 < d.height) {q : TriRule ℝ}
    (hg : q.Good) (hσ0 : 0 < q.weights.sum) (hσ1 : q.weights.sum ≤ 1)
    {V : ℝ × ℝ → X} (hV : ContinuousOn V (Set.Icc (0, 0) (d.width, d.height))) {W : X → ℝ}
    (hW : ∀ z ∈ Set.Icc ((0 : ℝ), (0 : ℝ)) (d.width, d.height), ContinuousAt W (V z)) {ε : ℝ} (hε : 0 < ε) :
    ∃ δ > 0, ∃ η > 0, ∀ s, 0 < s → s < δ → ∀ it g, d.grid it s = .ok g → ∀ n : ℕ, 1 ≤ n → 1 / 10 ^ 15 ≤ s / n → ∀ r,
      d.refine g n = .ok r → ∀ Vh : Tri → Bary ℝ → X,
      (∀ t ∈ r.toGrid.triangles, ∀ b ∈ q.points, dist (V (r.toGrid.pointAt t b)) (Vh t b) < η) →
      |r.toGrid.quad q (fun t b => W (Vh t b)) -
        q.weights.sum * ∫ z in Set.Icc ((0 : ℝ), (0 : ℝ)) (d.width, d.height), W (V z)| ≤ ε := by
  obtain ⟨w1, h1, fix⟩ := d
  simp only at hw hh hV hW ⊢
  set R := Set.Icc ((0 : ℝ), (0 : ℝ)) (w1, h1) with hR
  have hcR : IsCompact R := isCompact_Icc
  have hf : ContinuousOn (fun z => W (V z)) R := fun z hz => (hW z hz).comp_continuousWithinAt (hV z hz)
  obtain ⟨M, hM⟩ : ∃ M, ∀ z ∈ R, |W (V z)| ≤ M := by
    obtain ⟨M, hM⟩ := hcR.exists_bound_of_continuousOn hf
    exact ⟨M, fun z hz => hM z hz⟩
  have hM0 : 0 ≤ M := (abs_nonneg _).trans (hM (0, 0) ⟨le_refl _, ⟨hw.le, hh.le⟩⟩)
  set ε1 := ε / (3 * (w1 * h1)) with hε1
  have hε1' : 0 < ε1 := by positivity
  have huc := (hcR.image_of_continuousOn hV).uniformContinuousAt_of_continuousAt W
    (fun x hx => by obtain ⟨z, hz, rfl⟩ := hx; exact hW z hz) (Metric.dist_mem_uniformity hε1')
  rw [Metric.mem_uniformity_dist] at huc
  obtain ⟨η, hη, huc⟩ := huc
  obtain ⟨δ1, hδ1, hvar⟩ := small_variation hf hε1'
  refine ⟨min (min δ1 (min w1 h1)) (ε / (3 * (M * (w1 + h1) + 1))), by positivity, η, hη,
    fun s hs hsδ it g hgr n hn hsn r hr Vh hVh => ?_⟩
  simp only [lt_min_iff] at hsδ
  obtain ⟨⟨s1, s2, s3⟩, s4⟩ := hsδ
  have G := LibraryGrid.grid hs s2.le s3.le hgr
  simp only at G
  have GR := LibraryGrid.refine G hn hsn hr
  have hrect : gridRect (n * cells w1 s) (n * cells h1 s) (s / n) = gridRect (cells w1 s) (cells h1 s) s := refined_rect hn
  obtain ⟨cw1, cw2⟩ := cells_strip hs hw.le
  obtain ⟨ch1, ch2⟩ := cells_strip hs hh.le
  have hsub : gridRect (cells w1 s) (cells h1 s) s ⊆ R := Set.Icc_subset_Icc le_rfl ⟨cw1, ch1⟩
  have hsub' : gridRect (n * cells w1 s) (n * cells h1 s) (s / n) ⊆ R := hrect ▸ hsub
  have hn0 : (0 : ℝ) < n := by exact_mod_cast (by omega : 0 < n)
  have hsn1 : s / n < δ1 := lt_of_le_of_lt (div_le_self hs.le (by exact_mod_cast hn)) s1
  have ex : ((n * cells w1 s : ℕ) : ℝ) * (s / n) = cells w1 s * s := by push_cast; field_simp
  have ey : ((n * cells h1 s : ℕ) : ℝ) * (s / n) = cells h1 s * s := by push_cast; field_simp
  set σ := q.weights.sum with hσ
  set q' : TriRule ℝ := ⟨q.weights.map (· / σ), q.points⟩ with hq'
  have hlen' : q'.points.length = q'.weights.length := by rw [hq']; simpa using hg.len
  have hsum' : q'.weights.sum = 1 := by
    rw [hq']
    simp only [div_eq_mul_inv]
    rw [List.sum_map_mul_right, List.map_id'', ← hσ, mul_inv_cancel₀ hσ0.ne']
    exact fun _ => rfl
  have habs' : (q'.weights.map abs).sum = 1 := by
    have e : q'.weights.map abs = (q.weights.map abs).map (· / σ) := by
      rw [hq', List.map_map, List.map_map]
      refine List.map_congr_left fun x _ => ?_
      simp only [Function.comp, abs_div, abs_of_pos hσ0]
    rw [e]
    simp only [div_eq_mul_inv]
    rw [List.sum_map_mul_right, List.map_id'', weights_abs hg, ← hσ, mul_inv_cancel₀ hσ0.ne']
    exact fun _ => rfl
  have hq1 := quad_error GR (r := q') hlen' hg.inside (hf.mono hsub') (ω := ε1) (M := M)
    (fun z hz z' hz' d1 d2 => hvar (s / n) hsn1 z (hsub' hz) z' (hsub' hz') d1 d2) fun z hz => hM z (hsub' hz)
  have hclose := quad_close (g := r.toGrid) hlen' (A := fun t b => W (Vh t b)) (B := fun t b => W (V (r.toGrid.pointAt t b)))
    (ε := ε1) fun t ht b hb => by
      have hz := hsub' (tri_subset GR ht (pointAt_mem r.toGrid t (hg.inside b hb)))
      have := huc (hVh t ht b hb) ⟨_, hz, rfl⟩
      simp only [Set.mem_setOf_eq] at this
      rw [abs_sub_comm, ← Real.dist_eq]
      exact this.le
  have hst := strip_integral (a := cells w1 s * s) (b := cells h1 s * s) (by positivity) (by positivity) cw1 ch1 hf hM
  rw [hsum', habs', sub_self, abs_zero, zero_mul, add_zero, mul_one, ex, ey, hrect] at hq1
  rw [habs', mul_one, Grid.area, library_total_area GR, ex, ey] at hclose
  set a := (cells w1 s : ℝ) * s with ha
  set b := (cells h1 s : ℝ) * s with hb
  have ha0 : 0 ≤ a := by positivity
  have hb0 : 0 ≤ b := by positivity
  have hab : a * b ≤ w1 * h1 := mul_le_mul cw1 ch1 hb0 hw.le
  have harea : w1 * h1 - a * b ≤ s * (w1 + h1) := by nlinarith
  have hae : a * b * ε1 ≤ ε / 3 := by
    refine (mul_le_mul_of_nonneg_right hab hε1'.le).trans (le_of_eq ?_)
    rw [hε1]
    field_simp
  have hst3 : M * (w1 * h1 - a * b) ≤ ε / 3 := by
    have h := (lt_div_iff₀ (by positivity)).1 s4
    nlinarith [mul_le_mul_of_nonneg_left harea hM0]
  rw [quad_scale _ _ _ hσ0.ne', ← mul_sub, abs_mul, abs_of_pos hσ0]
  refine le_trans (mul_le_of_le_one_left (abs_nonneg _) hσ1) ?_
  have hrw : gridRect (cells w1 s) (cells h1 s) s = Set.Icc ((0 : ℝ), (0 : ℝ)) (a, b) := rfl
  rw [hrw] at hq1
  rw [abs_le] at *
  constructor <;> linarith [hq1.1, hq1.2, hclose.1, hclose.2, hst.1, hst.2]

/-- the strain and the hyperstrain seen on refined grids converge uniformly -/
theorem c1_convergence (d : RectDomain ℝ) (hw : 0 < d.width) (hh : 0 < d.height) {Y : Fin 2 → ℕ → ℕ → ℝ × ℝ → ℝ}
    (hY : ∀ k, PartialsOn (Y k) 2 (Set.Icc (0, 0) (d.width, d.height)))
    (hYc : ∀ k i j, i + j = 2 → ContinuousOn (Y k i j) (Set.Icc (0, 0) (d.width, d.height))) {η : ℝ} (hη : 0 < η) :
    ∃ δ > 0, ∀ s, 0 < s → s < δ → ∀ it g, d.grid it s = .ok g → ∀ n : ℕ, 1 ≤ n → 1 / 10 ^ 15 ≤ s / n → ∀ r,
      d.refine g n = .ok r → ∀ y : NdArray, y.HoldsC1 g Y →
      ∃ (D : Deformation) (S : Tri → Bary ℝ → Fin 2 → Fin 2 → ℝ) (H : Tri → Bary ℝ → Fin 2 → Fin 2 → Fin 2 → ℝ),
        deformOf g (some r) y = .ok D ∧ ∀ t ∈ r.toGrid.triangles, ∀ b : Bary ℝ, b.Inside →
          D.strain t b = .ok (matOf (Matrix.of (S t b))) ∧ D.hyperStrain t b = .ok (tenOf (H t b)) ∧
          dist (fun i j => gradOf Y (r.toGrid.pointAt t b) i j) (S t b) < η ∧ dist (hessOf Y (r.toGrid.pointAt t b)) (H t b) < η := by
  have hv : ∀ k i j, i + j = 2 → ∃ δ > 0, ∀ s < δ, Varies (Y k i j) (Set.Icc (0, 0) (d.width, d.height)) s (η / 3360) :=
    fun k i j h => small_variation (hYc k i j h) (by positivity)
  have hk : ∀ k, ∃ δ > 0, ∀ s < δ, ∀ i j, i + j = 2 → Varies (Y k i j) (Set.Icc (0, 0) (d.width, d.height)) s (η / 3360) := by
    intro k
    obtain ⟨a, ha, a'⟩ := hv k 2 0 rfl
    obtain ⟨b, hb, b'⟩ := hv k 1 1 rfl
    obtain ⟨c, hc, c'⟩ := hv k 0 2 rfl
    refine ⟨min a (min b c), by positivity, fun s hs i j hij => ?_⟩
    simp only [lt_min_iff] at hs
    obtain ⟨rfl, rfl⟩ | ⟨rfl, rfl⟩ | ⟨rfl, rfl⟩ : (i = 2 ∧ j = 0) ∨ (i = 1 ∧ j = 1) ∨ (i = 0 ∧ j = 2) := by omega
    · exact a' s hs.1
    · exact b' s hs.2.1
    · exact c' s hs.2.2
  obtain ⟨δ0, h0, v0⟩ := hk 0
  obtain ⟨δ1, h1, v1⟩ := hk 1
  refine ⟨min (min δ0 δ1) (min 1 (min d.width d.height)), by positivity, fun s hs hsδ it g hg n hn hsn r hr y hy => ?_⟩
  simp only [lt_min_iff] at hsδ
  obtain ⟨⟨s0, s1⟩, so, sw, sh⟩ := hsδ
  have G := LibraryGrid.grid hs sw.le sh.le hg
  have hsub : Set.Icc ((0 : ℝ), (0 : ℝ)) ((cells d.width s : ℝ) * s, (cells d.height s : ℝ) * s) ⊆
      Set.Icc (0, 0) (d.width, d.height) :=
    Set.Icc_subset_Icc le_rfl ⟨(cells_strip hs hw.le).1, (cells_strip hs hh.le).1⟩
  obtain ⟨D, hD, hf⟩ := C103_fields G hn hsn hr hy (fun k i j h z hz => hY k i j h z (hsub hz)) (ω := η / 3360) (by
    rw [Fin.forall_fin_two]
    exact ⟨fun i j h z hz z' hz' => v0 s s0 i j h z (hsub hz) z' (hsub hz'), fun i j h z hz z' hz' => v1 s s1 i j h z (hsub hz) z' (hsub hz')⟩)
  have key : ∀ t ∈ r.toGrid.triangles, ∀ b : Bary ℝ, b.Inside → ∃ S : (Fin 2 → Fin 2 → ℝ) × (Fin 2 → Fin 2 → Fin 2 → ℝ),
      D.strain t b = .ok (matOf (Matrix.of S.1)) ∧ D.hyperStrain t b = .ok (tenOf S.2) ∧
      dist (fun i j => gradOf Y (r.toGrid.pointAt t b) i j) S.1 < η ∧ dist (hessOf Y (r.toGrid.pointAt t b)) S.2 < η := by
    intro t ht b hb
    obtain ⟨-, F, H, -, e1, e2, -, e3, e4⟩ := hf t ht b hb
    refine ⟨(fun i j => F i j, H), e1, e2, ?_, ?_⟩
    · rw [dist_pi_lt_iff hη]
      intro i
      rw [dist_pi_lt_iff hη]
      intro j
      rw [dist_comm, Real.dist_eq]
      refine (e3 i j).trans_lt ?_
      nlinarith
    · rw [dist_pi_lt_iff hη]
      intro k
      rw [dist_pi_lt_iff hη]
      intro i
      rw [dist_pi_lt_iff hη]
      intro j
      rw [dist_comm, Real.dist_eq]
      refine (e4 k i j).trans_lt ?_
      linarith
  classical
  refine ⟨D, fun t b => if h : t ∈ r.toGrid.triangles ∧ b.Inside then (key t h.1 b h.2).choose.1 else 0,
    fun t b => if h : t ∈ r.toGrid.triangles ∧ b.Inside then (key t h.1 b h.2).choose.2 else 0, hD, fun t ht b hb => ?_⟩
  simp only [dif_pos (And.intro ht hb)]
  exact (key t ht b hb).choose_spec

/-- values and gradients of the temperature on refined grids converge uniformly -/
theorem temp_convergence (d : RectDomain ℝ) (hw : 0 < d.width) (hh : 0 < d.height) {θ : ℝ × ℝ → ℝ}
    (hθ : ContinuousOn θ (Set.Icc (0, 0) (d.width, d.height))) {η : ℝ} (hη : 0 < η) :
    ∃ δ > 0, ∀ s, 0 < s → s < δ → ∀ it g, d.grid it s = .ok g → ∀ n : ℕ, 1 ≤ n → 1 / 10 ^ 15 ≤ s / n → ∀ r,
      d.refine g n = .ok r → ∀ x : NdArray, x.Has [r.toGrid.vertices.length] →
      (∀ v q, r.toGrid.At v q → x.data[v]? = some (θ q)) →
      ∃ (T : Interp) (u : Tri → Bary ℝ → ℝ), P1Interpolation r.toGrid x.data = .ok T ∧
        ∀ t ∈ r.toGrid.triangles, ∀ b : Bary ℝ, b.Inside → T.call t b = .ok (u t b) ∧
          dist (θ (r.toGrid.pointAt t b)) (u t b) < η := by
  obtain ⟨δ, hδ, hv⟩ := small_variation hθ (half_pos hη)
  refine ⟨min δ (min d.width d.height), by positivity, fun s hs hsδ it g hg n hn hsn r hr x hx hxθ => ?_⟩
  simp only [lt_min_iff] at hsδ
  obtain ⟨s1, sw, sh⟩ := hsδ
  have G := LibraryGrid.grid hs sw.le sh.le hg
  have GR := LibraryGrid.refine G hn hsn hr
  have hsub : gridRect (n * cells d.width s) (n * cells d.height s) (s / n) ⊆ Set.Icc (0, 0) (d.width, d.height) := by
    rw [refined_rect hn]
    exact Set.Icc_subset_Icc le_rfl ⟨(cells_strip hs hw.le).1, (cells_strip hs hh.le).1⟩
  have hsn1 : s / n < δ := lt_of_le_of_lt (div_le_self hs.le (by exact_mod_cast hn)) s1
  obtain ⟨T, hT, -⟩ := (C34_ctor r.toGrid x.data).1 (by have := hx.2; rw [NdArray.Ok, hx.1] at this; simpa using this)
  have key : ∀ t ∈ r.toGrid.triangles, ∀ b : Bary ℝ, b.Inside → ∃ v, T.call t b = .ok v ∧
      |v - θ (r.toGrid.pointAt t b)| ≤ η / 2 :=
    fun t ht b hb => P1_values GR hT ht hxθ (fun z hz z' hz' e1 e2 => hv (s / n) hsn1 z (hsub hz) z' (hsub hz') e1 e2) hb
  classical
  refine ⟨T, fun t b => if h : t ∈ r.toGrid.triangles ∧ b.Inside then (key t h.1 b h.2).choose else 0, hT, fun t ht b hb => ?_⟩
  simp only [dif_pos (And.intro ht hb)]
  obtain ⟨e1, e2⟩ := (key t ht b hb).choose_spec
  refine ⟨e1, ?_⟩
  rw [dist_comm, Real.dist_eq]
  exact e2.trans_lt (by linarith)

theorem tempGrad_convergence (d : RectDomain ℝ) (hw : 0 < d.width) (hh : 0 < d.height) {θ : ℝ × ℝ → ℝ} {G : ℝ × ℝ → Fin 2 → ℝ}
    (hθ : ∀ z ∈ Set.Icc ((0 : ℝ), (0 : ℝ)) (d.width, d.height), HasFDerivAt θ (lin (G z 0) (G z 1)) z)
    (hG : ∀ i, ContinuousOn (fun z => G z i) (Set.Icc (0, 0) (d.width, d.height))) {η : ℝ} (hη : 0 < η) :
    ∃ δ > 0, ∀ s, 0 < s → s < δ → ∀ it g, d.grid it s = .ok g → ∀ n : ℕ, 1 ≤ n → 1 / 10 ^ 15 ≤ s / n → ∀ r,
      d.refine g n = .ok r → ∀ x : NdArray, (∀ v q, r.toGrid.At v q → x.data[v]? = some (θ q)) →
      ∀ T, P1Interpolation r.toGrid x.data = .ok T →
      ∃ u : Tri → Bary ℝ → Fin 2 → ℝ, ∀ t ∈ r.toGrid.triangles, ∀ b : Bary ℝ, b.Inside → T.gradient t b = .ok (vecOf (u t b)) ∧
          dist (G (r.toGrid.pointAt t b)) (u t b) < η := by
  obtain ⟨δ1, h1, v1⟩ := small_variation (hG 0) (half_pos hη)
  obtain ⟨δ2, h2, v2⟩ := small_variation (hG 1) (half_pos hη)
  refine ⟨min (min δ1 δ2) (min d.width d.height), by positivity, fun s hs hsδ it g hg n hn hsn r hr x hxθ T hT => ?_⟩
  simp only [lt_min_iff] at hsδ
  obtain ⟨⟨s1, s2⟩, sw, sh⟩ := hsδ
  have HG := LibraryGrid.grid hs sw.le sh.le hg
  have GR := LibraryGrid.refine HG hn hsn hr
  have hsub : gridRect (n * cells d.width s) (n * cells d.height s) (s / n) ⊆ Set.Icc (0, 0) (d.width, d.height) := by
    rw [refined_rect hn]
    exact Set.Icc_subset_Icc le_rfl ⟨(cells_strip hs hw.le).1, (cells_strip hs hh.le).1⟩
  have hle : s / n ≤ s := div_le_self hs.le (by exact_mod_cast hn)
  have key : ∀ t ∈ r.toGrid.triangles, ∀ b : Bary ℝ, b.Inside → ∃ u : Fin 2 → ℝ, T.gradient t b = .ok (vecOf u) ∧
      dist (G (r.toGrid.pointAt t b)) u < η := by
    intro t ht b hb
    obtain ⟨-, gx, gy, -, e1, -, e2, e3⟩ := P1_second_order GR hT ht hxθ (M := η / 2) (fun z hz => hθ z (hsub hz))
      (fun z hz z' hz' a b => ⟨v1 _ (hle.trans_lt s1) z (hsub hz) z' (hsub hz') a b, v2 _ (hle.trans_lt s2) z (hsub hz) z' (hsub hz') a b⟩) hb
    refine ⟨![gx, gy], e1, ?_⟩
    rw [dist_comm, dist_pi_lt_iff hη, Fin.forall_fin_two]
    simp only [Real.dist_eq]
    exact ⟨e2.trans_lt (by linarith), e3.trans_lt (by linarith)⟩
  classical
  refine ⟨fun t b => if h : t ∈ r.toGrid.triangles ∧ b.Inside then (key t h.1 b h.2).choose else 0, fun t ht b hb => ?_⟩
  simp only [dif_pos (And.intro ht hb)]
  exact (key t ht b hb).choose_spec

end Tve
