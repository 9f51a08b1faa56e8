import Verif.Lemmas.Approx
import Verif.Props.Converge

/-!
# C94 — approximation by piecewise linear interpolation
-/

namespace Tve

variable {g : Grid ℝ} {nx ny : ℕ} {s : ℝ} {u : List ℝ} {I : Interp} {t : Tri}

/-- The interpolation of the values of a function at the vertices of a grid of the library (refined or not) differs from the
function at every point of every triangle by at most the variation of the function over a grid cell. -/
theorem C94_values (G : LibraryGrid g nx ny s) (hI : P1Interpolation g u = .ok I) (ht : t ∈ g.triangles) {f : ℝ × ℝ → ℝ}
    (hu : ∀ v q, g.At v q → u[v]? = some (f q)) {ω : ℝ}
    (hω : ∀ z ∈ Set.Icc ((0 : ℝ), (0 : ℝ)) (nx * s, ny * s), ∀ z' ∈ Set.Icc ((0 : ℝ), (0 : ℝ)) (nx * s, ny * s),
      |z.1 - z'.1| ≤ s → |z.2 - z'.2| ≤ s → |f z - f z'| ≤ ω)
    {c : Bary ℝ} (hc : c.Inside) : ∃ y, I.call t c = .ok y ∧ |y - f (g.pointAt t c)| ≤ ω :=
  P1_values G hI ht hu hω hc

/-- If the partial derivatives `fx`, `fy` of the function are Lipschitz continuous with constant `M`, the values of the
interpolation are off by at most `2 M s ^ 2` and its gradient, in each component, by at most `M s`. -/
theorem C94_second_order (G : LibraryGrid g nx ny s) (hI : P1Interpolation g u = .ok I) (ht : t ∈ g.triangles)
    {f fx fy : ℝ × ℝ → ℝ} (hu : ∀ v q, g.At v q → u[v]? = some (f q)) {M : ℝ} (hM0 : 0 ≤ M)
    (hf : ∀ z ∈ Set.Icc ((0 : ℝ), (0 : ℝ)) (nx * s, ny * s), HasFDerivAt f (lin (fx z) (fy z)) z)
    (hM : ∀ z ∈ Set.Icc ((0 : ℝ), (0 : ℝ)) (nx * s, ny * s), ∀ z' ∈ Set.Icc ((0 : ℝ), (0 : ℝ)) (nx * s, ny * s),
      |fx z - fx z'| ≤ M * max |z.1 - z'.1| |z.2 - z'.2| ∧ |fy z - fy z'| ≤ M * max |z.1 - z'.1| |z.2 - z'.2|)
    {c : Bary ℝ} (hc : c.Inside) : ∃ y gx gy, I.call t c = .ok y ∧ I.gradient t c = .ok (vecOf ![gx, gy]) ∧
      |y - f (g.pointAt t c)| ≤ 2 * M * s ^ 2 ∧ |gx - fx (g.pointAt t c)| ≤ M * s ∧ |gy - fy (g.pointAt t c)| ≤ M * s := by
  obtain ⟨y, gx, gy, h1, h2, h3, h4, h5⟩ := P1_second_order G hI ht hu (M := M * s) hf (fun z hz z' hz' d1 d2 => by
    obtain ⟨m1, m2⟩ := hM z hz z' hz'
    have := mul_le_mul_of_nonneg_left (max_le d1 d2) hM0
    exact ⟨m1.trans this, m2.trans this⟩) hc
  exact ⟨y, gx, gy, h1, h2, h3.trans (le_of_eq (by ring)), h4, h5⟩

/-- a continuous function on a rectangle varies little over small squares -/
theorem small_variation {w h : ℝ} {f : ℝ × ℝ → ℝ} (hf : ContinuousOn f (Set.Icc (0, 0) (w, h))) {ε : ℝ} (hε : 0 < ε) :
    ∃ δ > 0, ∀ s < δ, ∀ z ∈ Set.Icc ((0 : ℝ), (0 : ℝ)) (w, h), ∀ z' ∈ Set.Icc ((0 : ℝ), (0 : ℝ)) (w, h),
      |z.1 - z'.1| ≤ s → |z.2 - z'.2| ≤ s → |f z - f z'| ≤ ε := by
  have huc := isCompact_Icc.uniformContinuousOn_of_continuous hf
  rw [Metric.uniformContinuousOn_iff] at huc
  obtain ⟨δ, hδ, huc⟩ := huc ε hε
  refine ⟨δ, hδ, fun s hs z hz z' hz' d1 d2 => ?_⟩
  have := huc z hz z' hz' (by
    rw [Prod.dist_eq, Real.dist_eq, Real.dist_eq]
    exact (max_le d1 d2).trans_lt hs)
  rw [Real.dist_eq] at this
  exact this.le

/-- Convergence: as the grid scale tends to zero, the interpolations of a continuously differentiable function on the rectangle of
a domain tend to the function, and their gradients to its gradient, uniformly in all points of all triangles. -/
theorem C94_convergence (d : RectDomain ℝ) (hw : 0 < d.width) (hh : 0 < d.height) {f fx fy : ℝ × ℝ → ℝ}
    (hf : ∀ z ∈ Set.Icc ((0 : ℝ), (0 : ℝ)) (d.width, d.height), HasFDerivAt f (lin (fx z) (fy z)) z)
    (hx : ContinuousOn fx (Set.Icc (0, 0) (d.width, d.height))) (hy : ContinuousOn fy (Set.Icc (0, 0) (d.width, d.height)))
    {ε : ℝ} (hε : 0 < ε) :
    ∃ δ > 0, ∀ s, 0 < s → s < δ → ∀ it g, d.grid it s = .ok g → ∀ u, (∀ v q, g.At v q → u[v]? = some (f q)) →
      ∀ I, P1Interpolation g u = .ok I → ∀ t ∈ g.triangles, ∀ c : Bary ℝ, c.Inside →
        ∃ y gx gy, I.call t c = .ok y ∧ I.gradient t c = .ok (vecOf ![gx, gy]) ∧
          |y - f (g.pointAt t c)| ≤ ε * s ∧ |gx - fx (g.pointAt t c)| ≤ ε ∧ |gy - fy (g.pointAt t c)| ≤ ε := by
  obtain ⟨δ1, h1, v1⟩ := small_variation hx (half_pos hε)
  obtain ⟨δ2, h2, v2⟩ := small_variation hy (half_pos hε)
  refine ⟨min (min δ1 δ2) (min d.width d.height), by positivity, fun s hs hsδ it g hg u hu I hI t ht c hc => ?_⟩
  have s1 : s < δ1 := hsδ.trans_le ((min_le_left _ _).trans (min_le_left _ _))
  have s2 : s < δ2 := hsδ.trans_le ((min_le_left _ _).trans (min_le_right _ _))
  have s3 : s ≤ d.width := (hsδ.trans_le ((min_le_right _ _).trans (min_le_left _ _))).le
  have s4 : s ≤ d.height := (hsδ.trans_le ((min_le_right _ _).trans (min_le_right _ _))).le
  have G := LibraryGrid.grid hs s3 s4 hg
  have hsub : gridRect (cells d.width s) (cells d.height s) s ⊆ Set.Icc ((0 : ℝ), (0 : ℝ)) (d.width, d.height) :=
    Set.Icc_subset_Icc le_rfl ⟨(cells_strip hs hw.le).1, (cells_strip hs hh.le).1⟩
  obtain ⟨y, gx, gy, k1, k2, k3, k4, k5⟩ := P1_second_order G hI ht hu (M := ε / 2) (fun z hz => hf z (hsub hz))
    (fun z hz z' hz' d1 d2 => ⟨v1 s s1 z (hsub hz) z' (hsub hz') d1 d2, v2 s s2 z (hsub hz) z' (hsub hz') d1 d2⟩) hc
  exact ⟨y, gx, gy, k1, k2, k3.trans (le_of_eq (by ring)), k4.trans (by linarith), k5.trans (by linarith)⟩

/-- the interpolations of `x ^ 2 y` on grids of the sample domain: nodal values exist, and the gradients converge to `(2 x y, x ^ 2)` -/
example : ∃ δ > 0, ∀ s, 0 < s → s < δ → ∀ it, ∃ g u I, sampleDomain.grid it s = .ok g ∧
    P1Interpolation g u = .ok I ∧ g.triangles ≠ [] ∧ ∀ t ∈ g.triangles, ∀ c : Bary ℝ, c.Inside →
      ∃ gx gy, I.gradient t c = .ok (vecOf ![gx, gy]) ∧
        |gx - 2 * (g.pointAt t c).1 * (g.pointAt t c).2| ≤ 1 / 100 ∧ |gy - (g.pointAt t c).1 ^ 2| ≤ 1 / 100 := by
  obtain ⟨δ, hδ, h⟩ := C94_convergence sampleDomain (by norm_num [sampleDomain]) (by norm_num [sampleDomain])
    (f := fun z => z.1 ^ 2 * z.2) (fx := fun z => 2 * z.1 * z.2) (fy := fun z => z.1 ^ 2)
    (fun z _ => by
      have h1 : HasFDerivAt (fun z : ℝ × ℝ => z.1) (ContinuousLinearMap.fst ℝ ℝ ℝ) z := hasFDerivAt_fst
      have h2 : HasFDerivAt (fun z : ℝ × ℝ => z.2) (ContinuousLinearMap.snd ℝ ℝ ℝ) z := hasFDerivAt_snd
      refine ((h1.pow 2).mul h2).congr_fderiv ?_
      ext <;> simp [lin] <;> ring)
    (by fun_prop) (by fun_prop) (ε := 1 / 100) (by norm_num)
  refine ⟨min δ 1, by positivity, fun s hs hsδ it => ?_⟩
  have s1 : s ≤ sampleDomain.width := (hsδ.trans_le (min_le_right _ _)).le.trans (by norm_num [sampleDomain])
  have s2 : s ≤ sampleDomain.height := (hsδ.trans_le (min_le_right _ _)).le.trans (by norm_num [sampleDomain])
  obtain ⟨g, ts, hg, -⟩ := rect_grid_spec it sampleDomain (hs.le.trans s1) (hs.le.trans s2) hs
  have G := LibraryGrid.grid hs s1 s2 hg
  have W := G.wellFormed
  have hu : ∀ v q, g.At v q → (g.vertices.map fun v => (g.xy v).1 ^ 2 * (g.xy v).2)[v]? = some (q.1 ^ 2 * q.2) := by
    intro v q hq
    have hS := C22_structure G
    have hv : v < g.points.length := by
      rw [Grid.At] at hq
      exact (List.getElem?_eq_some_iff.1 hq).1
    rw [hS.2.2.2.2.1] at hv
    rw [hS.2.2.2.1, List.getElem?_map, List.getElem?_range hv, Option.map_some, xy_of_at hq]
  obtain ⟨I, hI, -⟩ := (C34_ctor g (g.vertices.map fun v => (g.xy v).1 ^ 2 * (g.xy v).2)).1 (by simp)
  refine ⟨g, _, I, hg, hI, ?_, fun t ht c hc => ?_⟩
  · intro h0
    have := (C22_structure G).2.2.2.2.2.2.1
    have := (C22_structure G).2.1
    have := (C22_structure G).2.2.1
    rw [h0] at *
    simp at *
    omega
  · obtain ⟨y, gx, gy, -, k1, -, k2, k3⟩ := h s hs (hsδ.trans_le (min_le_left _ _)) it g hg _ hu I hI t ht c hc
    exact ⟨gx, gy, k1, k2, k3⟩

end Tve
