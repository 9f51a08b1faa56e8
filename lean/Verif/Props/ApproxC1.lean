import Mathlib.Analysis.Complex.ExponentialBounds
import Verif.Lemmas.Taylor2
import Verif.Spec.Partials
import Verif.Props.Approx

/-!
# C102 — approximation by Bell interpolation
-/

namespace Tve
open MvPolynomial Bell

variable {g : Grid ℝ} {nx ny : ℕ} {s : ℝ} {u : List (List ℝ)} {I : Interp} {t : Tri}

/-- Best approximation. On a triangle of a grid of the library the interpolation and its first and second derivatives are as
close to a polynomial of degree at most four as the parameters at the three corners are to the values (up to `e0`), first
derivatives (`e1`) and second derivatives (`e2`) of the polynomial. -/
theorem C102_quartics (G : LibraryGrid g nx ny s) (hI : C1Interpolation g u = .ok I) (ht : t ∈ g.triangles)
    {q : MvPolynomial (Fin 2) ℝ} (hq : q.totalDegree ≤ 4) {e0 e1 e2 m : ℝ}
    (hu : ∀ k : Fin 3, ∃ p : Fin 6 → ℝ, u[t.get k]? = some (List.ofFn p) ∧
      ∀ j, |p j - nodal q (g.xy (t.get k)) j| ≤ ![e0, e1, e1, e2, e2, e2] j)
    (hm : m = e0 + 6 / 5 * s * e1 + 7 / 15 * s ^ 2 * e2) {c : Bary ℝ} (hc : c.Inside) :
    ∃ y gx gy hxx hxy hyy, I.call t c = .ok y ∧ I.gradient t c = .ok (vecOf ![gx, gy]) ∧
      I.hessian t c = .ok (matOf !![hxx, hxy; hxy, hyy]) ∧
      |y - polyAt q (g.pointAt t c)| ≤ 3 * m ∧
      |gx - polyAt (pderiv 0 q) (g.pointAt t c)| ≤ 30 * m / s ∧ |gy - polyAt (pderiv 1 q) (g.pointAt t c)| ≤ 30 * m / s ∧
      |hxx - polyAt (pderiv 0 (pderiv 0 q)) (g.pointAt t c)| ≤ 240 * m / s ^ 2 ∧
      |hxy - polyAt (pderiv 1 (pderiv 0 q)) (g.pointAt t c)| ≤ 240 * m / s ^ 2 ∧
      |hyy - polyAt (pderiv 1 (pderiv 1 q)) (g.pointAt t c)| ≤ 240 * m / s ^ 2 := by
  subst hm
  have W := G.wellFormed
  obtain ⟨σ, R⟩ := rightIso G ht
  obtain ⟨h6, hl, rfl⟩ := C1_of hI
  obtain ⟨e1', e2', e3'⟩ := C1_call_eq W h6 hl ht c
  simp only
  rw [e1', e2', e3']
  refine near_quartic (L := ![c.l1, c.l2, c.l3]) R ?_ hc.1 (G.nondegenerate ht) q hq (e0 := e0) (e1 := e1) (e2 := e2) ?_
  · intro i
    fin_cases i
    · exact hc.2.1
    · exact hc.2.2.1
    · exact hc.2.2.2
  · intro k j
    obtain ⟨p, hp, hb⟩ := hu k
    have e : nodeParam u (t.get k) j = p j := by
      rw [nodeParam, show u.getD (t.get k) [] = List.ofFn p by rw [List.getD_eq_getElem?_getD, hp]; rfl]
      rw [List.getD_eq_getElem?_getD, List.getElem?_ofFn]
      simp
    rw [e]
    exact hb j

/-- Order of approximation. For a function with continuous partial derivatives up to the order `N ∈ {2, 3, 4}`, interpolated with
its values and derivatives at the vertices, the errors are bounded by the variation `ω` of the derivatives of order `N` over a
cell: `6 (2s)^N ω` for the values, `60 (2s)^N ω / s` for the gradient and `420 (2s)^N ω / s²` for the Hessian. -/
theorem C102_order (G : LibraryGrid g nx ny s) (hI : C1Interpolation g u = .ok I) (ht : t ∈ g.triangles)
    {D : ℕ → ℕ → ℝ × ℝ → ℝ} (hu : ∀ v q, g.At v q → u[v]? = some (nodalData D q)) {N : ℕ} (hN2 : 2 ≤ N) (hN4 : N ≤ 4)
    (hD : PartialsOn D N (Set.Icc ((0 : ℝ), (0 : ℝ)) (nx * s, ny * s))) {ω : ℝ}
    (hω : ∀ i j, i + j = N → ∀ z ∈ Set.Icc ((0 : ℝ), (0 : ℝ)) (nx * s, ny * s), ∀ z' ∈ Set.Icc ((0 : ℝ), (0 : ℝ)) (nx * s, ny * s),
      |z.1 - z'.1| ≤ s → |z.2 - z'.2| ≤ s → |D i j z - D i j z'| ≤ ω)
    {c : Bary ℝ} (hc : c.Inside) :
    ∃ y gx gy hxx hxy hyy, I.call t c = .ok y ∧ I.gradient t c = .ok (vecOf ![gx, gy]) ∧
      I.hessian t c = .ok (matOf !![hxx, hxy; hxy, hyy]) ∧
      |y - D 0 0 (g.pointAt t c)| ≤ 6 * ((2 * s) ^ N * ω) ∧
      |gx - D 1 0 (g.pointAt t c)| ≤ 60 * ((2 * s) ^ N * ω) / s ∧ |gy - D 0 1 (g.pointAt t c)| ≤ 60 * ((2 * s) ^ N * ω) / s ∧
      |hxx - D 2 0 (g.pointAt t c)| ≤ 420 * ((2 * s) ^ N * ω) / s ^ 2 ∧
      |hxy - D 1 1 (g.pointAt t c)| ≤ 420 * ((2 * s) ^ N * ω) / s ^ 2 ∧
      |hyy - D 0 2 (g.pointAt t c)| ≤ 420 * ((2 * s) ^ N * ω) / s ^ 2 := by
  have hs := (C22_structure G).1
  have hz := pointAt_mem g t hc
  set z := g.pointAt t c with hzdef
  have hsub := tri_subset G ht
  have rem := taylor_remainder (D := D) (convex_closedTriangle _ _ _) (N := N) (s := s) (ω := ω) hz
    (fun w hw => tri_diam G ht hw hz) (fun i j h w hw => hD i j h w (hsub hw))
    (fun i j h w hw => by
      obtain ⟨d1, d2⟩ := tri_diam G ht hw hz
      exact hω i j h w (hsub hw) z (hsub hz) d1 d2)
  have hω0 : 0 ≤ ω := by
    have := rem 0 N 0 (by omega) z hz
    rw [pow_zero, mul_one] at this
    exact (abs_nonneg _).trans this
  obtain ⟨-, -, -, -, a1, a2, a3, -⟩ := tri_frame G ht
  obtain ⟨n, rfl⟩ : ∃ n, N = n + 2 := ⟨N - 2, by omega⟩
  obtain ⟨y, gx, gy, hxx, hxy, hyy, k1, k2, k3, k4, k5, k6, k7, k8, k9⟩ := C102_quartics G hI ht (q := taylor D (n + 2) z)
    ((taylor_degree _ _).trans hN4) (e0 := ω * (2 * s) ^ (n + 2)) (e1 := ω * (2 * s) ^ (n + 1)) (e2 := ω * (2 * s) ^ n)
    (fun k => by
      refine ⟨![D 0 0 (g.xy (t.get k)), D 1 0 (g.xy (t.get k)), D 0 1 (g.xy (t.get k)), D 2 0 (g.xy (t.get k)),
        D 1 1 (g.xy (t.get k)), D 0 2 (g.xy (t.get k))], ?_, ?_⟩
      · have hat : g.At (t.get k) (g.xy (t.get k)) := by
          fin_cases k
          · exact a1
          · exact a2
          · exact a3
        rw [hu _ _ hat]
        simp [nodalData, List.ofFn_succ]
      · have hk := corner_mem g t k
        intro j
        fin_cases j
        · exact rem (n + 2) 0 0 (by omega) _ hk
        · exact rem (n + 1) 1 0 (by omega) _ hk
        · exact rem (n + 1) 0 1 (by omega) _ hk
        · exact rem n 2 0 (by omega) _ hk
        · exact rem n 1 1 (by omega) _ hk
        · exact rem n 0 2 (by omega) _ hk) rfl hc
  rw [← hzdef] at k4 k5 k6 k7 k8 k9
  have c00 := taylor_centre (D := D) (N := n + 2) (a := 0) (b := 0) (by omega) z
  have c10 := taylor_centre (D := D) (N := n + 2) (a := 1) (b := 0) (by omega) z
  have c01 := taylor_centre (D := D) (N := n + 2) (a := 0) (b := 1) (by omega) z
  have c20 := taylor_centre (D := D) (N := n + 2) (a := 2) (b := 0) (by omega) z
  have c11 := taylor_centre (D := D) (N := n + 2) (a := 1) (b := 1) (by omega) z
  have c02 := taylor_centre (D := D) (N := n + 2) (a := 0) (b := 2) (by omega) z
  have hm : ω * (2 * s) ^ (n + 2) + 6 / 5 * s * (ω * (2 * s) ^ (n + 1)) + 7 / 15 * s ^ 2 * (ω * (2 * s) ^ n) ≤
      7 / 4 * ((2 * s) ^ (n + 2) * ω) := by
    have : ω * (2 * s) ^ (n + 2) + 6 / 5 * s * (ω * (2 * s) ^ (n + 1)) + 7 / 15 * s ^ 2 * (ω * (2 * s) ^ n) =
        103 / 60 * ((2 * s) ^ (n + 2) * ω) := by rw [pow_succ, pow_succ]; ring
    rw [this]
    have : 0 ≤ (2 * s) ^ (n + 2) * ω := by positivity
    linarith
  have hp : 0 ≤ (2 * s) ^ (n + 2) * ω := by positivity
  refine ⟨y, gx, gy, hxx, hxy, hyy, k1, k2, k3, ?_, ?_, ?_, ?_, ?_, ?_⟩
  · rw [dd_zero] at c00
    rw [c00] at k4
    linarith
  · rw [show pderiv 0 (taylor D (n + 2) z) = dd 1 0 (taylor D (n + 2) z) from rfl, c10] at k5
    exact k5.trans ((div_le_div_iff_of_pos_right hs).2 (by linarith))
  · rw [show pderiv 1 (taylor D (n + 2) z) = dd 0 1 (taylor D (n + 2) z) from rfl, c01] at k6
    exact k6.trans ((div_le_div_iff_of_pos_right hs).2 (by linarith))
  · rw [show pderiv 0 (pderiv 0 (taylor D (n + 2) z)) = dd 2 0 (taylor D (n + 2) z) from rfl, c20] at k7
    exact k7.trans ((div_le_div_iff_of_pos_right (by positivity)).2 (by linarith))
  · rw [pderiv_comm', show pderiv 0 (pderiv 1 (taylor D (n + 2) z)) = dd 1 1 (taylor D (n + 2) z) from rfl, c11] at k8
    exact k8.trans ((div_le_div_iff_of_pos_right (by positivity)).2 (by linarith))
  · rw [show pderiv 1 (pderiv 1 (taylor D (n + 2) z)) = dd 0 2 (taylor D (n + 2) z) from rfl, c02] at k9
    exact k9.trans ((div_le_div_iff_of_pos_right (by positivity)).2 (by linarith))

/-- Fifth order. If the partial derivatives of order five are bounded by `M`, the values of the interpolation are off by at most
`192 M s ^ 5`, its gradient by `1920 M s ^ 4` and its Hessian by `13440 M s ^ 3`. -/
theorem C102_fifth_order (G : LibraryGrid g nx ny s) (hI : C1Interpolation g u = .ok I) (ht : t ∈ g.triangles)
    {D : ℕ → ℕ → ℝ × ℝ → ℝ} (hu : ∀ v q, g.At v q → u[v]? = some (nodalData D q))
    (hD : PartialsOn D 5 (Set.Icc ((0 : ℝ), (0 : ℝ)) (nx * s, ny * s))) {M : ℝ}
    (hM : ∀ i j, i + j = 5 → ∀ z ∈ Set.Icc ((0 : ℝ), (0 : ℝ)) (nx * s, ny * s), |D i j z| ≤ M)
    {c : Bary ℝ} (hc : c.Inside) :
    ∃ y gx gy hxx hxy hyy, I.call t c = .ok y ∧ I.gradient t c = .ok (vecOf ![gx, gy]) ∧
      I.hessian t c = .ok (matOf !![hxx, hxy; hxy, hyy]) ∧
      |y - D 0 0 (g.pointAt t c)| ≤ 192 * M * s ^ 5 ∧
      |gx - D 1 0 (g.pointAt t c)| ≤ 1920 * M * s ^ 4 ∧ |gy - D 0 1 (g.pointAt t c)| ≤ 1920 * M * s ^ 4 ∧
      |hxx - D 2 0 (g.pointAt t c)| ≤ 13440 * M * s ^ 3 ∧ |hxy - D 1 1 (g.pointAt t c)| ≤ 13440 * M * s ^ 3 ∧
      |hyy - D 0 2 (g.pointAt t c)| ≤ 13440 * M * s ^ 3 := by
  have hs := (C22_structure G).1
  have conv : Convex ℝ (Set.Icc ((0 : ℝ), (0 : ℝ)) (nx * s, ny * s)) := by
    rw [Set.Icc_prod_eq]; exact (convex_Icc _ _).prod (convex_Icc _ _)
  obtain ⟨y, gx, gy, hxx, hxy, hyy, k1, k2, k3, k4, k5, k6, k7, k8, k9⟩ := C102_order G hI ht hu (N := 4) (by norm_num) le_rfl
    (fun i j h => hD i j (by omega)) (ω := 2 * s * M) (fun i j h z hz z' hz' d1 d2 => by
      obtain ⟨ξ, hξ, -, e⟩ := mean_value conv (hD i j (by omega)) hz' hz
      rw [e]
      have m1 := hM (i + 1) j (by omega) ξ hξ
      have m2 := hM i (j + 1) (by omega) ξ hξ
      have hM0 : 0 ≤ M := (abs_nonneg _).trans m1
      calc _ ≤ M * s + M * s := by
            refine (abs_add_le _ _).trans (add_le_add ?_ ?_)
            · rw [abs_mul]; exact mul_le_mul m1 d1 (abs_nonneg _) hM0
            · rw [abs_mul]; exact mul_le_mul m2 d2 (abs_nonneg _) hM0
        _ = 2 * s * M := by ring) hc
  have e0 : 6 * ((2 * s) ^ 4 * (2 * s * M)) = 192 * M * s ^ 5 := by ring
  have e1 : 60 * ((2 * s) ^ 4 * (2 * s * M)) / s = 1920 * M * s ^ 4 := by field_simp; ring
  have e2 : 420 * ((2 * s) ^ 4 * (2 * s * M)) / s ^ 2 = 13440 * M * s ^ 3 := by field_simp; ring
  rw [e0] at k4
  rw [e1] at k5 k6
  rw [e2] at k7 k8 k9
  exact ⟨y, gx, gy, hxx, hxy, hyy, k1, k2, k3, k4, k5, k6, k7, k8, k9⟩

/-- Convergence. The interpolations of a twice continuously differentiable function on the grids of a rectangle converge
uniformly with their first and second derivatives as the mesh size tends to zero. -/
theorem C102_convergence (d : RectDomain ℝ) (hw : 0 < d.width) (hh : 0 < d.height) {D : ℕ → ℕ → ℝ × ℝ → ℝ}
    (hD : PartialsOn D 2 (Set.Icc ((0 : ℝ), (0 : ℝ)) (d.width, d.height)))
    (hc : ∀ i j, i + j = 2 → ContinuousOn (D i j) (Set.Icc (0, 0) (d.width, d.height))) {ε : ℝ} (hε : 0 < ε) :
    ∃ δ > 0, ∀ s, 0 < s → s < δ → ∀ it g, d.grid it s = .ok g → ∀ u, (∀ v q, g.At v q → u[v]? = some (nodalData D q)) →
      ∀ I, C1Interpolation g u = .ok I → ∀ t ∈ g.triangles, ∀ c : Bary ℝ, c.Inside →
        ∃ y gx gy hxx hxy hyy, I.call t c = .ok y ∧ I.gradient t c = .ok (vecOf ![gx, gy]) ∧
          I.hessian t c = .ok (matOf !![hxx, hxy; hxy, hyy]) ∧
          |y - D 0 0 (g.pointAt t c)| ≤ ε * s ^ 2 ∧
          |gx - D 1 0 (g.pointAt t c)| ≤ ε * s ∧ |gy - D 0 1 (g.pointAt t c)| ≤ ε * s ∧
          |hxx - D 2 0 (g.pointAt t c)| ≤ ε ∧ |hxy - D 1 1 (g.pointAt t c)| ≤ ε ∧ |hyy - D 0 2 (g.pointAt t c)| ≤ ε := by
  obtain ⟨δ1, h1, v1⟩ := small_variation (hc 2 0 rfl) (show 0 < ε / 1680 by positivity)
  obtain ⟨δ2, h2, v2⟩ := small_variation (hc 1 1 rfl) (show 0 < ε / 1680 by positivity)
  obtain ⟨δ3, h3, v3⟩ := small_variation (hc 0 2 rfl) (show 0 < ε / 1680 by positivity)
  refine ⟨min (min δ1 (min δ2 δ3)) (min d.width d.height), by positivity, fun s hs hsδ it g hg u hu I hI t ht c hc => ?_⟩
  have s1 : s < δ1 := hsδ.trans_le ((min_le_left _ _).trans (min_le_left _ _))
  have s2 : s < δ2 := hsδ.trans_le ((min_le_left _ _).trans ((min_le_right _ _).trans (min_le_left _ _)))
  have s2' : s < δ3 := hsδ.trans_le ((min_le_left _ _).trans ((min_le_right _ _).trans (min_le_right _ _)))
  have s3 : s ≤ d.width := (hsδ.trans_le ((min_le_right _ _).trans (min_le_left _ _))).le
  have s4 : s ≤ d.height := (hsδ.trans_le ((min_le_right _ _).trans (min_le_right _ _))).le
  have G := LibraryGrid.grid hs s3 s4 hg
  have hsub : gridRect (cells d.width s) (cells d.height s) s ⊆ Set.Icc ((0 : ℝ), (0 : ℝ)) (d.width, d.height) :=
    Set.Icc_subset_Icc le_rfl ⟨(cells_strip hs hw.le).1, (cells_strip hs hh.le).1⟩
  obtain ⟨y, gx, gy, hxx, hxy, hyy, k1, k2, k3, k4, k5, k6, k7, k8, k9⟩ := C102_order G hI ht hu (N := 2) le_rfl (by norm_num)
    (fun i j h z hz => hD i j h z (hsub hz)) (ω := ε / 1680) (fun i j h z hz z' hz' d1 d2 => by
      obtain ⟨rfl, rfl⟩ | ⟨rfl, rfl⟩ | ⟨rfl, rfl⟩ : (i = 2 ∧ j = 0) ∨ (i = 1 ∧ j = 1) ∨ (i = 0 ∧ j = 2) := by omega
      · exact v1 s s1 z (hsub hz) z' (hsub hz') d1 d2
      · exact v2 s s2 z (hsub hz) z' (hsub hz') d1 d2
      · exact v3 s s2' z (hsub hz) z' (hsub hz') d1 d2) hc
  have e0 : 6 * ((2 * s) ^ 2 * (ε / 1680)) ≤ ε * s ^ 2 := by
    have : 0 ≤ ε * s ^ 2 := by positivity
    nlinarith
  have e1 : 60 * ((2 * s) ^ 2 * (ε / 1680)) / s ≤ ε * s := by
    have : 60 * ((2 * s) ^ 2 * (ε / 1680)) / s = 1 / 7 * (ε * s) := by field_simp; ring
    rw [this]
    have : 0 ≤ ε * s := by positivity
    linarith
  have e2 : 420 * ((2 * s) ^ 2 * (ε / 1680)) / s ^ 2 = ε := by field_simp; ring
  exact ⟨y, gx, gy, hxx, hxy, hyy, k1, k2, k3, k4.trans e0, k5.trans e1, k6.trans e1, k7.trans e2.le, k8.trans e2.le,
    k9.trans e2.le⟩

theorem exp_partials (i j : ℕ) (z : ℝ × ℝ) : HasFDerivAt (fun z : ℝ × ℝ => (2 : ℝ) ^ j * Real.exp (z.1 + 2 * z.2))
    (lin (2 ^ j * Real.exp (z.1 + 2 * z.2)) (2 ^ (j + 1) * Real.exp (z.1 + 2 * z.2))) z := by
  have h1 : HasFDerivAt (fun z : ℝ × ℝ => z.1) (ContinuousLinearMap.fst ℝ ℝ ℝ) z := hasFDerivAt_fst
  have h2 : HasFDerivAt (fun z : ℝ × ℝ => z.2) (ContinuousLinearMap.snd ℝ ℝ ℝ) z := hasFDerivAt_snd
  refine (((h1.add (h2.const_mul 2)).exp).const_mul (2 ^ j)).congr_fderiv ?_
  ext <;> simp [lin] <;> ring

/-- The function `exp (x + 2 y)`: its derivatives are as required, its nodal data on a grid of the sample domain are accepted by
`C1Interpolation`, and the interpolation is off by less than `1 / 1000` on a grid of mesh size `1 / 64`. -/
example (it : SetIter) : ∃ g u I, sampleDomain.grid it (1 / 64) = .ok g ∧
    (∀ v q, g.At v q → u[v]? = some (nodalData (fun _ j z => 2 ^ j * Real.exp (z.1 + 2 * z.2)) q)) ∧
    C1Interpolation g u = .ok I ∧ g.triangles ≠ [] ∧
    ∀ t ∈ g.triangles, ∀ c : Bary ℝ, c.Inside → ∃ y, I.call t c = .ok y ∧
      |y - Real.exp ((g.pointAt t c).1 + 2 * (g.pointAt t c).2)| ≤ 1 / 1000 := by
  have hs : (0 : ℝ) < 1 / 64 := by norm_num
  have s1 : (1 : ℝ) / 64 ≤ sampleDomain.width := by norm_num [sampleDomain]
  have s2 : (1 : ℝ) / 64 ≤ sampleDomain.height := by norm_num [sampleDomain]
  obtain ⟨g, ts, hg, -⟩ := rect_grid_spec it sampleDomain (hs.le.trans s1) (hs.le.trans s2) hs
  have G := LibraryGrid.grid hs s1 s2 hg
  let D : ℕ → ℕ → ℝ × ℝ → ℝ := fun _ j z => 2 ^ j * Real.exp (z.1 + 2 * z.2)
  have hu : ∀ v q, g.At v q → (g.vertices.map fun v => nodalData D (g.xy v))[v]? = some (nodalData D q) := by
    intro v q hq
    have hS := C22_structure G
    have hv : v < g.points.length := by
      rw [Grid.At] at hq
      exact (List.getElem?_eq_some_iff.1 hq).1
    rw [hS.2.2.2.2.1] at hv
    rw [hS.2.2.2.1, List.getElem?_map, List.getElem?_range hv, Option.map_some, xy_of_at hq]
  obtain ⟨I, hI, -⟩ := (C45_c1_ctor g (g.vertices.map fun v => nodalData D (g.xy v))).1 ⟨by simp, by
    intro p hp
    obtain ⟨v, -, rfl⟩ := List.mem_map.1 hp
    rfl⟩
  refine ⟨g, _, I, hg, hu, hI, ?_, fun t ht c hc => ?_⟩
  · intro h0
    have := (C22_structure G).2.2.2.2.2.2.1
    have := (C22_structure G).2.1
    have := (C22_structure G).2.2.1
    rw [h0] at *
    simp at *
    omega
  · have hsub : gridRect (cells sampleDomain.width (1 / 64)) (cells sampleDomain.height (1 / 64)) (1 / 64) ⊆
        Set.Icc ((0 : ℝ), (0 : ℝ)) (sampleDomain.width, sampleDomain.height) :=
      Set.Icc_subset_Icc le_rfl ⟨(cells_strip hs (by norm_num [sampleDomain])).1, (cells_strip hs (by norm_num [sampleDomain])).1⟩
    obtain ⟨y, -, -, -, -, -, k1, -, -, k2, -⟩ := C102_fifth_order G hI ht hu (fun i j _ z _ => exp_partials i j z)
      (M := 32 * Real.exp 4) (fun i j h z hz => by
        have hz := hsub hz
        obtain ⟨-, hz⟩ := hz
        have z1 : z.1 ≤ 5 / 4 := hz.1
        have z2 : z.2 ≤ 1 := hz.2
        have e : Real.exp (z.1 + 2 * z.2) ≤ Real.exp 4 := Real.exp_le_exp.2 (by linarith)
        have p : (2 : ℝ) ^ j ≤ 32 := by
          calc (2 : ℝ) ^ j ≤ 2 ^ 5 := pow_le_pow_right₀ (by norm_num) (by omega)
            _ = 32 := by norm_num
        show |(2 : ℝ) ^ j * Real.exp (z.1 + 2 * z.2)| ≤ _
        rw [abs_of_nonneg (by positivity)]
        exact mul_le_mul p e (Real.exp_pos _).le (by norm_num)) hc
    refine ⟨y, k1, ?_⟩
    have e : D 0 0 (g.pointAt t c) = Real.exp ((g.pointAt t c).1 + 2 * (g.pointAt t c).2) := by simp [D]
    rw [e] at k2
    refine k2.trans ?_
    have h4 : Real.exp 4 ≤ 81 := by
      have h1 : Real.exp 1 ≤ 3 := Real.exp_one_lt_d9.le.trans (by norm_num)
      have : Real.exp 4 = Real.exp 1 ^ 4 := by rw [← Real.exp_nat_mul]; norm_num
      rw [this]
      calc Real.exp 1 ^ 4 ≤ 3 ^ 4 := pow_le_pow_left₀ (Real.exp_pos _).le h1 4
        _ = 81 := by norm_num
    norm_num
    linarith

end Tve
