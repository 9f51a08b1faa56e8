import Verif.Lemmas.RegLipschitz
import Verif.Props.Usable

/-!
# C103 — consistency of the energies of a simulation with regularization
-/

namespace Tve

open MeasureTheory Helpers

section
variable {g : Grid ℝ} {nx ny : ℕ} {s : ℝ} {n : ℕ} {d : RectDomain ℝ} {r : RefinedGrid ℝ} {Y : Fin 2 → ℕ → ℕ → ℝ × ℝ → ℝ}
  {y : NdArray} {ω : ℝ}

/-- Fields: if the array `y` holds the values and derivatives of the twice continuously differentiable deformation `Y` at the
vertices, whose second derivatives vary by at most `ω` over a cell, then the deformation seen on the refined grid is
`24 s² ω`-close to `Y`, its strain `240 s ω`-close to the gradient of `Y` and its hyperstrain `1680 ω`-close to the second
derivatives of `Y`, everywhere. -/
theorem C103_fields (G : LibraryGrid g nx ny s) (hn : 1 ≤ n) (hs : 1 / 10 ^ 15 ≤ s / n) (hr : d.refine g n = .ok r)
    (hy : y.HoldsC1 g Y) (hY : ∀ k, PartialsOn (Y k) 2 (Set.Icc (0, 0) (nx * s, ny * s)))
    (hω : ∀ k i j, i + j = 2 → Varies (Y k i j) (Set.Icc (0, 0) (nx * s, ny * s)) s ω) :
    ∃ D, deformOf g (some r) y = .ok D ∧ ∀ t ∈ r.toGrid.triangles, ∀ b : Bary ℝ, b.Inside →
      ∃ (p : Fin 2 → ℝ) (F : Matrix (Fin 2) (Fin 2) ℝ) (H : Fin 2 → Fin 2 → Fin 2 → ℝ), D.call t b = .ok (vecOf p) ∧
        D.strain t b = .ok (matOf F) ∧ D.hyperStrain t b = .ok (tenOf H) ∧
        (∀ k, |p k - Y k 0 0 (r.toGrid.pointAt t b)| ≤ 24 * s ^ 2 * ω) ∧
        (∀ i j, |F i j - gradOf Y (r.toGrid.pointAt t b) i j| ≤ 240 * s * ω) ∧
        ∀ k i j, |H k i j - hessOf Y (r.toGrid.pointAt t b) k i j| ≤ 1680 * ω := by
  have hs0 := (C22_structure G).1
  obtain ⟨hHas, hb⟩ := hy
  obtain ⟨u0, hu0, hd0⟩ := hb 0
  obtain ⟨u1, hu1, hd1⟩ := hb 1
  have hlen : ∀ k : ℕ, k < 2 → ∀ u, y.block k = .ok u → ∃ I, C1Interpolation g u = .ok I := by
    intro k hk u hu
    rw [NdArray.block_eq hHas hk] at hu
    cases hu
    obtain ⟨I, hI, -⟩ := (C45_c1_ctor g ((List.range g.vertices.length).map fun i => (List.range 6).map fun j => y.at3 2 6 i k j)).1 ⟨by rw [List.length_map, List.length_range], fun p hp => by
      obtain ⟨v, -, rfl⟩ := List.mem_map.1 hp
      rw [List.length_map, List.length_range]⟩
    exact ⟨I, hI⟩
  obtain ⟨I0, hI0⟩ := hlen 0 (by norm_num) u0 hu0
  obtain ⟨I1, hI1⟩ := hlen 1 (by norm_num) u1 hu1
  refine ⟨⟨RefinedInterpolation I0 r, RefinedInterpolation I1 r⟩, ?_, fun t ht b hb => ?_⟩
  · rw [deformOf, show y.block 0 = .ok u0 from hu0, bind_ok, show y.block 1 = .ok u1 from hu1, bind_ok, RegMechModel.deformation, hI0, bind_ok,
      hI1, bind_ok]
    rfl
  · obtain ⟨t0, m0, c0, -, i0, p0, a0, b0, e0⟩ := C43_same_point G hn hs hr I0 ht hb.1
    obtain ⟨t1, m1, c1, -, i1, p1, a1, b1, e1⟩ := C43_same_point G hn hs hr I1 ht hb.1
    obtain ⟨y0, gx, gy, hxx, hxy, hyy, k1, k2, k3, k4, k5, k6, k7, k8, k9⟩ := C102_order G hI0 m0 hd0 (N := 2) le_rfl (by norm_num)
      (hY 0) (ω := ω) (fun i j h => hω 0 i j h) (i0 hb)
    obtain ⟨y0', gx', gy', hxx', hxy', hyy', l1, l2, l3, l4, l5, l6, l7, l8, l9⟩ := C102_order G hI1 m1 hd1 (N := 2) le_rfl
      (by norm_num) (hY 1) (ω := ω) (fun i j h => hω 1 i j h) (i1 hb)
    rw [p0] at k4 k5 k6 k7 k8 k9
    rw [p1] at l4 l5 l6 l7 l8 l9
    have f0 : 6 * ((2 * s) ^ 2 * ω) = 24 * s ^ 2 * ω := by ring
    have f1 : 60 * ((2 * s) ^ 2 * ω) / s = 240 * s * ω := by field_simp; ring
    have f2 : 420 * ((2 * s) ^ 2 * ω) / s ^ 2 = 1680 * ω := by field_simp; ring
    rw [f0] at k4 l4
    rw [f1] at k5 k6 l5 l6
    rw [f2] at k7 k8 k9 l7 l8 l9
    refine ⟨![y0, y0'], !![gx, gy; gx', gy'], ![![![hxx, hxy], ![hxy, hyy]], ![![hxx', hxy'], ![hxy', hyy']]], ?_, ?_, ?_, ?_, ?_, ?_⟩
    · rw [Deformation.call]
      simp only
      rw [a0, k1, bind_ok, a1, l1, bind_ok, vecOf_pair]
      rfl
    · rw [Deformation.strain]
      simp only
      rw [b0, k2, bind_ok, b1, l2, bind_ok, stack_pairs]
    · rw [Deformation.hyperStrain]
      simp only
      rw [e0, k3, bind_ok, e1, l3, bind_ok, stack_hessians]
    · rw [Fin.forall_fin_two]; exact ⟨k4, l4⟩
    · rw [Fin.forall_fin_two, Fin.forall_fin_two, Fin.forall_fin_two]
      exact ⟨⟨k5, k6⟩, l5, l6⟩
    · simp only [Fin.forall_fin_two]
      exact ⟨⟨⟨k7, k8⟩, k8, k9⟩, ⟨l7, l8⟩, l8, l9⟩

/-- Elastic energy: its difference to the integral of the total elastic potential `W` of the gradient of `Y` and of the temperature
`θ` is at most the area times the sum of (`κ`) the change of the potential if the strain changes by at most `240 s ω` per entry and
the temperature by at most its variation `τ` over a cell of the refined grid, (`ω'`) the variation of `W` over such a cell, and
`10⁻¹⁴` times the largest value of `W` (the weights of the quadrature rule do not add up exactly to one). -/
theorem C103_elastic (G : LibraryGrid g nx ny s) (hn : 1 ≤ n) (hs : 1 / 10 ^ 15 ≤ s / n) (hr : d.refine g n = .ok r)
    (hy : y.HoldsC1 g Y) (hY : ∀ k, PartialsOn (Y k) 2 (Set.Icc (0, 0) (nx * s, ny * s)))
    (hω : ∀ k i j, i + j = 2 → Varies (Y k i j) (Set.Icc (0, 0) (nx * s, ny * s)) s ω)
    {θ W : ℝ × ℝ → ℝ} {x : NdArray} (hx : x.Has [r.toGrid.vertices.length])
    (hxθ : ∀ v q, r.toGrid.At v q → x.data[v]? = some (θ q)) {τ κ ω' M : ℝ}
    (hτ : Varies θ (Set.Icc (0, 0) (nx * s, ny * s)) (s / n) τ)
    (_hW : ∀ z ∈ Set.Icc ((0 : ℝ), (0 : ℝ)) (nx * s, ny * s), totalElasticPotential (matOf (gradOf Y z)) (θ z) = .ok (W z))
    (hWc : ContinuousOn W (Set.Icc (0, 0) (nx * s, ny * s)))
    (hκ : ∀ z ∈ Set.Icc ((0 : ℝ), (0 : ℝ)) (nx * s, ny * s), ∀ F : Matrix (Fin 2) (Fin 2) ℝ, ∀ T : ℝ,
      (∀ i j, |F i j - gradOf Y z i j| ≤ 240 * s * ω) → |T - θ z| ≤ τ →
      ∃ w, totalElasticPotential (matOf F) T = .ok w ∧ |w - W z| ≤ κ)
    (hω' : Varies W (Set.Icc (0, 0) (nx * s, ny * s)) (s / n) ω')
    (hM : ∀ z ∈ Set.Icc ((0 : ℝ), (0 : ℝ)) (nx * s, ny * s), |W z| ≤ M) :
    ∃ E, IsElasticEnergy g (some r) y x E ∧
      |E - ∫ z in Set.Icc ((0 : ℝ), (0 : ℝ)) (nx * s, ny * s), W z| ≤ (nx * s) * (ny * s) * (κ + ω' + M / 10 ^ 14) := by
  have GR := LibraryGrid.refine G hn hs hr
  have hrect : gridRect (n * nx) (n * ny) (s / n) = Set.Icc ((0 : ℝ), (0 : ℝ)) (nx * s, ny * s) := refined_rect hn
  have hn' : (n : ℝ) ≠ 0 := by exact_mod_cast (by omega : n ≠ 0)
  have ex : ((n * nx : ℕ) : ℝ) * (s / n) = nx * s := by push_cast; field_simp
  have ey : ((n * ny : ℕ) : ℝ) * (s / n) = ny * s := by push_cast; field_simp
  obtain ⟨D, hD, hf⟩ := C103_fields G hn hs hr hy hY hω
  obtain ⟨T, hT, -⟩ := (C34_ctor r.toGrid x.data).1 (by have := hx.2; rw [NdArray.Ok, hx.1] at this; simpa using this)
  obtain ⟨q, hq, hgood, q1, q2⟩ := dunavant5_sum
  have hval : ∀ t ∈ r.toGrid.triangles, ∀ b : Bary ℝ, b.Inside → ∃ v, (∃ F T', D.strain t b = .ok F ∧
      T.call t b = .ok T' ∧ totalElasticPotential F T' = .ok v) ∧ |v - W (r.toGrid.pointAt t b)| ≤ κ := by
    intro t ht b hb
    have hz : r.toGrid.pointAt t b ∈ Set.Icc ((0 : ℝ), (0 : ℝ)) (nx * s, ny * s) := by
      rw [← hrect]; exact tri_subset GR ht (pointAt_mem _ t hb)
    obtain ⟨p, F, H, -, e1, -, -, e2, -⟩ := hf t ht b hb
    obtain ⟨T', e3, e4⟩ := P1_values GR hT ht hxθ (ω := τ) (by rw [hrect]; exact hτ) hb
    obtain ⟨w, e5, e6⟩ := hκ _ hz F T' e2 e4
    exact ⟨w, ⟨_, _, e1, e3, e5⟩, e6⟩
  obtain ⟨A, hA', he⟩ := reg_close GR hrect ex ey hgood q1 q2 hval hWc hω' hM (by
      have h0 : ((0 : ℝ), (0 : ℝ)) ∈ Set.Icc ((0 : ℝ), (0 : ℝ)) (nx * s, ny * s) := by
        have := (C22_structure G).1
        exact ⟨le_rfl, by constructor <;> simp <;> positivity⟩
      have hs0 := (C22_structure G).1
      have hτ0 : 0 ≤ τ := (abs_nonneg _).trans (hτ _ h0 _ h0 (by simp; positivity) (by simp; positivity))
      have hω0 : 0 ≤ ω := (abs_nonneg _).trans (hω 0 2 0 rfl _ h0 _ h0 (by simpa using hs0.le) (by simpa using hs0.le))
      obtain ⟨w, -, h⟩ := hκ _ h0 (gradOf Y (0, 0)) (θ (0, 0)) (fun i j => by simp; positivity) (by simpa using hτ0)
      exact (abs_nonneg _).trans h)
  refine ⟨r.toGrid.quad q A, ⟨D, T, q, A, hD, hT, hq, fun t ht b hb => ?_, rfl⟩, he⟩
  obtain ⟨F, T', e1, e2, e3⟩ := hA' t ht b (hgood.inside b hb)
  exact ⟨F, T', e1, e2, e3⟩

theorem gradOf_continuous {Y : Fin 2 → ℕ → ℕ → ℝ × ℝ → ℝ} {R : Set (ℝ × ℝ)} (hY : ∀ k, PartialsOn (Y k) 2 R) (i j : Fin 2) :
    ContinuousOn (fun z => gradOf Y z i j) R := by
  have h : ∀ k a b, a + b < 2 → ContinuousOn (Y k a b) R := fun k a b hab z hz => (hY k a b hab z hz).continuousAt.continuousWithinAt
  fin_cases i <;> fin_cases j
  · exact h 0 1 0 (by norm_num)
  · exact h 0 0 1 (by norm_num)
  · exact h 1 1 0 (by norm_num)
  · exact h 1 0 1 (by norm_num)

/-- Dissipation of the change from `Y0` to `Y`: with first derivatives bounded by `M` that vary by at most `ν` over a cell of the
refined grid, the difference to the integral of the dissipation potential is at most the area times
`512 (M + e)³ e + 512 M³ ν + 128 M⁴ / 10¹⁴` with `e = 240 s ω`. -/
theorem C103_dissipation (G : LibraryGrid g nx ny s) (hn : 1 ≤ n) (hs : 1 / 10 ^ 15 ≤ s / n) (hr : d.refine g n = .ok r)
    {Y0 : Fin 2 → ℕ → ℕ → ℝ × ℝ → ℝ} {y0 : NdArray} (hy0 : y0.HoldsC1 g Y0) (hy : y.HoldsC1 g Y)
    (hY0 : ∀ k, PartialsOn (Y0 k) 2 (Set.Icc (0, 0) (nx * s, ny * s)))
    (hY : ∀ k, PartialsOn (Y k) 2 (Set.Icc (0, 0) (nx * s, ny * s)))
    (hω0 : ∀ k i j, i + j = 2 → Varies (Y0 k i j) (Set.Icc (0, 0) (nx * s, ny * s)) s ω)
    (hω : ∀ k i j, i + j = 2 → Varies (Y k i j) (Set.Icc (0, 0) (nx * s, ny * s)) s ω) {V : ℝ × ℝ → ℝ} {M ν : ℝ}
    (hM : ∀ z ∈ Set.Icc ((0 : ℝ), (0 : ℝ)) (nx * s, ny * s), ∀ i j, |gradOf Y0 z i j| ≤ M ∧ |gradOf Y z i j| ≤ M)
    (hν : ∀ i j, Varies (fun z => gradOf Y0 z i j) (Set.Icc (0, 0) (nx * s, ny * s)) (s / n) ν ∧
      Varies (fun z => gradOf Y z i j) (Set.Icc (0, 0) (nx * s, ny * s)) (s / n) ν)
    (hV : ∀ z ∈ Set.Icc ((0 : ℝ), (0 : ℝ)) (nx * s, ny * s),
      dissipationPotential (matOf (gradOf Y0 z)) (matOf (gradOf Y z)) = .ok (V z)) :
    ∃ D, IsDissipation g (some r) y0 y D ∧
      |D - ∫ z in Set.Icc ((0 : ℝ), (0 : ℝ)) (nx * s, ny * s), V z| ≤
        (nx * s) * (ny * s) * (512 * (M + 240 * s * ω) ^ 3 * (240 * s * ω) + 512 * M ^ 3 * ν + 128 * M ^ 4 / 10 ^ 14) := by
  have GR := LibraryGrid.refine G hn hs hr
  have hrect : gridRect (n * nx) (n * ny) (s / n) = Set.Icc ((0 : ℝ), (0 : ℝ)) (nx * s, ny * s) := refined_rect hn
  have hn' : (n : ℝ) ≠ 0 := by exact_mod_cast (by omega : n ≠ 0)
  have ex : ((n * nx : ℕ) : ℝ) * (s / n) = nx * s := by push_cast; field_simp
  have ey : ((n * ny : ℕ) : ℝ) * (s / n) = ny * s := by push_cast; field_simp
  obtain ⟨D0, hD0, hf0⟩ := C103_fields G hn hs hr hy0 hY0 hω0
  obtain ⟨D, hD, hf⟩ := C103_fields G hn hs hr hy hY hω
  obtain ⟨q, hq, hgood, q1, q2⟩ := dunavant5_sum
  have hs0 := (C22_structure G).1
  have h0 : ((0 : ℝ), (0 : ℝ)) ∈ Set.Icc ((0 : ℝ), (0 : ℝ)) (nx * s, ny * s) := ⟨le_rfl, by constructor <;> simp <;> positivity⟩
  have hω0' : 0 ≤ ω := (abs_nonneg _).trans (hω 0 2 0 rfl _ h0 _ h0 (by simpa using hs0.le) (by simpa using hs0.le))
  have hM0 : 0 ≤ M := (abs_nonneg _).trans (hM _ h0 0 0).1
  have he : 0 ≤ 240 * s * ω := by positivity
  have hVe : ∀ z ∈ Set.Icc ((0 : ℝ), (0 : ℝ)) (nx * s, ny * s), V z = dissVal (gradOf Y0 z) (gradOf Y z) := fun z hz =>
    Except.ok.inj ((hV z hz).symm.trans (C51_value _ _))
  have hval : ∀ t ∈ r.toGrid.triangles, ∀ b : Bary ℝ, b.Inside → ∃ v, (∃ F0 F, D0.strain t b = .ok F0 ∧
      D.strain t b = .ok F ∧ dissipationPotential F0 F = .ok v) ∧ |v - V (r.toGrid.pointAt t b)| ≤
        512 * (M + 240 * s * ω) ^ 3 * (240 * s * ω) := by
    intro t ht b hb
    have hz : r.toGrid.pointAt t b ∈ Set.Icc ((0 : ℝ), (0 : ℝ)) (nx * s, ny * s) := by
      rw [← hrect]; exact tri_subset GR ht (pointAt_mem _ t hb)
    obtain ⟨-, F0, -, -, e1, -, -, e2, -⟩ := hf0 t ht b hb
    obtain ⟨-, F, -, -, e3, -, -, e4, -⟩ := hf t ht b hb
    refine ⟨_, ⟨_, _, e1, e3, C51_value _ _⟩, ?_⟩
    rw [hVe _ hz]
    have tri : ∀ {a b : ℝ}, |a - b| ≤ 240 * s * ω → |b| ≤ M → |a| ≤ M + 240 * s * ω := fun {a b} h1 h2 => by
      have := abs_add_le (a - b) b
      rw [sub_add_cancel] at this
      linarith
    exact dissVal_close (fun i j => tri (e2 i j) (hM _ hz i j).1) (fun i j => tri (e4 i j) (hM _ hz i j).2)
      (fun i j => (hM _ hz i j).1.trans (by linarith)) (fun i j => (hM _ hz i j).2.trans (by linarith)) e2 e4
  have hc : ContinuousOn V (Set.Icc ((0 : ℝ), (0 : ℝ)) (nx * s, ny * s)) := by
    have c0 := gradOf_continuous hY0
    have c1 := gradOf_continuous hY
    refine ContinuousOn.congr ?_ hVe
    simp only [dissVal_eq, dissE_eq]
    have a1 := c0 0 0
    have a2 := c0 0 1
    have a3 := c0 1 0
    have a4 := c0 1 1
    have b1 := c1 0 0
    have b2 := c1 0 1
    have b3 := c1 1 0
    have b4 := c1 1 1
    fun_prop
  obtain ⟨A, hA', he⟩ := reg_close GR hrect ex ey hgood q1 q2 hval hc (ω := 512 * M ^ 3 * ν) (M := 128 * M ^ 4)
    (fun z hz z' hz' d1 d2 => by
      rw [hVe z hz, hVe z' hz']
      exact dissVal_close (fun i j => (hM _ hz i j).1) (fun i j => (hM _ hz i j).2) (fun i j => (hM _ hz' i j).1)
        (fun i j => (hM _ hz' i j).2) (fun i j => (hν i j).1 z hz z' hz' d1 d2) (fun i j => (hν i j).2 z hz z' hz' d1 d2))
    (fun z hz => by rw [hVe z hz]; exact dissVal_bound (fun i j => (hM _ hz i j).1) (fun i j => (hM _ hz i j).2)) (by positivity)
  refine ⟨r.toGrid.quad q A, ⟨D0, D, q, A, hD0, hD, hq, fun t ht b hb => hA' t ht b (hgood.inside b hb), rfl⟩, he⟩

/-- Hyper elastic energy: with second derivatives bounded by `M` that vary by at most `ω` over a cell, the difference to the integral
of the hyper elastic potential is at most the area times `72 (M + e)² e + 72 M² ω + 24 M³ / 10¹⁴` with `e = 1680 ω`. -/
theorem C103_hyper (G : LibraryGrid g nx ny s) (hn : 1 ≤ n) (hs : 1 / 10 ^ 15 ≤ s / n) (hr : d.refine g n = .ok r)
    (hy : y.HoldsC1 g Y) (hY : ∀ k, PartialsOn (Y k) 2 (Set.Icc (0, 0) (nx * s, ny * s)))
    (hYc : ∀ k i j, i + j = 2 → ContinuousOn (Y k i j) (Set.Icc (0, 0) (nx * s, ny * s)))
    (hω : ∀ k i j, i + j = 2 → Varies (Y k i j) (Set.Icc (0, 0) (nx * s, ny * s)) s ω) {M : ℝ}
    (hM : ∀ z ∈ Set.Icc ((0 : ℝ), (0 : ℝ)) (nx * s, ny * s), ∀ k i j, i + j = 2 → |Y k i j z| ≤ M) :
    ∃ h, IsHyperEnergy g r y h ∧
      |h - ∫ z in Set.Icc ((0 : ℝ), (0 : ℝ)) (nx * s, ny * s), hyperElasticPotential (tenOf (hessOf Y z))| ≤
        (nx * s) * (ny * s) * (72 * (M + 1680 * ω) ^ 2 * (1680 * ω) + 72 * M ^ 2 * ω + 24 * M ^ 3 / 10 ^ 14) := by
  have GR := LibraryGrid.refine G hn hs hr
  have hrect : gridRect (n * nx) (n * ny) (s / n) = Set.Icc ((0 : ℝ), (0 : ℝ)) (nx * s, ny * s) := refined_rect hn
  have hn' : (n : ℝ) ≠ 0 := by exact_mod_cast (by omega : n ≠ 0)
  have ex : ((n * nx : ℕ) : ℝ) * (s / n) = nx * s := by push_cast; field_simp
  have ey : ((n * ny : ℕ) : ℝ) * (s / n) = ny * s := by push_cast; field_simp
  obtain ⟨D, hD, hf⟩ := C103_fields G hn hs hr hy hY hω
  obtain ⟨q, hq, hgood, q1, q2⟩ := dunavant5_sum
  have hs0 := (C22_structure G).1
  have h0 : ((0 : ℝ), (0 : ℝ)) ∈ Set.Icc ((0 : ℝ), (0 : ℝ)) (nx * s, ny * s) := ⟨le_rfl, by constructor <;> simp <;> positivity⟩
  have hω0 : 0 ≤ ω := (abs_nonneg _).trans (hω 0 2 0 rfl _ h0 _ h0 (by simpa using hs0.le) (by simpa using hs0.le))
  have hM0 : 0 ≤ M := (abs_nonneg _).trans (hM _ h0 0 2 0 rfl)
  have hb : ∀ z ∈ Set.Icc ((0 : ℝ), (0 : ℝ)) (nx * s, ny * s), ∀ k i j, |hessOf Y z k i j| ≤ M := by
    intro z hz k
    simp only [Fin.forall_fin_two]
    exact ⟨⟨hM z hz k 2 0 rfl, hM z hz k 1 1 rfl⟩, hM z hz k 1 1 rfl, hM z hz k 0 2 rfl⟩
  have hval : ∀ t ∈ r.toGrid.triangles, ∀ b : Bary ℝ, b.Inside → ∃ v, (∃ H, D.hyperStrain t b = .ok H ∧
      v = hyperElasticPotential H) ∧ |v - hyperElasticPotential (tenOf (hessOf Y (r.toGrid.pointAt t b)))| ≤
        72 * (M + 1680 * ω) ^ 2 * (1680 * ω) := by
    intro t ht b hb'
    have hz : r.toGrid.pointAt t b ∈ Set.Icc ((0 : ℝ), (0 : ℝ)) (nx * s, ny * s) := by
      rw [← hrect]; exact tri_subset GR ht (pointAt_mem _ t hb')
    obtain ⟨-, -, H, -, -, e1, -, -, e2⟩ := hf t ht b hb'
    refine ⟨_, ⟨_, e1, rfl⟩, hyper_close (fun k i j => ?_) (fun k i j => (hb _ hz k i j).trans (by linarith)) e2⟩
    have := abs_add_le (H k i j - hessOf Y (r.toGrid.pointAt t b) k i j) (hessOf Y (r.toGrid.pointAt t b) k i j)
    rw [sub_add_cancel] at this
    linarith [e2 k i j, hb _ hz k i j]
  have hc : ContinuousOn (fun z => hyperElasticPotential (tenOf (hessOf Y z))) (Set.Icc ((0 : ℝ), (0 : ℝ)) (nx * s, ny * s)) := by
    have c : ∀ k i j, ContinuousOn (fun z => hessOf Y z k i j) (Set.Icc ((0 : ℝ), (0 : ℝ)) (nx * s, ny * s)) := by
      intro k
      simp only [Fin.forall_fin_two]
      exact ⟨⟨hYc k 2 0 rfl, hYc k 1 1 rfl⟩, hYc k 1 1 rfl, hYc k 0 2 rfl⟩
    simp only [hyper_eq]
    refine (Real.continuous_sqrt.comp_continuousOn ?_).pow 3
    exact continuousOn_finset_sum _ fun k _ => continuousOn_finset_sum _ fun i _ => continuousOn_finset_sum _ fun j _ => (c k i j).pow 2
  have hsn : s / n ≤ s := div_le_self hs0.le (by exact_mod_cast hn)
  obtain ⟨A, hA', he⟩ := reg_close GR hrect ex ey hgood q1 q2 hval hc (ω := 72 * M ^ 2 * ω) (M := 24 * M ^ 3)
    (fun z hz z' hz' d1 d2 => by
      refine hyper_close (hb z hz) (hb z' hz') ?_
      intro k
      simp only [Fin.forall_fin_two]
      have v : ∀ i j, i + j = 2 → |Y k i j z - Y k i j z'| ≤ ω := fun i j h => hω k i j h z hz z' hz' (d1.trans hsn) (d2.trans hsn)
      exact ⟨⟨v 2 0 rfl, v 1 1 rfl⟩, v 1 1 rfl, v 0 2 rfl⟩)
    (fun z hz => hyper_bound (hb z hz)) (by positivity)
  exact ⟨r.toGrid.quad q A, ⟨D, q, A, hD, hq, fun t ht b hb => hA' t ht b (hgood.inside b hb), rfl⟩, he⟩

/-- The objective of the mechanical step with regularization coefficient `c`: elastic energy plus `c` times hyper elastic energy plus
`fps` times dissipation, each as accurate as stated above. -/
theorem C103_objective (G : LibraryGrid g nx ny s) (hn : 1 ≤ n) (hs : 1 / 10 ^ 15 ≤ s / n) (hr : d.refine g n = .ok r)
    {leg : LegGauss} {params : SimParams} {c : ℝ} (hreg : params.regularization = some c) {traction : Traction} {time : ℝ}
    {Y0 : Fin 2 → ℕ → ℕ → ℝ × ℝ → ℝ} {y0 : NdArray} (hy0 : y0.HoldsC1 g Y0) (hy : y.HoldsC1 g Y)
    (hY0 : ∀ k, PartialsOn (Y0 k) 2 (Set.Icc (0, 0) (nx * s, ny * s)))
    (hY : ∀ k, PartialsOn (Y k) 2 (Set.Icc (0, 0) (nx * s, ny * s)))
    (hYc : ∀ k i j, i + j = 2 → ContinuousOn (Y k i j) (Set.Icc (0, 0) (nx * s, ny * s)))
    (hω0 : ∀ k i j, i + j = 2 → Varies (Y0 k i j) (Set.Icc (0, 0) (nx * s, ny * s)) s ω)
    (hω : ∀ k i j, i + j = 2 → Varies (Y k i j) (Set.Icc (0, 0) (nx * s, ny * s)) s ω)
    {θ W V : ℝ × ℝ → ℝ} {x : NdArray} (hx : x.Has [r.toGrid.vertices.length])
    (hxθ : ∀ v q, r.toGrid.At v q → x.data[v]? = some (θ q)) {τ κ ω' M0 M1 M2 ν : ℝ}
    (hτ : Varies θ (Set.Icc (0, 0) (nx * s, ny * s)) (s / n) τ)
    (hW : ∀ z ∈ Set.Icc ((0 : ℝ), (0 : ℝ)) (nx * s, ny * s), totalElasticPotential (matOf (gradOf Y z)) (θ z) = .ok (W z))
    (hWc : ContinuousOn W (Set.Icc (0, 0) (nx * s, ny * s)))
    (hκ : ∀ z ∈ Set.Icc ((0 : ℝ), (0 : ℝ)) (nx * s, ny * s), ∀ F : Matrix (Fin 2) (Fin 2) ℝ, ∀ T : ℝ,
      (∀ i j, |F i j - gradOf Y z i j| ≤ 240 * s * ω) → |T - θ z| ≤ τ →
      ∃ w, totalElasticPotential (matOf F) T = .ok w ∧ |w - W z| ≤ κ)
    (hω' : Varies W (Set.Icc (0, 0) (nx * s, ny * s)) (s / n) ω')
    (hM0 : ∀ z ∈ Set.Icc ((0 : ℝ), (0 : ℝ)) (nx * s, ny * s), |W z| ≤ M0)
    (hM1 : ∀ z ∈ Set.Icc ((0 : ℝ), (0 : ℝ)) (nx * s, ny * s), ∀ i j, |gradOf Y0 z i j| ≤ M1 ∧ |gradOf Y z i j| ≤ M1)
    (hM2 : ∀ z ∈ Set.Icc ((0 : ℝ), (0 : ℝ)) (nx * s, ny * s), ∀ k i j, i + j = 2 → |Y k i j z| ≤ M2)
    (hν : ∀ i j, Varies (fun z => gradOf Y0 z i j) (Set.Icc (0, 0) (nx * s, ny * s)) (s / n) ν ∧
      Varies (fun z => gradOf Y z i j) (Set.Icc (0, 0) (nx * s, ny * s)) (s / n) ν)
    (hV : ∀ z ∈ Set.Icc ((0 : ℝ), (0 : ℝ)) (nx * s, ny * s),
      dissipationPotential (matOf (gradOf Y0 z)) (matOf (gradOf Y z)) = .ok (V z)) :
    ∃ J, IsMechObjective leg params traction g (some r) time y0 y x J ∧
      |J - ((∫ z in Set.Icc ((0 : ℝ), (0 : ℝ)) (nx * s, ny * s), W z) +
        c * (∫ z in Set.Icc ((0 : ℝ), (0 : ℝ)) (nx * s, ny * s), hyperElasticPotential (tenOf (hessOf Y z))) +
        params.fps * ∫ z in Set.Icc ((0 : ℝ), (0 : ℝ)) (nx * s, ny * s), V z)| ≤
        (nx * s) * (ny * s) * ((κ + ω' + M0 / 10 ^ 14) +
          |c| * (72 * (M2 + 1680 * ω) ^ 2 * (1680 * ω) + 72 * M2 ^ 2 * ω + 24 * M2 ^ 3 / 10 ^ 14) +
          |params.fps| * (512 * (M1 + 240 * s * ω) ^ 3 * (240 * s * ω) + 512 * M1 ^ 3 * ν + 128 * M1 ^ 4 / 10 ^ 14)) := by
  obtain ⟨E, hE, e1⟩ := C103_elastic G hn hs hr hy hY hω hx hxθ hτ hW hWc hκ hω' hM0
  obtain ⟨D, hD, e2⟩ := C103_dissipation G hn hs hr hy0 hy hY0 hY hω0 hω hM1 hν hV
  obtain ⟨h, hh, e3⟩ := C103_hyper G hn hs hr hy hY hYc hω hM2
  refine ⟨E + c * h + params.fps * D, ⟨E, D, hE, hD, fun h => (by rw [hreg] at h; cases h), fun κ' h' => ?_⟩, ?_⟩
  · rw [hreg] at h'
    cases h'
    exact ⟨r, h, rfl, hh, rfl⟩
  · have e2' := mul_le_mul_of_nonneg_left e2 (abs_nonneg params.fps)
    have e3' := mul_le_mul_of_nonneg_left e3 (abs_nonneg c)
    rw [← abs_mul, mul_sub] at e2' e3'
    rw [abs_le] at *
    constructor <;> linarith [e1.1, e1.2, e2'.1, e2'.2, e3'.1, e3'.2]

/-! ### concrete cases -/

theorem nodal_arrays_c1 (G : LibraryGrid g nx ny s) (Y : Fin 2 → ℕ → ℕ → ℝ × ℝ → ℝ) : ∃ y : NdArray, y.HoldsC1 g Y := by
  set m := g.vertices.length with hm
  have hpos : 0 < m := by
    rw [hm, (C22_structure G).2.2.2.1, List.length_range]
    positivity
  have hv : ∀ v q, g.At v q → v < m := by
    intro v q hq
    have h : v < g.points.length := (List.getElem?_eq_some_iff.1 hq).1
    rw [hm, (C22_structure G).2.2.2.1, List.length_range]
    rwa [(C22_structure G).2.2.2.2.1] at h
  have l6 : ∀ k, ∀ p ∈ (List.range m).map (fun v => nodalData (Y k) (g.xy v)), p.length = 6 := by
    intro k p hp
    obtain ⟨v, -, rfl⟩ := List.mem_map.1 hp
    rfl
  have hh := NdArray.has_pairs3 (a := (List.range m).map fun v => nodalData (Y 0) (g.xy v))
    (b := (List.range m).map fun v => nodalData (Y 1) (g.xy v)) (n := m) (by simp) (by simp) (l6 0) (l6 1) hpos
  obtain ⟨b0, b1⟩ := NdArray.block_pairs (a := (List.range m).map fun v => nodalData (Y 0) (g.xy v))
    (b := (List.range m).map fun v => nodalData (Y 1) (g.xy v)) (n := m) (by simp) (by simp) (l6 0) (l6 1) hpos
  refine ⟨_, hh, ?_⟩
  rw [Fin.forall_fin_two]
  refine ⟨⟨_, b0, fun v q hq => ?_⟩, _, b1, fun v q hq => ?_⟩ <;>
    simp [List.getElem?_range (hv v q hq), xy_of_at hq]

end

/-- the deformation `(x + c x² , y)` stretched by `a` in the direction of `x`, with its partial derivatives -/
noncomputable def stretchY (a c : ℝ) : Fin 2 → ℕ → ℕ → ℝ × ℝ → ℝ
  | 0, 0, 0, z => a * z.1 + c * z.1 ^ 2
  | 0, 1, 0, z => a + 2 * c * z.1
  | 0, 2, 0, _ => 2 * c
  | 1, 0, 0, z => z.2
  | 1, 0, 1, _ => 1
  | _, _, _, _ => 0

theorem stretch_partials (a c : ℝ) (R : Set (ℝ × ℝ)) (k : Fin 2) : PartialsOn (stretchY a c k) 2 R := by
  intro i j hij z _
  have h1 : HasFDerivAt (fun z : ℝ × ℝ => z.1) (ContinuousLinearMap.fst ℝ ℝ ℝ) z := hasFDerivAt_fst
  have h2 : HasFDerivAt (fun z : ℝ × ℝ => z.2) (ContinuousLinearMap.snd ℝ ℝ ℝ) z := hasFDerivAt_snd
  have hc : ∀ x : ℝ, HasFDerivAt (fun _ : ℝ × ℝ => x) (0 : ℝ × ℝ →L[ℝ] ℝ) z := fun x => hasFDerivAt_const x z
  obtain ⟨rfl, rfl⟩ | ⟨rfl, rfl⟩ | ⟨rfl, rfl⟩ : (i = 0 ∧ j = 0) ∨ (i = 1 ∧ j = 0) ∨ (i = 0 ∧ j = 1) := by omega
  · fin_cases k
    · refine ((h1.const_mul a).add ((h1.pow 2).const_mul c)).congr_fderiv ?_
      ext <;> simp [lin, stretchY] <;> ring
    · refine h2.congr_fderiv ?_
      ext <;> simp [lin, stretchY]
  · fin_cases k
    · refine ((h1.const_mul (2 * c)).const_add a).congr_fderiv ?_
      ext <;> simp [lin, stretchY]
    · refine (hc 0).congr_fderiv ?_
      ext <;> simp [lin, stretchY]
  · fin_cases k
    · refine (hc 0).congr_fderiv ?_
      ext <;> simp [lin, stretchY]
    · refine (hc 1).congr_fderiv ?_
      ext <;> simp [lin, stretchY]

theorem stretch_second (a c : ℝ) (k : Fin 2) {i j : ℕ} (h : i + j = 2) :
    stretchY a c k i j = fun _ => if k = 0 ∧ i = 2 then 2 * c else 0 := by
  obtain ⟨rfl, rfl⟩ | ⟨rfl, rfl⟩ | ⟨rfl, rfl⟩ : (i = 2 ∧ j = 0) ∨ (i = 1 ∧ j = 1) ∨ (i = 0 ∧ j = 2) := by omega
  all_goals fin_cases k <;> funext z <;> simp [stretchY]

theorem stretch_varies (a c : ℝ) (k : Fin 2) (i j : ℕ) (h : i + j = 2) (R : Set (ℝ × ℝ)) (s : ℝ) : Varies (stretchY a c k i j) R s 0 := by
  intro z _ z' _ _ _
  simp [stretch_second a c k h]

/-- The deformation `(x + x² / 10, y)` on the sample grid: its hyper elastic energy is `1 / 125` up to `10⁻¹⁴`. -/
example (it : SetIter) : ∃ y h, y.HoldsC1 (sampleGrid it) (stretchY 1 (1 / 10)) ∧
    IsHyperEnergy (sampleGrid it) (sampleRefined it) y h ∧ |h - 1 / 125| ≤ 1 / 10 ^ 14 := by
  have G : LibraryGrid (sampleGrid it) 2 2 (1 / 2) := sampleGrid_library it
  obtain ⟨y, hy⟩ := nodal_arrays_c1 G (stretchY 1 (1 / 10))
  obtain ⟨h, h1, h2⟩ := C103_hyper G (n := 2) (by norm_num) (by norm_num) (sampleRefined_eq it) hy (fun k => stretch_partials _ _ _ k)
    (fun k i j h => by rw [stretch_second _ _ _ h]; exact continuousOn_const) (fun k i j h => stretch_varies _ _ _ _ _ h _ _)
    (M := 1 / 5) (fun z _ k i j h => by rw [stretch_second _ _ _ h]; simp only; split_ifs <;> norm_num)
  refine ⟨y, h, hy, h1, ?_⟩
  have e : ∀ z, hyperElasticPotential (tenOf (hessOf (stretchY 1 (1 / 10)) z)) = 1 / 125 := by
    intro z
    have : hessOf (stretchY 1 (1 / 10)) z = ![![![1 / 5, 0], ![0, 0]], ![![0, 0], ![0, 0]]] := by
      funext k i j
      fin_cases k <;> fin_cases i <;> fin_cases j <;> simp [hessOf, stretchY] <;> norm_num
    rw [hyper_eq, this]
    have e1 : ∑ k, ∑ i, ∑ j, (![![![1 / 5, 0], ![0, 0]], ![![0, 0], ![0, 0]]] : Fin 2 → Fin 2 → Fin 2 → ℝ) k i j ^ 2 = (1 / 5) ^ 2 := by
      simp [Fin.sum_univ_two]
    rw [e1, Real.sqrt_sq (by norm_num)]
    norm_num
  have hint : ∫ z in Set.Icc ((0 : ℝ), (0 : ℝ)) (((2 : ℕ) : ℝ) * (1 / 2), ((2 : ℕ) : ℝ) * (1 / 2)),
      hyperElasticPotential (tenOf (hessOf (stretchY 1 (1 / 10)) z)) = 1 / 125 := by
    simp only [e]
    rw [setIntegral_const, measureReal_def, ← Set.Icc_prod_Icc, Measure.volume_eq_prod, Measure.prod_prod, Real.volume_Icc,
      ENNReal.toReal_mul]
    norm_num
  rw [hint] at h2
  refine h2.trans ?_
  norm_num

/-- The affine stretch `(2 x, y)` at constant temperature `1` on the sample grid, starting from the undeformed body: all hypotheses of
`C103_objective` hold, with all variations equal to zero, and the objective is the energy density of the stretch up to rounding
errors of the weights of the quadrature rule. -/
example (it : SetIter) (leg : LegGauss) (traction : Traction) : ∃ y0 y x J w v, y0.HoldsC1 (sampleGrid it) (stretchY 1 0) ∧
    y.HoldsC1 (sampleGrid it) (stretchY 2 0) ∧
    IsMechObjective leg exampleParamsReg traction (sampleGrid it) (some (sampleRefined it)) 0 y0 y x J ∧
    totalElasticPotential (matOf !![2, 0; 0, 1]) 1 = .ok w ∧ dissipationPotential (matOf !![1, 0; 0, 1]) (matOf !![2, 0; 0, 1]) = .ok v ∧
    |J - (w + 3 * v)| ≤ (|w| + 6144) / 10 ^ 14 := by
  have G : LibraryGrid (sampleGrid it) 2 2 (1 / 2) := sampleGrid_library it
  obtain ⟨y0, hy0⟩ := nodal_arrays_c1 G (stretchY 1 0)
  obtain ⟨y, hy⟩ := nodal_arrays_c1 G (stretchY 2 0)
  have GR := (sampleRefined_spec it).1
  set r := sampleRefined it with hr
  have hlt : ∀ v q, r.toGrid.At v q → v < r.toGrid.vertices.length := by
    intro v q hq
    have h : v < r.toGrid.points.length := (List.getElem?_eq_some_iff.1 hq).1
    rw [(C22_structure GR).2.2.2.1, List.length_range]
    rwa [(C22_structure GR).2.2.2.2.1] at h
  have g1 : ∀ a z, gradOf (stretchY a 0) z = !![a, 0; 0, 1] := by
    intro a z
    ext i j
    fin_cases i <;> fin_cases j <;> simp [gradOf, stretchY]
  have hw := totalElastic_value (F := !![2, 0; 0, 1]) (by simp [Matrix.det_fin_two]) 1
  have hv := C51_value (n := 1) !![1, 0; 0, 1] !![2, 0; 0, 1]
  set w := (1 - Real.exp (-5 * 1)) * wA !![2, 0; 0, 1] + Real.exp (-5 * 1) * wM !![2, 0; 0, 1] with hwdef
  obtain ⟨J, h1, h2⟩ := C103_objective G (n := 2) (by norm_num) (by norm_num) (sampleRefined_eq it) (leg := leg)
    (params := exampleParamsReg) (c := 1 / 10) rfl (traction := traction) (time := 0) hy0 hy (fun k => stretch_partials _ _ _ k)
    (fun k => stretch_partials _ _ _ k) (fun k i j h => by rw [stretch_second _ _ _ h]; exact continuousOn_const)
    (fun k i j h => stretch_varies _ _ _ _ _ h _ _) (fun k i j h => stretch_varies _ _ _ _ _ h _ _)
    (θ := fun _ => 1) (W := fun _ => w) (x := ⟨[r.toGrid.vertices.length], (List.range r.toGrid.vertices.length).map fun _ => 1⟩)
    ⟨rfl, by simp [NdArray.Ok]⟩ (fun v q h => by simp [List.getElem?_replicate, hlt v q h]) (τ := 0) (κ := 0) (ω' := 0) (M0 := |w|)
    (M1 := 2) (M2 := 0) (ν := 0) (fun z _ z' _ _ _ => by simp) (fun z _ => by rw [g1]; exact hw) continuousOn_const
    (fun z _ F T hF hT => by
      have e1 : F = !![2, 0; 0, 1] := by
        rw [← g1 2 z]
        ext i j
        have := hF i j
        rw [mul_zero] at this
        exact sub_eq_zero.1 (abs_nonpos_iff.1 this)
      have e2 : T = 1 := sub_eq_zero.1 (abs_nonpos_iff.1 hT)
      rw [e1, e2]
      exact ⟨w, hw, by simp⟩)
    (fun z _ z' _ _ _ => by simp) (fun _ _ => le_rfl)
    (fun z _ i j => by rw [g1, g1]; fin_cases i <;> fin_cases j <;> norm_num)
    (fun z _ k i j h => by rw [stretch_second _ _ _ h]; simp) (fun i j => ⟨fun z _ z' _ _ _ => by simp [g1], fun z _ z' _ _ _ => by simp [g1]⟩)
    (fun z _ => by rw [g1, g1]; exact hv)
  refine ⟨y0, y, _, J, _, _, hy0, hy, h1, hw, hv, ?_⟩
  have hvol : volume.real (Set.Icc ((0 : ℝ), (0 : ℝ)) (((2 : ℕ) : ℝ) * (1 / 2), ((2 : ℕ) : ℝ) * (1 / 2))) = 1 := by
    rw [measureReal_def, ← Set.Icc_prod_Icc, Measure.volume_eq_prod, Measure.prod_prod, Real.volume_Icc, ENNReal.toReal_mul]
    norm_num
  have hz : ∀ z, hyperElasticPotential (tenOf (hessOf (stretchY 2 0) z)) = 0 := by
    intro z
    rw [(C70_value _).2.1]
    intro k i j
    fin_cases k <;> fin_cases i <;> fin_cases j <;> simp [hessOf, stretchY]
  simp only [hz] at h2
  rw [setIntegral_const, setIntegral_const, setIntegral_const, hvol] at h2
  have hf : exampleParamsReg.fps = 3 := rfl
  rw [hf] at h2
  simp only [smul_eq_mul, one_mul, mul_zero, add_zero] at h2
  refine h2.trans (le_of_eq ?_)
  norm_num
  ring

end Tve
