import Verif.Props.InterpEval
import Verif.Lemmas.Converge

/-!
# C34, C44: piecewise linear interpolations are Lipschitz continuous across triangles; accuracy of Euclidean evaluation

The location tolerance lets a point close to an edge be evaluated by the affine function of the neighbouring triangle.
The error this causes is bounded by the tolerance and the range of the nodal values.
-/

namespace Tve

variable {g : Grid ℝ} {nx ny : ℕ} {s : ℝ}

theorem hat_lipschitz {x y x' y' δ : ℝ} (h1 : |x - x'| ≤ δ) (h2 : |y - y'| ≤ δ) (h3 : |(x - x') - (y - y')| ≤ δ) :
    |hat x y - hat x' y'| ≤ δ := by
  have a1 : |(|x| - |x'|)| ≤ δ := (abs_abs_sub_abs_le_abs_sub x x').trans h1
  have a2 : |(|y| - |y'|)| ≤ δ := (abs_abs_sub_abs_le_abs_sub y y').trans h2
  have a3 : |(|x - y| - |x' - y'|)| ≤ δ :=
    (abs_abs_sub_abs_le_abs_sub _ _).trans (by rwa [show x - y - (x' - y') = (x - x') - (y - y') by ring])
  have m1 := (abs_max_sub_max_le_max |x| |y| |x'| |y'|).trans (max_le a1 a2)
  have m2 := (abs_max_sub_max_le_max (max |x| |y|) |x - y| (max |x'| |y'|) |x' - y'|).trans (max_le m1 a3)
  have h0 : 0 ≤ δ := (abs_nonneg _).trans h1
  unfold hat
  refine (abs_max_sub_max_le_max _ _ _ _).trans (max_le (by simpa using h0) ?_)
  rw [abs_sub_comm] at m2
  rwa [show ∀ p q : ℝ, 1 - p - (1 - q) = q - p by intros; ring]

/-- the weight of a vertex depends on the point of the plane in a Lipschitz continuous way -/
theorem weight_near (G : LibraryGrid g nx ny s) {t t' : Tri} (ht : t ∈ g.triangles)
    (ht' : t' ∈ g.triangles) {c c' : Bary ℝ} (hc : c.Inside) (hc' : c'.Inside) {δ : ℝ}
    (h1 : |(g.pointAt t c).1 - (g.pointAt t' c').1| ≤ δ * s) (h2 : |(g.pointAt t c).2 - (g.pointAt t' c').2| ≤ δ * s)
    (h3 : |((g.pointAt t c).1 - (g.pointAt t' c').1) - ((g.pointAt t c).2 - (g.pointAt t' c').2)| ≤ δ * s)
    (v : Vertex) : |weightOf t c v - weightOf t' c' v| ≤ δ := by
  obtain ⟨P, dg, E, T, BV, BE, L⟩ := G.lattice
  have hs := L.h_pos
  rw [L.triangles] at ht ht'
  obtain ⟨τ, hτ, rfl⟩ := List.mem_map.1 ht
  obtain ⟨τ', hτ', rfl⟩ := List.mem_map.1 ht'
  have m := L.memT_P hτ
  have m' := L.memT_P hτ'
  have x : ∀ σ, σ ∈ T → ∀ c, g.pointAt (labT P σ) c = s • baryPoint (pos 1 σ.1) (pos 1 σ.2.1) (pos 1 σ.2.2) c.l1 c.l2 c.l3 := by
    intro σ hσ c
    have := L.memT_P hσ
    rw [← baryPoint_pos, Grid.pointAt]
    simp only [labT]
    rw [xy_of_at (L.at_lab this.1), xy_of_at (L.at_lab this.2.1), xy_of_at (L.at_lab this.2.2)]
  rw [x τ hτ, x τ' hτ'] at h1 h2 h3
  simp only [Prod.smul_fst, Prod.smul_snd, smul_eq_mul, ← mul_sub] at h1 h2 h3
  rw [abs_mul, abs_of_pos hs, mul_comm, mul_le_mul_iff_of_pos_right hs] at h1 h2 h3
  by_cases hv : v < P.length
  · rw [← lab_co L.nodupP hv, weightOf_lab m c (co_mem hv), weightOf_lab m' c' (co_mem hv),
      weight_hat ((L.memT _).1 hτ) hc, weight_hat ((L.memT _).1 hτ') hc']
    refine hat_lipschitz ?_ ?_ ?_
    · simpa using h1
    · simpa using h2
    · simpa using h3
  · have : ∀ a ∈ P, lab P a ≠ v := fun a ha h => hv (h ▸ lab_lt ha)
    have h0 : 0 ≤ δ := (abs_nonneg _).trans h1
    simpa [weightOf, labT, this _ m.1, this _ m.2.1, this _ m.2.2, this _ m'.1, this _ m'.2.1, this _ m'.2.2] using h0

theorem sum_weight (N : ℕ) {t : Tri} (h : t.1 < N ∧ t.2.1 < N ∧ t.2.2 < N) {c : Bary ℝ} (hc : c.Normalized) :
    ∑ v ∈ Finset.range N, weightOf t c v = 1 := by
  simp only [weightOf, Finset.sum_add_distrib]
  rw [Finset.sum_ite_eq, Finset.sum_ite_eq, Finset.sum_ite_eq]
  have hc' : c.l1 + c.l2 + c.l3 = 1 := hc
  simpa [h] using hc'

/-- Piecewise linear interpolations are Lipschitz continuous on the whole rectangle, also across triangles: if the two
points differ by at most `δ s` in the first coordinate, in the second, and in the difference of both, the values
differ by at most `6 δ M`, where `M` bounds the distance of the nodal values to some number `m`. -/
theorem C34_continuity (G : LibraryGrid g nx ny s) {u : List ℝ} {I : Interp} (hI : P1Interpolation g u = .ok I)
    {t t' : Tri} (ht : t ∈ g.triangles) (ht' : t' ∈ g.triangles) {c c' : Bary ℝ} (hc : c.Inside) (hc' : c'.Inside)
    {m M δ : ℝ} (hM : ∀ x ∈ u, |x - m| ≤ M)
    (h1 : |(g.pointAt t c).1 - (g.pointAt t' c').1| ≤ δ * s) (h2 : |(g.pointAt t c).2 - (g.pointAt t' c').2| ≤ δ * s)
    (h3 : |((g.pointAt t c).1 - (g.pointAt t' c').1) - ((g.pointAt t c).2 - (g.pointAt t' c').2)| ≤ δ * s) :
    ∃ x x', I.call t c = .ok x ∧ I.call t' c' = .ok x' ∧ |x - x'| ≤ 6 * δ * M := by
  obtain ⟨hu, rfl⟩ := P1_of hI
  have W := G.wellFormed
  refine ⟨_, _, P1_call_eq W hu ht c, P1_call_eq W hu ht' c', ?_⟩
  have key : ∀ {τ : Tri}, τ ∈ g.triangles → τ.1 < g.points.length ∧ τ.2.1 < g.points.length ∧ τ.2.2 < g.points.length :=
    fun hτ => ⟨WF.lt W (W.triangles _ hτ).1, WF.lt W (W.triangles _ hτ).2.1, WF.lt W (W.triangles _ hτ).2.2⟩
  have e : ∀ {τ : Tri} (_ : τ ∈ g.triangles) {b : Bary ℝ} (_ : b.Normalized),
      b.l1 * u.getD τ.1 0 + b.l2 * u.getD τ.2.1 0 + b.l3 * u.getD τ.2.2 0 =
        m + ∑ v ∈ Finset.range g.points.length, weightOf τ b v * (u.getD v 0 - m) := by
    intro τ hτ b hb
    rw [P1_sum_weight (key hτ) b]
    simp only [mul_sub, Finset.sum_sub_distrib]
    rw [← Finset.sum_mul, sum_weight _ (key hτ) hb]; ring
  rw [e ht hc.1, e ht' hc'.1, add_sub_add_left_eq_sub, ← Finset.sum_sub_distrib]
  let S : Finset ℕ := {t.1, t.2.1, t.2.2, t'.1, t'.2.1, t'.2.2}
  have hS : S ⊆ Finset.range g.points.length := by
    intro v hv
    have a := key ht
    have b := key ht'
    simp only [S, Finset.mem_insert, Finset.mem_singleton] at hv
    rw [Finset.mem_range]
    rcases hv with rfl | rfl | rfl | rfl | rfl | rfl
    exacts [a.1, a.2.1, a.2.2, b.1, b.2.1, b.2.2]
  rw [← Finset.sum_subset hS]
  · have hcard : S.card ≤ 6 := Finset.card_le_six
    have h0 : 0 ≤ δ * M := by
      have hs := (C22_structure G).1
      have d0 : 0 ≤ δ := by
        have := (abs_nonneg _).trans h1
        exact nonneg_of_mul_nonneg_left this hs
      have M0 : 0 ≤ M := by
        have hl : t.1 < u.length := WF.len W hu (W.triangles t ht).1
        exact (abs_nonneg _).trans (hM _ (List.getElem_mem hl))
      exact mul_nonneg d0 M0
    refine (Finset.abs_sum_le_sum_abs _ _).trans ((Finset.sum_le_card_nsmul _ _ (δ * M) ?_).trans ?_)
    · intro v hv
      rw [← sub_mul, abs_mul]
      have hl : v < u.length := by
        rw [hu, W.vertices, List.length_range]; exact Finset.mem_range.1 (hS hv)
      have : |u.getD v 0 - m| ≤ M := by
        rw [show u.getD v 0 = u[v] by simp [hl]]; exact hM _ (List.getElem_mem hl)
      exact mul_le_mul (weight_near G ht ht' hc hc' h1 h2 h3 v) this (abs_nonneg _)
        (by have hs := (C22_structure G).1
            exact nonneg_of_mul_nonneg_left ((abs_nonneg _).trans h1) hs)
    · rw [nsmul_eq_mul, mul_assoc]
      exact mul_le_mul_of_nonneg_right (by exact_mod_cast hcard) h0
  · intro v _ hv
    simp only [S, Finset.mem_insert, Finset.mem_singleton, not_or] at hv
    have w1 : weightOf t c v = 0 := by
      simp [weightOf, Ne.symm hv.1, Ne.symm hv.2.1, Ne.symm hv.2.2.1]
    have w2 : weightOf t' c' v = 0 := by
      simp [weightOf, Ne.symm hv.2.2.2.1, Ne.symm hv.2.2.2.2.1, Ne.symm hv.2.2.2.2.2]
    rw [w1, w2]; ring

/-- differences of points of a triangle in terms of their coordinates -/
theorem pointAt_sub (G : LibraryGrid g nx ny s) {t : Tri} (ht : t ∈ g.triangles) {c b : Bary ℝ} (hc : c.Normalized)
    (hb : b.Normalized) :
    |(g.pointAt t b).1 - (g.pointAt t c).1| = |b.l1 - c.l1| * s ∧ |(g.pointAt t b).2 - (g.pointAt t c).2| = |b.l3 - c.l3| * s ∧
    |((g.pointAt t b).1 - (g.pointAt t c).1) - ((g.pointAt t b).2 - (g.pointAt t c).2)| = |b.l2 - c.l2| * s := by
  obtain ⟨e1, e2, d1, d2, -, -, -, hcr⟩ := tri_frame G ht
  have hs := (C22_structure G).1
  have hc' : c.l1 + c.l2 + c.l3 = 1 := hc
  have hb' : b.l1 + b.l2 + b.l3 = 1 := hb
  have hd : (g.xy t.2.1).1 - (g.xy t.1).1 = (g.xy t.2.2).2 - (g.xy t.2.1).2 := by
    simp only [cross] at hcr
    rcases (abs_eq hs.le).1 d1 with h | h <;> rcases (abs_eq hs.le).1 d2 with h' | h'
    · rw [h, h']
    · exfalso
      nlinarith
    · exfalso
      nlinarith
    · rw [h, h']
  have hd2 := d2
  rw [← hd] at hd2
  have f1 : (g.pointAt t b).1 - (g.pointAt t c).1 = (c.l1 - b.l1) * ((g.xy t.2.1).1 - (g.xy t.1).1) := by
    simp only [Grid.pointAt, baryPoint, Prod.fst_add, Prod.smul_fst, smul_eq_mul]
    rw [← e2]
    linear_combination (g.xy t.2.1).1 * (hb' - hc')
  have f2 : (g.pointAt t b).2 - (g.pointAt t c).2 = (b.l3 - c.l3) * ((g.xy t.2.1).1 - (g.xy t.1).1) := by
    simp only [Grid.pointAt, baryPoint, Prod.snd_add, Prod.smul_snd, smul_eq_mul]
    rw [hd, e1]
    linear_combination (g.xy t.2.1).2 * (hb' - hc')
  refine ⟨?_, ?_, ?_⟩
  · rw [f1, abs_mul, d1, abs_sub_comm]
  · rw [f2, abs_mul, d1]
  · rw [f1, f2, ← sub_mul, abs_mul, d1]
    congr 2
    linear_combination hc' - hb'

/-- Accuracy of the evaluation at Euclidean points: at every point of the rectangle covered by the grid a P1 interpolation
evaluates, up to `36e-10 M / s²`, to the value of the piecewise linear function there, where `M` bounds the distance of
the nodal values to some number `m` (say half their range). The error is caused by the tolerance of the point location. -/
theorem C44_accuracy (G : LibraryGrid g nx ny s) {u : List ℝ} {I : Interp} (hI : P1Interpolation g u = .ok I)
    {m M : ℝ} (hM : ∀ x ∈ u, |x - m| ≤ M) {t : Tri} (ht : t ∈ g.triangles) {c : Bary ℝ} (hc : c.Inside) :
    ∃ x x', (EuclInterp.mk I).call (g.pointAt t c).1 (g.pointAt t c).2 = .ok x' ∧ I.call t c = .ok x ∧
      |x' - x| ≤ 36 * (1 / 10 ^ 10) * M / s ^ 2 := by
  have hs := (C22_structure G).1
  have W := G.wellFormed
  have hIg : I.grid = g := by obtain ⟨-, rfl⟩ := P1_of hI; rfl
  have hrect : (0 ≤ (g.pointAt t c).1 ∧ (g.pointAt t c).1 ≤ nx * s) ∧ (0 ≤ (g.pointAt t c).2 ∧ (g.pointAt t c).2 ≤ ny * s) := by
    have h1 := mem_gridRect.1 (tri_subset G ht (pointAt_mem g t hc))
    exact ⟨⟨h1.1, h1.2.1⟩, h1.2.2⟩
  obtain ⟨t', ht', b, hb, hbp, ⟨b1, b2, b3⟩, hcall, -, -⟩ := C44_grid_points_partial G I hIg hrect.1 hrect.2
  set τ := 2 * (1 / 10 ^ 10) / s ^ 2 with hτ
  have hτ0 : 0 < τ := by positivity
  have hb' : b.l1 + b.l2 + b.l3 = 1 := hb
  have hD : 0 < 1 + 3 * τ := by positivity
  let b' : Bary ℝ := ⟨(b.l1 + τ) / (1 + 3 * τ), (b.l2 + τ) / (1 + 3 * τ), (b.l3 + τ) / (1 + 3 * τ)⟩
  have hin : b'.Inside := by
    refine ⟨?_, ?_, ?_, ?_⟩
    · show (b.l1 + τ) / (1 + 3 * τ) + (b.l2 + τ) / (1 + 3 * τ) + (b.l3 + τ) / (1 + 3 * τ) = 1
      rw [← add_div, ← add_div, div_eq_one_iff_eq hD.ne']; linarith
    · exact div_nonneg (by linarith) hD.le
    · exact div_nonneg (by linarith) hD.le
    · exact div_nonneg (by linarith) hD.le
  have near : ∀ l : ℝ, -τ ≤ l → l ≤ 1 + 2 * τ → |(l + τ) / (1 + 3 * τ) - l| ≤ 2 * τ := by
    intro l h1 h2
    have e : (l + τ) / (1 + 3 * τ) - l = τ * (1 - 3 * l) / (1 + 3 * τ) := by field_simp; ring
    rw [e, abs_div, abs_mul, abs_of_pos hτ0, abs_of_pos hD, div_le_iff₀ hD]
    have : |1 - 3 * l| ≤ 2 * (1 + 3 * τ) := by rw [abs_le]; constructor <;> linarith
    nlinarith
  have n1 := near b.l1 b1 (by linarith)
  have n2 := near b.l2 b2 (by linarith)
  have n3 := near b.l3 b3 (by linarith)
  obtain ⟨p1, p2, p3⟩ := pointAt_sub G ht' hb hin.1
  rw [hbp] at p1 p2 p3
  obtain ⟨x', x, e1, e2, e3⟩ := C34_continuity G hI ht' ht hin hc hM (δ := 2 * τ)
    (by rw [p1]; exact mul_le_mul_of_nonneg_right n1 hs.le) (by rw [p2]; exact mul_le_mul_of_nonneg_right n3 hs.le)
    (by rw [p3]; exact mul_le_mul_of_nonneg_right n2 hs.le)
  obtain ⟨hu, rfl⟩ := P1_of hI
  refine ⟨x, _, hcall.trans (P1_call_eq W hu ht' b), e2, ?_⟩
  have e4 := Except.ok.inj (e1.symm.trans (P1_call_eq W hu ht' b'))
  have hv : ∀ {v : Vertex}, v ∈ g.vertices → |u.getD v 0 - m| ≤ M := by
    intro v hv
    have hl : v < u.length := WF.len W hu hv
    rw [show u.getD v 0 = u[v] by simp [hl]]; exact hM _ (List.getElem_mem hl)
  obtain ⟨v1, v2, v3⟩ := W.triangles t' ht'
  have w1 := hv v1
  have w2 := hv v2
  have w3 := hv v3
  have hin' : b'.l1 + b'.l2 + b'.l3 = 1 := hin.1
  have n1' : |b'.l1 - b.l1| ≤ 2 * τ := n1
  have n2' : |b'.l2 - b.l2| ≤ 2 * τ := n2
  have n3' : |b'.l3 - b.l3| ≤ 2 * τ := n3
  have step : |b.l1 * u.getD t'.1 0 + b.l2 * u.getD t'.2.1 0 + b.l3 * u.getD t'.2.2 0 - x'| ≤ 6 * τ * M := by
    rw [e4]
    have e5 : b.l1 * u.getD t'.1 0 + b.l2 * u.getD t'.2.1 0 + b.l3 * u.getD t'.2.2 0 -
        (b'.l1 * u.getD t'.1 0 + b'.l2 * u.getD t'.2.1 0 + b'.l3 * u.getD t'.2.2 0) =
        -((b'.l1 - b.l1) * (u.getD t'.1 0 - m) + (b'.l2 - b.l2) * (u.getD t'.2.1 0 - m) +
          (b'.l3 - b.l3) * (u.getD t'.2.2 0 - m)) := by linear_combination m * (hb' - hin')
    rw [e5, abs_neg]
    refine (abs_add_three _ _ _).trans ?_
    rw [abs_mul, abs_mul, abs_mul]
    have M0 : 0 ≤ 2 * τ := by positivity
    have q1 := mul_le_mul n1' w1 (abs_nonneg _) M0
    have q2 := mul_le_mul n2' w2 (abs_nonneg _) M0
    have q3 := mul_le_mul n3' w3 (abs_nonneg _) M0
    linarith
  have tot := (abs_sub_le _ x' x).trans (add_le_add step e3)
  refine tot.trans (le_of_eq ?_)
  rw [hτ]; field_simp; ring

/-- Hence Euclidean evaluation is continuous up to the tolerance: two points of the rectangle covered by the grid whose
coordinates (and the difference of the coordinates) differ by at most `δ s` evaluate to values that differ by at most
`6 δ M + 72e-10 M / s²`, whichever triangles they are located in. -/
theorem C44_continuity (G : LibraryGrid g nx ny s) {u : List ℝ} {I : Interp} (hI : P1Interpolation g u = .ok I)
    {m M δ : ℝ} (hM : ∀ x ∈ u, |x - m| ≤ M) {z z' : ℝ × ℝ}
    (hz : 0 ≤ z.1 ∧ z.1 ≤ nx * s ∧ 0 ≤ z.2 ∧ z.2 ≤ ny * s) (hz' : 0 ≤ z'.1 ∧ z'.1 ≤ nx * s ∧ 0 ≤ z'.2 ∧ z'.2 ≤ ny * s)
    (h1 : |z.1 - z'.1| ≤ δ * s) (h2 : |z.2 - z'.2| ≤ δ * s) (h3 : |(z.1 - z'.1) - (z.2 - z'.2)| ≤ δ * s) :
    ∃ x x', (EuclInterp.mk I).call z.1 z.2 = .ok x ∧ (EuclInterp.mk I).call z'.1 z'.2 = .ok x' ∧
      |x - x'| ≤ 6 * δ * M + 72 * (1 / 10 ^ 10) * M / s ^ 2 := by
  have cover : ∀ z : ℝ × ℝ, 0 ≤ z.1 ∧ z.1 ≤ nx * s ∧ 0 ≤ z.2 ∧ z.2 ≤ ny * s →
      ∃ t ∈ g.triangles, ∃ c : Bary ℝ, c.Inside ∧ g.pointAt t c = z := by
    intro z hz
    obtain ⟨P, dg, E, T, BV, BE, L⟩ := G.lattice
    obtain ⟨t, ht, hr⟩ := (L.covers z).2 hz
    rw [region_xy G ht] at hr
    obtain ⟨a, b, c, ha, hb, hc, hs, rfl⟩ := hr
    exact ⟨t, ht, ⟨a, b, c⟩, ⟨hs, ha, hb, hc⟩, rfl⟩
  obtain ⟨t, ht, c, hc, rfl⟩ := cover z hz
  obtain ⟨t', ht', c', hc', rfl⟩ := cover z' hz'
  obtain ⟨x, x', e1, e2, e3⟩ := C34_continuity G hI ht ht' hc hc' hM h1 h2 h3
  obtain ⟨y, y1, a1, a2, a3⟩ := C44_accuracy G hI hM ht hc
  obtain ⟨w, w1, b1, b2, b3⟩ := C44_accuracy G hI hM ht' hc'
  obtain rfl := Except.ok.inj (a2.symm.trans e1)
  obtain rfl := Except.ok.inj (b2.symm.trans e2)
  refine ⟨_, _, a1, b1, ?_⟩
  rw [abs_le] at *
  have : 72 * (1 / 10 ^ 10) * M / s ^ 2 = 36 * (1 / 10 ^ 10) * M / s ^ 2 + 36 * (1 / 10 ^ 10) * M / s ^ 2 := by ring
  rw [this]
  constructor <;> linarith [a3.1, a3.2, b3.1, b3.2, e3.1, e3.2]

/-- values 0 and 1 at the vertices of a `2 × 1` rectangle, cells of size 1: the error is at most `18e-10` -/
example : ∃ g, LibraryGrid g 2 1 1 ∧ ∃ I, P1Interpolation g [0, 1, 0, 1, 1, 0] = .ok I ∧ g.triangles ≠ [] ∧
    ∀ t ∈ g.triangles, ∀ c : Bary ℝ, c.Inside → ∃ x x',
      (EuclInterp.mk I).call (g.pointAt t c).1 (g.pointAt t c).2 = .ok x' ∧ I.call t c = .ok x ∧ |x' - x| ≤ 18 / 10 ^ 10 := by
  obtain ⟨g, r, G, hr, F⟩ := libraryGrid_example .insertion
  have hl : ([0, 1, 0, 1, 1, 0] : List ℝ).length = g.vertices.length := by
    rw [(C22_structure G).2.2.2.1]; simp
  obtain ⟨I, hI⟩ : ∃ I, P1Interpolation g ([0, 1, 0, 1, 1, 0] : List ℝ) = .ok I := by
    unfold P1Interpolation; rw [if_neg (by simpa using hl)]; exact ⟨_, rfl⟩
  refine ⟨g, G, I, hI, ?_, fun t ht c hc => ?_⟩
  · intro h
    have := (C22_structure G).2.2.2.2.2.2.1
    rw [h] at this
    norm_num at this
  obtain ⟨x, x', h1, h2, h3⟩ := C44_accuracy G hI (m := 1 / 2) (M := 1 / 2) (by
    intro x hx
    simp only [List.mem_cons, List.not_mem_nil, or_false] at hx
    rcases hx with rfl | rfl | rfl | rfl | rfl | rfl <;> norm_num [abs_le]) ht hc
  exact ⟨x, x', h1, h2, h3.trans (by norm_num)⟩

end Tve
