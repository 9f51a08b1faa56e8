import Verif.Props.Refine
import Verif.Props.Integrators
import Verif.Lemmas.Energy
import Mathlib.Analysis.Convex.Measure
import Mathlib.MeasureTheory.Measure.Haar.OfBasis
import Mathlib.MeasureTheory.Measure.Lebesgue.Basic

/-!
# Sums over triangles and integrals over the rectangle
-/

namespace Tve

open MeasureTheory

/-- convex sets with disjoint interiors overlap in a null set -/
theorem aedisjoint_of_interiors {A B : Set (ℝ × ℝ)} (hA : Convex ℝ A) (hB : Convex ℝ B)
    (h : Disjoint (interior A) (interior B)) : AEDisjoint volume A B := by
  have hsub : A ∩ B ⊆ frontier A ∪ frontier B := by
    rintro z ⟨ha, hb⟩
    by_contra hn
    rw [Set.mem_union, not_or] at hn
    have h1 : z ∈ interior A := by
      by_contra h1
      exact hn.1 ⟨subset_closure ha, h1⟩
    have h2 : z ∈ interior B := by
      by_contra h2
      exact hn.2 ⟨subset_closure hb, h2⟩
    exact Set.disjoint_left.1 h h1 h2
  refine measure_mono_null hsub (measure_union_null (hA.addHaar_frontier _) (hB.addHaar_frontier _))

theorem convex_closedTriangle (p q r : ℝ × ℝ) : Convex ℝ (closedTriangle p q r) := by
  rintro z ⟨a, b, c, ha, hb, hc, hs, rfl⟩ z' ⟨a', b', c', ha', hb', hc', hs', rfl⟩ u v hu hv huv
  refine ⟨u * a + v * a', u * b + v * b', u * c + v * c', by positivity, by positivity, by positivity, ?_, ?_⟩
  · linear_combination u * hs + v * hs' + huv
  · simp only [baryPoint]; module

theorem isCompact_closedTriangle (p q r : ℝ × ℝ) : IsCompact (closedTriangle p q r) := by
  rw [closedTriangle_eq]
  refine isCompact_unitTri.image ?_
  unfold affMap baryPoint
  fun_prop

variable {g : Grid ℝ} {nx ny : ℕ} {s : ℝ}

/-- the corners of a triangle of a grid of the library -/
theorem tri_frame (G : LibraryGrid g nx ny s) {t : Tri} (ht : t ∈ g.triangles) :
    (g.xy t.1).2 = (g.xy t.2.1).2 ∧ (g.xy t.2.1).1 = (g.xy t.2.2).1 ∧ |(g.xy t.2.1).1 - (g.xy t.1).1| = s ∧
      |(g.xy t.2.2).2 - (g.xy t.2.1).2| = s ∧ g.At t.1 (g.xy t.1) ∧ g.At t.2.1 (g.xy t.2.1) ∧ g.At t.2.2 (g.xy t.2.2) ∧
      cross (g.xy t.1) (g.xy t.2.1) (g.xy t.2.2) = s ^ 2 := by
  obtain ⟨P, dg, E, T, BV, BE, L⟩ := G.lattice
  obtain ⟨p, q, r, h1, h2, h3, hc, e1, e2⟩ := L.tri_geom ht
  obtain ⟨p', q', r', h1', h2', h3', d1, d2, -, -⟩ := (C22_structure G).2.2.2.2.2.2.2 t ht
  rw [← xy_of_at h1'] at d1
  rw [← xy_of_at h2'] at d1 d2
  rw [← xy_of_at h3'] at d2
  have x1 := xy_of_at h1
  have x2 := xy_of_at h2
  have x3 := xy_of_at h3
  rw [x1, x2] at d1
  rw [x2, x3] at d2
  rw [x1, x2, x3]
  refine ⟨e1, e2, ?_, ?_, h1, h2, h3, hc⟩
  · rw [dist2, e1, sub_self] at d1
    rw [abs_sub_comm, ← d1]
    rw [zero_pow (by norm_num), add_zero, Real.sqrt_sq_eq_abs]
  · rw [dist2, e2, sub_self] at d2
    rw [abs_sub_comm, ← d2]
    rw [zero_pow (by norm_num), zero_add, Real.sqrt_sq_eq_abs]

theorem region_xy (G : LibraryGrid g nx ny s) {t : Tri} (ht : t ∈ g.triangles) :
    g.region t = closedTriangle (g.xy t.1) (g.xy t.2.1) (g.xy t.2.2) := by
  obtain ⟨-, -, -, -, h1, h2, h3, -⟩ := tri_frame G ht
  exact region_eq h1 h2 h3

theorem pointAt_mem (g : Grid ℝ) (t : Tri) {c : Bary ℝ} (hc : c.Inside) :
    g.pointAt t c ∈ closedTriangle (g.xy t.1) (g.xy t.2.1) (g.xy t.2.2) :=
  ⟨c.l1, c.l2, c.l3, hc.2.1, hc.2.2.1, hc.2.2.2, hc.1, rfl⟩

/-- two points of a triangle differ by at most the grid scale in each coordinate -/
theorem tri_diam (G : LibraryGrid g nx ny s) {t : Tri} (ht : t ∈ g.triangles) {z z' : ℝ × ℝ}
    (hz : z ∈ closedTriangle (g.xy t.1) (g.xy t.2.1) (g.xy t.2.2))
    (hz' : z' ∈ closedTriangle (g.xy t.1) (g.xy t.2.1) (g.xy t.2.2)) : |z.1 - z'.1| ≤ s ∧ |z.2 - z'.2| ≤ s := by
  obtain ⟨e1, e2, d1, d2, -⟩ := tri_frame G ht
  obtain ⟨a, b, c, ha, hb, hc, hs, rfl⟩ := hz
  obtain ⟨a', b', c', ha', hb', hc', hs', rfl⟩ := hz'
  simp only [baryPoint, Prod.fst_add, Prod.smul_fst, Prod.snd_add, Prod.smul_snd, smul_eq_mul]
  constructor
  · have : a * (g.xy t.1).1 + b * (g.xy t.2.1).1 + c * (g.xy t.2.2).1 -
        (a' * (g.xy t.1).1 + b' * (g.xy t.2.1).1 + c' * (g.xy t.2.2).1) = (a' - a) * ((g.xy t.2.1).1 - (g.xy t.1).1) := by
      rw [← e2]
      linear_combination (g.xy t.2.1).1 * (hs - hs')
    rw [this, abs_mul, d1]
    have h1 : |a' - a| ≤ 1 := by rw [abs_le]; constructor <;> linarith
    have h2 : 0 ≤ s := by rw [← d1]; positivity
    nlinarith
  · have : a * (g.xy t.1).2 + b * (g.xy t.2.1).2 + c * (g.xy t.2.2).2 -
        (a' * (g.xy t.1).2 + b' * (g.xy t.2.1).2 + c' * (g.xy t.2.2).2) = (c - c') * ((g.xy t.2.2).2 - (g.xy t.2.1).2) := by
      rw [e1]
      linear_combination (g.xy t.2.1).2 * (hs - hs')
    rw [this, abs_mul, d2]
    have h1 : |c - c'| ≤ 1 := by rw [abs_le]; constructor <;> linarith
    have h2 : 0 ≤ s := by rw [← d2]; positivity
    nlinarith

/-- the rectangle covered by a grid -/
def gridRect (nx ny : ℕ) (s : ℝ) : Set (ℝ × ℝ) := Set.Icc (0, 0) (nx * s, ny * s)

theorem mem_gridRect {z : ℝ × ℝ} : z ∈ gridRect nx ny s ↔ 0 ≤ z.1 ∧ z.1 ≤ nx * s ∧ 0 ≤ z.2 ∧ z.2 ≤ ny * s := by
  rw [gridRect, Set.mem_Icc, Prod.le_def, Prod.le_def]
  simp only
  tauto

theorem tri_subset (G : LibraryGrid g nx ny s) {t : Tri} (ht : t ∈ g.triangles) :
    closedTriangle (g.xy t.1) (g.xy t.2.1) (g.xy t.2.2) ⊆ gridRect nx ny s := by
  obtain ⟨P, dg, E, T, BV, BE, L⟩ := G.lattice
  intro z hz
  rw [mem_gridRect, ← L.covers]
  exact ⟨t, ht, by rw [region_xy G ht]; exact hz⟩

theorem triangles_nodup (G : LibraryGrid g nx ny s) : g.triangles.Nodup := by
  obtain ⟨P, dg, E, T, BV, BE, L⟩ := G.lattice
  exact L.nodup_vertexSet.of_map _

/-- the integrals over the triangles sum up to the integral over the rectangle -/
theorem sum_integrals (G : LibraryGrid g nx ny s) {f : ℝ × ℝ → ℝ} (hf : IntegrableOn f (gridRect nx ny s)) :
    (g.triangles.map fun t => ∫ z in closedTriangle (g.xy t.1) (g.xy t.2.1) (g.xy t.2.2), f z).sum =
      ∫ z in gridRect nx ny s, f z := by
  classical
  obtain ⟨P, dg, E, T, BV, BE, L⟩ := G.lattice
  have hU : gridRect nx ny s = ⋃ t : {t // t ∈ g.triangles.toFinset}, g.region t.1 := by
    ext z
    rw [mem_gridRect, ← L.covers, Set.mem_iUnion]
    constructor
    · rintro ⟨t, ht, hz⟩
      exact ⟨⟨t, List.mem_toFinset.2 ht⟩, hz⟩
    · rintro ⟨⟨t, ht⟩, hz⟩
      exact ⟨t, List.mem_toFinset.1 ht, hz⟩
  have key := integral_iUnion_ae (μ := volume) (f := f) (s := fun t : {t // t ∈ g.triangles.toFinset} => g.region t.1)
    (fun t => by
      rw [region_xy G (List.mem_toFinset.1 t.2)]
      exact (isCompact_closedTriangle _ _ _).measurableSet.nullMeasurableSet)
    (fun t t' hne => by
      have h1 := List.mem_toFinset.1 t.2
      have h2 := List.mem_toFinset.1 t'.2
      have hi := L.interiors h1 h2 fun h => hne (Subtype.ext h)
      show AEDisjoint volume (g.region t.1) (g.region t'.1)
      rw [region_xy G h1, region_xy G h2] at hi ⊢
      exact aedisjoint_of_interiors (convex_closedTriangle _ _ _) (convex_closedTriangle _ _ _) hi)
    (by rw [← hU]; exact hf)
  rw [hU, key, tsum_fintype]
  rw [Finset.sum_coe_sort g.triangles.toFinset (fun t => ∫ z in g.region t, f z), List.sum_toFinset _ (triangles_nodup G)]
  refine congrArg List.sum (List.map_congr_left fun t ht => ?_)
  rw [region_xy G ht]

/-- the quadrature on one triangle -/
theorem tri_error (G : LibraryGrid g nx ny s) {t : Tri} (ht : t ∈ g.triangles) {r : TriRule ℝ}
    (hlen : r.points.length = r.weights.length) (hin : ∀ b ∈ r.points, b.Inside) {f : ℝ × ℝ → ℝ}
    (hf : ContinuousOn f (gridRect nx ny s)) {ω M : ℝ}
    (hω : ∀ z ∈ gridRect nx ny s, ∀ z' ∈ gridRect nx ny s, |z.1 - z'.1| ≤ s → |z.2 - z'.2| ≤ s → |f z - f z'| ≤ ω)
    (hM : ∀ z ∈ gridRect nx ny s, |f z| ≤ M) :
    |triArea g.xy t * ((r.points.zip r.weights).map fun bw => bw.2 * f (g.pointAt t bw.1)).sum -
      ∫ z in closedTriangle (g.xy t.1) (g.xy t.2.1) (g.xy t.2.2), f z| ≤
      triArea g.xy t * (ω * (r.weights.map abs).sum + |r.weights.sum - 1| * M) := by
  set T := closedTriangle (g.xy t.1) (g.xy t.2.1) (g.xy t.2.2) with hT
  set A := triArea g.xy t with hA
  set J := ∫ z in T, f z with hJ
  have hTc : IsCompact T := isCompact_closedTriangle _ _ _
  have hvol : A = volume.real T := by
    rw [hA, C32_area_is_measure, setIntegral_const, smul_eq_mul, mul_one]
  have hA0 : 0 ≤ A := by rw [hvol]; positivity
  have hfin : volume T < ⊤ := hTc.measure_lt_top
  have hint : IntegrableOn f T := (hf.mono (tri_subset G ht)).integrableOn_compact hTc
  have h1 : ∀ b ∈ r.points, |A * f (g.pointAt t b) - J| ≤ A * ω := by
    intro b hb
    have hb' := pointAt_mem g t (hin b hb)
    have : A * f (g.pointAt t b) - J = ∫ z in T, (f (g.pointAt t b) - f z) := by
      rw [integral_sub (integrableOn_const (C := f (g.pointAt t b)) hfin.ne).integrable hint.integrable, setIntegral_const, hvol, smul_eq_mul]
    rw [this, mul_comm A, hvol, ← Real.norm_eq_abs]
    refine norm_setIntegral_le_of_norm_le_const hfin fun z hz => ?_
    rw [Real.norm_eq_abs]
    obtain ⟨d1, d2⟩ := tri_diam G ht hb' hz
    exact hω _ (tri_subset G ht hb') _ (tri_subset G ht hz) d1 d2
  have h2 : |J| ≤ A * M := by
    rw [mul_comm, hvol, ← Real.norm_eq_abs]
    exact norm_setIntegral_le_of_norm_le_const hfin fun z hz => hM z (tri_subset G ht hz)
  have key : ∀ (ps : List (Bary ℝ)) (ws : List ℝ), ps.length = ws.length → (∀ b ∈ ps, b ∈ r.points) →
      |A * ((ps.zip ws).map fun bw => bw.2 * f (g.pointAt t bw.1)).sum - ws.sum * J| ≤ A * ω * (ws.map abs).sum := by
    intro ps
    induction ps with
    | nil =>
      intro ws hl _
      cases ws with
      | nil => simp
      | cons _ _ => simp at hl
    | cons b ps ih =>
      intro ws hl hp
      cases ws with
      | nil => simp at hl
      | cons w ws =>
        have i1 := ih ws (by simpa using hl) fun c hc => hp c (List.mem_cons_of_mem _ hc)
        have i2 := h1 b (hp b (List.mem_cons_self ..))
        simp only [List.zip_cons_cons, List.map_cons, List.sum_cons]
        have e : A * (w * f (g.pointAt t b) + ((ps.zip ws).map fun bw => bw.2 * f (g.pointAt t bw.1)).sum) - (w + ws.sum) * J =
            w * (A * f (g.pointAt t b) - J) +
              (A * ((ps.zip ws).map fun bw => bw.2 * f (g.pointAt t bw.1)).sum - ws.sum * J) := by ring
        rw [e]
        refine (abs_add_le _ _).trans ?_
        rw [abs_mul]
        have := mul_le_mul_of_nonneg_left i2 (abs_nonneg w)
        nlinarith
  have k := key r.points r.weights hlen fun _ h => h
  have e : A * ((r.points.zip r.weights).map fun bw => bw.2 * f (g.pointAt t bw.1)).sum - J =
      (A * ((r.points.zip r.weights).map fun bw => bw.2 * f (g.pointAt t bw.1)).sum - r.weights.sum * J) +
        (r.weights.sum - 1) * J := by ring
  rw [e]
  refine (abs_add_le _ _).trans ?_
  rw [abs_mul]
  have := mul_le_mul_of_nonneg_left h2 (abs_nonneg (r.weights.sum - 1))
  nlinarith

theorem abs_sum_map_sub_le {α : Type} (l : List α) (u v b : α → ℝ) (h : ∀ a ∈ l, |u a - v a| ≤ b a) :
    |(l.map u).sum - (l.map v).sum| ≤ (l.map b).sum := by
  induction l with
  | nil => simp
  | cons a l ih =>
    simp only [List.map_cons, List.sum_cons]
    have h1 := h a (List.mem_cons_self ..)
    have h2 := ih fun c hc => h c (List.mem_cons_of_mem _ hc)
    rw [show u a + (l.map u).sum - (v a + (l.map v).sum) = (u a - v a) + ((l.map u).sum - (l.map v).sum) by ring]
    exact (abs_add_le _ _).trans (add_le_add h1 h2)

theorem quad_error (G : LibraryGrid g nx ny s) {r : TriRule ℝ}
    (hlen : r.points.length = r.weights.length) (hin : ∀ b ∈ r.points, b.Inside) {f : ℝ × ℝ → ℝ}
    (hf : ContinuousOn f (gridRect nx ny s)) {ω M : ℝ}
    (hω : ∀ z ∈ gridRect nx ny s, ∀ z' ∈ gridRect nx ny s, |z.1 - z'.1| ≤ s → |z.2 - z'.2| ≤ s → |f z - f z'| ≤ ω)
    (hM : ∀ z ∈ gridRect nx ny s, |f z| ≤ M) :
    |g.quad r (fun t b => f (g.pointAt t b)) - ∫ z in gridRect nx ny s, f z| ≤
      (nx * s) * (ny * s) * (ω * (r.weights.map abs).sum + |r.weights.sum - 1| * M) := by
  rw [← sum_integrals G (hf.integrableOn_compact isCompact_Icc), Grid.quad]
  refine (abs_sum_map_sub_le _ _ _ _ fun t ht => tri_error G ht hlen hin hf hω hM).trans ?_
  rw [List.sum_map_mul_right, library_total_area G]

end Tve
