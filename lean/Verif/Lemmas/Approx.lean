import Verif.Lemmas.Converge
import Verif.Props.InterpP1
import Mathlib.Analysis.Calculus.MeanValue

/-!
# Approximation by piecewise linear interpolation
-/

namespace Tve

variable {g : Grid ℝ} {nx ny : ℕ} {s : ℝ} {u : List ℝ} {I : Interp} {t : Tri}

/-- mean value theorem on a segment of a convex set -/
theorem mean_value {R : Set (ℝ × ℝ)} (hR : Convex ℝ R) {f fx fy : ℝ × ℝ → ℝ}
    (hf : ∀ z ∈ R, HasFDerivAt f (lin (fx z) (fy z)) z) {p q : ℝ × ℝ} (hp : p ∈ R) (hq : q ∈ R) :
    ∃ ξ ∈ R, (∃ τ : ℝ, 0 ≤ τ ∧ τ ≤ 1 ∧ ξ = p + τ • (q - p)) ∧
      f q - f p = fx ξ * (q.1 - p.1) + fy ξ * (q.2 - p.2) := by
  have hmem : ∀ τ : ℝ, 0 ≤ τ → τ ≤ 1 → p + τ • (q - p) ∈ R := by
    intro τ h0 h1
    have := hR hp hq (a := 1 - τ) (b := τ) (by linarith) h0 (by ring)
    convert this using 1
    module
  have hd : ∀ τ : ℝ, 0 ≤ τ → τ ≤ 1 → HasDerivAt (fun τ : ℝ => f (p + τ • (q - p)))
      (fx (p + τ • (q - p)) * (q.1 - p.1) + fy (p + τ • (q - p)) * (q.2 - p.2)) τ := by
    intro τ h0 h1
    have hl : HasDerivAt (fun τ : ℝ => p + τ • (q - p)) (q - p) τ := by
      simpa using ((hasDerivAt_id τ).smul_const (q - p)).const_add p
    have := (hf _ (hmem τ h0 h1)).comp_hasDerivAt τ hl
    have h2 : lin (fx (p + τ • (q - p))) (fy (p + τ • (q - p))) (q - p) =
        fx (p + τ • (q - p)) * (q.1 - p.1) + fy (p + τ • (q - p)) * (q.2 - p.2) := by simp [lin]
    rw [h2] at this
    exact this
  obtain ⟨τ, hτ, h⟩ := exists_hasDerivAt_eq_slope (fun τ : ℝ => f (p + τ • (q - p)))
    (fun τ => fx (p + τ • (q - p)) * (q.1 - p.1) + fy (p + τ • (q - p)) * (q.2 - p.2)) (a := 0) (b := 1) zero_lt_one
    (fun τ hτ => (hd τ hτ.1 hτ.2).continuousAt.continuousWithinAt) fun τ hτ => hd τ hτ.1.le hτ.2.le
  refine ⟨_, hmem τ hτ.1.le hτ.2.le, ⟨τ, hτ.1.le, hτ.2.le, rfl⟩, ?_⟩
  rw [h]
  simp

theorem corner_mem (g : Grid ℝ) (t : Tri) (k : Fin 3) :
    g.xy (t.get k) ∈ closedTriangle (g.xy t.1) (g.xy t.2.1) (g.xy t.2.2) := by
  fin_cases k
  · exact ⟨1, 0, 0, by norm_num, by norm_num, by norm_num, by norm_num, by simp [baryPoint, Tri.get]⟩
  · exact ⟨0, 1, 0, by norm_num, by norm_num, by norm_num, by norm_num, by simp [baryPoint, Tri.get]⟩
  · exact ⟨0, 0, 1, by norm_num, by norm_num, by norm_num, by norm_num, by simp [baryPoint, Tri.get]⟩

/-- the interpolation is affine on a triangle and takes the nodal values at its corners -/
theorem P1_affine (G : LibraryGrid g nx ny s) (hI : P1Interpolation g u = .ok I) (ht : t ∈ g.triangles) {f : ℝ × ℝ → ℝ}
    (hu : ∀ v q, g.At v q → u[v]? = some (f q)) :
    ∃ a bx cy : ℝ, (∀ c : Bary ℝ, c.Normalized →
      I.call t c = .ok (a + bx * (g.pointAt t c).1 + cy * (g.pointAt t c).2) ∧
      I.gradient t c = .ok (vecOf ![bx, cy])) ∧
      f (g.xy t.1) = a + bx * (g.xy t.1).1 + cy * (g.xy t.1).2 ∧
      f (g.xy t.2.1) = a + bx * (g.xy t.2.1).1 + cy * (g.xy t.2.1).2 ∧
      f (g.xy t.2.2) = a + bx * (g.xy t.2.2).1 + cy * (g.xy t.2.2).2 := by
  have W := G.wellFormed
  obtain ⟨-, -, -, -, h1, h2, h3, hc⟩ := tri_frame G ht
  have hs := (C22_structure G).1
  obtain ⟨a, bx, cy, h⟩ := C34_affine W hI ht (by
    have : cross (g.xy t.1) (g.xy t.2.1) (g.xy t.2.2) ≠ 0 := by rw [hc]; positivity
    exact this)
  have key : ∀ k : Fin 3, f (g.xy (t.get k)) = a + bx * (g.xy (t.get k)).1 + cy * (g.xy (t.get k)).2 := by
    intro k
    obtain ⟨x, e1, e2⟩ := C34_vertex_values W hI ht k
    have e3 := (h (vertexCoords k) (by fin_cases k <;> simp [Bary.Normalized, vertexCoords, baryOf])).1
    have e4 : g.pointAt t (vertexCoords k) = g.xy (t.get k) := by
      fin_cases k <;> simp [Grid.pointAt, vertexCoords, baryOf, baryPoint, Tri.get]
    have e5 : u[t.get k]? = some (f (g.xy (t.get k))) := by
      fin_cases k
      · exact hu _ _ h1
      · exact hu _ _ h2
      · exact hu _ _ h3
    rw [e4] at e3
    cases e5.symm.trans e1
    exact Except.ok.inj (e2.symm.trans e3)
  exact ⟨a, bx, cy, h, key 0, key 1, key 2⟩

/-- the values -/
theorem P1_values (G : LibraryGrid g nx ny s) (hI : P1Interpolation g u = .ok I) (ht : t ∈ g.triangles) {f : ℝ × ℝ → ℝ}
    (hu : ∀ v q, g.At v q → u[v]? = some (f q)) {ω : ℝ}
    (hω : ∀ z ∈ gridRect nx ny s, ∀ z' ∈ gridRect nx ny s, |z.1 - z'.1| ≤ s → |z.2 - z'.2| ≤ s → |f z - f z'| ≤ ω)
    {c : Bary ℝ} (hc : c.Inside) : ∃ y, I.call t c = .ok y ∧ |y - f (g.pointAt t c)| ≤ ω := by
  obtain ⟨a, bx, cy, h, k1, k2, k3⟩ := P1_affine G hI ht hu
  refine ⟨_, (h c hc.1).1, ?_⟩
  have hz := pointAt_mem g t hc
  set z := g.pointAt t c with hzdef
  have hsum : c.l1 + c.l2 + c.l3 = 1 := hc.1
  have d : ∀ k : Fin 3, |f (g.xy (t.get k)) - f z| ≤ ω := fun k => by
    have hk := corner_mem g t k
    obtain ⟨d1, d2⟩ := tri_diam G ht hk hz
    exact hω _ (tri_subset G ht hk) _ (tri_subset G ht hz) d1 d2
  have d1 : |f (g.xy t.1) - f z| ≤ ω := d 0
  have d2 : |f (g.xy t.2.1) - f z| ≤ ω := d 1
  have d3 : |f (g.xy t.2.2) - f z| ≤ ω := d 2
  have e : a + bx * z.1 + cy * z.2 - f z =
      c.l1 * (f (g.xy t.1) - f z) + c.l2 * (f (g.xy t.2.1) - f z) + c.l3 * (f (g.xy t.2.2) - f z) := by
    have z1 : z.1 = c.l1 * (g.xy t.1).1 + c.l2 * (g.xy t.2.1).1 + c.l3 * (g.xy t.2.2).1 := by
      simp [hzdef, Grid.pointAt, baryPoint]
    have z2 : z.2 = c.l1 * (g.xy t.1).2 + c.l2 * (g.xy t.2.1).2 + c.l3 * (g.xy t.2.2).2 := by
      simp [hzdef, Grid.pointAt, baryPoint]
    rw [k1, k2, k3]
    linear_combination bx * z1 + cy * z2 + (f z - a) * hsum
  rw [e]
  rw [abs_le] at d1 d2 d3 ⊢
  obtain ⟨-, c1, c2, c3⟩ := hc
  constructor <;> nlinarith

/-- values and gradients for a function with Lipschitz derivatives -/
theorem P1_second_order (G : LibraryGrid g nx ny s) (hI : P1Interpolation g u = .ok I) (ht : t ∈ g.triangles)
    {f fx fy : ℝ × ℝ → ℝ} (hu : ∀ v q, g.At v q → u[v]? = some (f q)) {M : ℝ}
    (hf : ∀ z ∈ gridRect nx ny s, HasFDerivAt f (lin (fx z) (fy z)) z)
    (hM : ∀ z ∈ gridRect nx ny s, ∀ z' ∈ gridRect nx ny s, |z.1 - z'.1| ≤ s → |z.2 - z'.2| ≤ s →
      |fx z - fx z'| ≤ M ∧ |fy z - fy z'| ≤ M)
    {c : Bary ℝ} (hc : c.Inside) : ∃ y gx gy, I.call t c = .ok y ∧ I.gradient t c = .ok (vecOf ![gx, gy]) ∧
      |y - f (g.pointAt t c)| ≤ 2 * (M * s) ∧ |gx - fx (g.pointAt t c)| ≤ M ∧ |gy - fy (g.pointAt t c)| ≤ M := by
  obtain ⟨a, bx, cy, h, k1, k2, k3⟩ := P1_affine G hI ht hu
  have hs := (C22_structure G).1
  refine ⟨_, bx, cy, (h c hc.1).1, (h c hc.1).2, ?_⟩
  have hz := pointAt_mem g t hc
  set z := g.pointAt t c with hzdef
  have hsum : c.l1 + c.l2 + c.l3 = 1 := hc.1
  obtain ⟨f1, f2, f3, f4, -⟩ := tri_frame G ht
  have hconv := convex_closedTriangle (g.xy t.1) (g.xy t.2.1) (g.xy t.2.2)
  have hsub := tri_subset G ht
  have mv : ∀ {p q}, p ∈ closedTriangle (g.xy t.1) (g.xy t.2.1) (g.xy t.2.2) →
      q ∈ closedTriangle (g.xy t.1) (g.xy t.2.1) (g.xy t.2.2) →
      ∃ α β : ℝ, |α - fx z| ≤ M ∧ |β - fy z| ≤ M ∧ f q - f p = α * (q.1 - p.1) + β * (q.2 - p.2) := by
    intro p q hp hq
    obtain ⟨ξ, hξ, -, e⟩ := mean_value hconv (fun z hz => hf z (hsub hz)) hp hq
    obtain ⟨d1, d2⟩ := tri_diam G ht hξ hz
    obtain ⟨m1, m2⟩ := hM _ (hsub hξ) _ (hsub hz) d1 d2
    exact ⟨_, _, m1, m2, e⟩
  have q1 : g.xy t.1 ∈ _ := corner_mem g t 0
  have q2 : g.xy t.2.1 ∈ _ := corner_mem g t 1
  have q3 : g.xy t.2.2 ∈ _ := corner_mem g t 2
  refine ⟨?_, ?_, ?_⟩
  · have z1 : z.1 = c.l1 * (g.xy t.1).1 + c.l2 * (g.xy t.2.1).1 + c.l3 * (g.xy t.2.2).1 := by
      simp [hzdef, Grid.pointAt, baryPoint]
    have z2 : z.2 = c.l1 * (g.xy t.1).2 + c.l2 * (g.xy t.2.1).2 + c.l3 * (g.xy t.2.2).2 := by
      simp [hzdef, Grid.pointAt, baryPoint]
    have bound : ∀ p ∈ closedTriangle (g.xy t.1) (g.xy t.2.1) (g.xy t.2.2),
        |f p - f z - (fx z * (p.1 - z.1) + fy z * (p.2 - z.2))| ≤ 2 * (M * s) := by
      intro p hp
      obtain ⟨α, β, m1, m2, e⟩ := mv hz hp
      obtain ⟨d1, d2⟩ := tri_diam G ht hp hz
      rw [e, show α * (p.1 - z.1) + β * (p.2 - z.2) - (fx z * (p.1 - z.1) + fy z * (p.2 - z.2)) =
        (α - fx z) * (p.1 - z.1) + (β - fy z) * (p.2 - z.2) by ring]
      refine (abs_add_le _ _).trans ?_
      rw [abs_mul, abs_mul]
      have := mul_le_mul m1 d1 (abs_nonneg _) ((abs_nonneg _).trans m1)
      have := mul_le_mul m2 d2 (abs_nonneg _) ((abs_nonneg _).trans m1)
      linarith
    have b1 := bound _ q1
    have b2 := bound _ q2
    have b3 := bound _ q3
    have e : a + bx * z.1 + cy * z.2 - f z =
        c.l1 * (f (g.xy t.1) - f z - (fx z * ((g.xy t.1).1 - z.1) + fy z * ((g.xy t.1).2 - z.2))) +
        c.l2 * (f (g.xy t.2.1) - f z - (fx z * ((g.xy t.2.1).1 - z.1) + fy z * ((g.xy t.2.1).2 - z.2))) +
        c.l3 * (f (g.xy t.2.2) - f z - (fx z * ((g.xy t.2.2).1 - z.1) + fy z * ((g.xy t.2.2).2 - z.2))) := by
      rw [k1, k2, k3]
      linear_combination (bx - fx z) * z1 + (cy - fy z) * z2 + (f z - a - fx z * z.1 - fy z * z.2) * hsum
    rw [e]
    rw [abs_le] at b1 b2 b3 ⊢
    obtain ⟨-, c1, c2, c3⟩ := hc
    constructor
    · have i1 := mul_le_mul_of_nonneg_left b1.1 c1
      have i2 := mul_le_mul_of_nonneg_left b2.1 c2
      have i3 := mul_le_mul_of_nonneg_left b3.1 c3
      have : -(2 * (M * s)) = c.l1 * -(2 * (M * s)) + c.l2 * -(2 * (M * s)) + c.l3 * -(2 * (M * s)) := by
        linear_combination (2 * (M * s)) * hsum
      linarith
    · have i1 := mul_le_mul_of_nonneg_left b1.2 c1
      have i2 := mul_le_mul_of_nonneg_left b2.2 c2
      have i3 := mul_le_mul_of_nonneg_left b3.2 c3
      have : (2 * (M * s)) = c.l1 * (2 * (M * s)) + c.l2 * (2 * (M * s)) + c.l3 * (2 * (M * s)) := by
        linear_combination -(2 * (M * s)) * hsum
      linarith
  · obtain ⟨α, β, m1, -, e⟩ := mv q1 q2
    have hne : (g.xy t.2.1).1 - (g.xy t.1).1 ≠ 0 := by
      intro h0; rw [h0, abs_zero] at f3; linarith
    have : bx = α := by
      apply mul_right_cancel₀ hne
      rw [k1, k2, f1] at e
      linear_combination e
    rw [this]; exact m1
  · obtain ⟨α, β, -, m2, e⟩ := mv q2 q3
    have hne : (g.xy t.2.2).2 - (g.xy t.2.1).2 ≠ 0 := by
      intro h0; rw [h0, abs_zero] at f4; linarith
    have : cy = β := by
      apply mul_right_cancel₀ hne
      rw [k2, k3, f2] at e
      linear_combination e
    rw [this]; exact m2

end Tve
