import Verif.Spec.Geometry
import Verif.Lemmas.Quadrature
import Verif.Lemmas.Tensors
import Mathlib.MeasureTheory.Function.Jacobian
import Mathlib.MeasureTheory.Integral.Prod
import Mathlib.LinearAlgebra.Matrix.ToLin

namespace Tve
open MeasureTheory

/-! ### algebra of the integrator -/

theorem pyGet_planar {n : ℕ} {P : ℕ → ℝ × ℝ} {i : ℕ} (h : i < n) : pyGet (planar n P) i = .ok (vec2 (P i)) := by
  rw [pyGet_ok (by simpa [planar] using h)]; simp [planar]

theorem vec2_sub (p q : ℝ × ℝ) : (vec2 p).sub (vec2 q) = .ok (vec2 (p.1 - q.1, p.2 - q.2)) := by
  simp [Vec.sub, vec2, Vec.size]

theorem stack_vec2 (p q : ℝ × ℝ) : (vec2 p).stack (vec2 q) = .ok (matOf !![p.1, p.2; q.1, q.2]) := by
  simp [Vec.stack, vec2, Vec.size, Mat.new, matOf]

theorem triangleArea_planar {n : ℕ} {P : ℕ → ℝ × ℝ} {t : Tri} (h : t.Valid n) :
    triangleArea (planar n P) t = .ok (triArea P t) := by
  rw [triangleArea, pyGet_planar h.1, pyGet_planar h.2.1, pyGet_planar h.2.2]
  simp only [bind_ok, vec2_sub, stack_vec2, det_matOf, pure_eq_ok]
  rw [triArea, Matrix.det_fin_two_of, abs_div, cross]
  norm_num

theorem integrator_new_ok {n : ℕ} {P : ℕ → ℝ × ℝ} {ts : List Tri} (r : TriRule ℝ) (h : ∀ t ∈ ts, t.Valid n) :
    Integrator.new r ts (planar n P) = .ok ⟨ts, r, ts.map (triArea P)⟩ := by
  rw [Integrator.new, pyMap_eq_ok (triArea P) (fun t ht => triangleArea_planar (h t ht))]; rfl

theorem zip_map_self {α β : Type} (l : List α) (f : α → β) : (l.map f).zip l = l.map (fun a => (f a, a)) := by
  induction l with
  | nil => rfl
  | cons a t ih => simp [ih]

/-- the value of an integrator whose integrand succeeds on all quadrature points -/
theorem integrator_call_ok {P : ℕ → ℝ × ℝ} {ts : List Tri} {r : TriRule ℝ} {g : Tri → Bary ℝ → PyM ℝ}
    (f : Tri → Bary ℝ → ℝ) (h : ∀ t ∈ ts, ∀ b ∈ r.points, g t b = .ok (f t b)) :
    (Integrator.mk ts r (ts.map (triArea P))).call g =
      .ok ((ts.map fun t => triArea P t * ((r.points.zip r.weights).map (fun bw => bw.2 * f t bw.1)).sum).sum) := by
  rw [Integrator.call]
  simp only
  rw [zip_map_self, pyMap_map, pyMap_eq_ok (fun t => triArea P t *
    ((r.points.zip r.weights).map (fun bw => bw.2 * f t bw.1)).sum)]
  · rfl
  · intro t ht
    rw [pyMap_eq_ok (fun bw : Bary ℝ × ℝ => bw.2 * f t bw.1)]
    · rfl
    · intro bw hbw
      have := (List.of_mem_zip (a := bw.1) (b := bw.2) hbw).1
      rw [h t ht _ this]; rfl

/-! ### integration over triangles -/

/-- the unit triangle as a set -/
def unitTri : Set (ℝ × ℝ) := {z | 0 ≤ z.1 ∧ 0 ≤ z.2 ∧ z.1 + z.2 ≤ 1}

theorem isClosed_unitTri : IsClosed unitTri := by
  unfold unitTri
  refine IsClosed.inter ?_ (IsClosed.inter ?_ ?_)
  · exact isClosed_le continuous_const continuous_fst
  · exact isClosed_le continuous_const continuous_snd
  · exact isClosed_le (continuous_fst.add continuous_snd) continuous_const

theorem isCompact_unitTri : IsCompact unitTri := by
  apply (isCompact_Icc (a := ((0 : ℝ), (0 : ℝ))) (b := ((1 : ℝ), (1 : ℝ)))).of_isClosed_subset isClosed_unitTri
  rintro ⟨x, y⟩ ⟨h1, h2, h3⟩
  simp only at h1 h2 h3
  exact ⟨⟨h1, h2⟩, ⟨by simp only; linarith, by simp only; linarith⟩⟩

theorem setIntegral_unitTri (g : ℝ → ℝ → ℝ) (hg : Continuous (fun z : ℝ × ℝ => g z.1 z.2)) :
    ∫ z in unitTri, g z.1 z.2 = unitTriangleIntegral g := by
  have hint : IntegrableOn (fun z : ℝ × ℝ => g z.1 z.2) unitTri := hg.continuousOn.integrableOn_compact isCompact_unitTri
  rw [← integral_indicator isClosed_unitTri.measurableSet]
  rw [Measure.volume_eq_prod, integral_prod]
  · unfold unitTriangleIntegral
    rw [intervalIntegral.integral_of_le zero_le_one, ← integral_Icc_eq_integral_Ioc,
      ← integral_indicator measurableSet_Icc]
    congr 1
    funext x
    by_cases hx : x ∈ Set.Icc (0 : ℝ) 1
    · rw [Set.indicator_of_mem hx]
      rw [intervalIntegral.integral_of_le (by linarith [hx.2]), ← integral_Icc_eq_integral_Ioc,
        ← integral_indicator measurableSet_Icc]
      congr 1
      funext y
      by_cases hy : y ∈ Set.Icc (0 : ℝ) (1 - x)
      · rw [Set.indicator_of_mem hy, Set.indicator_of_mem]
        exact ⟨hx.1, hy.1, by simp only; linarith [hy.2]⟩
      · rw [Set.indicator_of_notMem hy, Set.indicator_of_notMem]
        rintro ⟨h1, h2, h3⟩
        exact hy ⟨h2, by simp only at h3; linarith⟩
    · rw [Set.indicator_of_notMem hx]
      have : (fun y => unitTri.indicator (fun z : ℝ × ℝ => g z.1 z.2) (x, y)) = fun _ => 0 := by
        funext y
        rw [Set.indicator_of_notMem]
        rintro ⟨h1, h2, h3⟩
        simp only at h1 h2 h3
        exact hx ⟨h1, by linarith⟩
      rw [this]; simp
  · rw [integrable_indicator_iff isClosed_unitTri.measurableSet]
    exact hint

/-- the affine map from the unit triangle -/
def affMap (p q r : ℝ × ℝ) (z : ℝ × ℝ) : ℝ × ℝ := baryPoint p q r z.1 z.2 (1 - z.1 - z.2)

theorem closedTriangle_eq (p q r : ℝ × ℝ) : closedTriangle p q r = affMap p q r '' unitTri := by
  ext z
  constructor
  · rintro ⟨a, b, c, ha, hb, hc, hs, rfl⟩
    refine ⟨(a, b), ⟨ha, hb, by simp only; linarith⟩, ?_⟩
    simp only [affMap]
    congr 1
    linarith
  · rintro ⟨⟨a, b⟩, ⟨ha, hb, hc⟩, rfl⟩
    simp only at ha hb hc
    exact ⟨a, b, 1 - a - b, ha, hb, by linarith, by ring, rfl⟩

/-- linear part of the affine map -/
noncomputable def affLin (p q r : ℝ × ℝ) : (ℝ × ℝ) →L[ℝ] (ℝ × ℝ) :=
  (ContinuousLinearMap.fst ℝ ℝ ℝ).smulRight (p - r) + (ContinuousLinearMap.snd ℝ ℝ ℝ).smulRight (q - r)

theorem affMap_eq (p q r z : ℝ × ℝ) : affMap p q r z = affLin p q r z + r := by
  simp only [affMap, baryPoint, affLin, add_apply, ContinuousLinearMap.smulRight_apply,
    ContinuousLinearMap.coe_fst', ContinuousLinearMap.coe_snd']
  module

theorem affLin_det (p q r : ℝ × ℝ) : (affLin p q r).det = cross p q r := by
  have h : LinearMap.det (affLin p q r : (ℝ × ℝ) →ₗ[ℝ] (ℝ × ℝ)) =
      Matrix.det (LinearMap.toMatrix (Module.Basis.finTwoProd ℝ) (Module.Basis.finTwoProd ℝ)
        (affLin p q r : (ℝ × ℝ) →ₗ[ℝ] (ℝ × ℝ))) := (LinearMap.det_toMatrix _ _).symm
  rw [ContinuousLinearMap.det, h, Matrix.det_fin_two]
  simp [LinearMap.toMatrix_apply, affLin, cross]
  ring

theorem affMap_hasFDerivAt (p q r z : ℝ × ℝ) : HasFDerivAt (affMap p q r) (affLin p q r) z := by
  have : affMap p q r = fun z => affLin p q r z + r := funext (affMap_eq p q r)
  rw [this]
  exact (affLin p q r).hasFDerivAt.add_const r

theorem affMap_injective {p q r : ℝ × ℝ} (h : cross p q r ≠ 0) : Function.Injective (affMap p q r) := by
  intro z w hzw
  rw [affMap_eq, affMap_eq, add_left_inj] at hzw
  obtain ⟨a, b⟩ := z
  obtain ⟨c, d⟩ := w
  obtain ⟨p1, p2⟩ := p
  obtain ⟨q1, q2⟩ := q
  obtain ⟨r1, r2⟩ := r
  simp [affLin, Prod.ext_iff] at hzw
  simp only [cross] at h
  obtain ⟨h1, h2⟩ := hzw
  have e1 : (a - c) * ((q1 - p1) * (r2 - p2) - (q2 - p2) * (r1 - p1)) = 0 := by
    linear_combination (q2 - r2) * h1 - (q1 - r1) * h2
  have e2 : (b - d) * ((q1 - p1) * (r2 - p2) - (q2 - p2) * (r1 - p1)) = 0 := by
    linear_combination (p1 - r1) * h2 - (p2 - r2) * h1
  rcases mul_eq_zero.1 e1 with e1 | e1
  · rcases mul_eq_zero.1 e2 with e2 | e2
    · exact Prod.ext (by simp only; linarith) (by simp only; linarith)
    · exact absurd e2 h
  · exact absurd e1 h

instance : (volume : Measure (ℝ × ℝ)).IsAddHaarMeasure := Measure.prod.instIsAddHaarMeasure _ _

theorem integral_closedTriangle (p q r : ℝ × ℝ) (g : ℝ × ℝ → ℝ) :
    ∫ z in closedTriangle p q r, g z = |cross p q r| * ∫ z in unitTri, g (affMap p q r z) := by
  rw [closedTriangle_eq]
  by_cases h : cross p q r = 0
  · have hz : volume (affMap p q r '' unitTri) = 0 := by
      apply addHaar_image_eq_zero_of_det_fderivWithin_eq_zero volume (f' := fun _ => affLin p q r)
        (fun z _ => (affMap_hasFDerivAt p q r z).hasFDerivWithinAt)
      intro z _
      rw [affLin_det, h]
    rw [setIntegral_measure_zero _ hz, h, abs_zero, zero_mul]
  · rw [integral_image_eq_integral_abs_det_fderiv_smul volume isClosed_unitTri.measurableSet
      (fun z _ => (affMap_hasFDerivAt p q r z).hasFDerivWithinAt) (affMap_injective h).injOn]
    simp only [affLin_det, smul_eq_mul]
    rw [integral_const_mul]

/-- pull-back of a polynomial along the affine map -/
noncomputable def pullPoly (p q r : ℝ × ℝ) (F : MvPolynomial (Fin 2) ℝ) : MvPolynomial (Fin 2) ℝ :=
  MvPolynomial.aeval (![MvPolynomial.C (p.1 - r.1) * MvPolynomial.X 0 + MvPolynomial.C (q.1 - r.1) * MvPolynomial.X 1
      + MvPolynomial.C r.1,
    MvPolynomial.C (p.2 - r.2) * MvPolynomial.X 0 + MvPolynomial.C (q.2 - r.2) * MvPolynomial.X 1
      + MvPolynomial.C r.2] : Fin 2 → MvPolynomial (Fin 2) ℝ) F

theorem pullPoly_eval (p q r : ℝ × ℝ) (F : MvPolynomial (Fin 2) ℝ) (x y : ℝ) :
    polyFun (pullPoly p q r F) x y = polyFun F (affMap p q r (x, y)).1 (affMap p q r (x, y)).2 := by
  rw [polyFun, polyFun, pullPoly, ← MvPolynomial.coe_aeval_eq_eval, ← MvPolynomial.coe_aeval_eq_eval]
  rw [AlgHom.coe_toRingHom, AlgHom.coe_toRingHom, ← AlgHom.comp_apply, MvPolynomial.comp_aeval]
  congr 1
  congr 1
  funext i
  fin_cases i <;> simp [affMap, baryPoint] <;> ring

theorem totalDegree_lin (a b c : ℝ) :
    (MvPolynomial.C a * MvPolynomial.X 0 + MvPolynomial.C b * MvPolynomial.X 1 + MvPolynomial.C c :
      MvPolynomial (Fin 2) ℝ).totalDegree ≤ 1 := by
  have h : ∀ (a : ℝ) (i : Fin 2), (MvPolynomial.C a * MvPolynomial.X i : MvPolynomial (Fin 2) ℝ).totalDegree ≤ 1 := by
    intro a i
    refine (MvPolynomial.totalDegree_mul _ _).trans ?_
    simp [MvPolynomial.totalDegree_X]
  refine (MvPolynomial.totalDegree_add _ _).trans (max_le ((MvPolynomial.totalDegree_add _ _).trans
    (max_le (h _ _) (h _ _))) (by simp))

theorem pullPoly_degree (p q r : ℝ × ℝ) (F : MvPolynomial (Fin 2) ℝ) {d : ℕ} (h : F.totalDegree ≤ d) :
    (pullPoly p q r F).totalDegree ≤ d := by
  rw [pullPoly, MvPolynomial.aeval_def, MvPolynomial.eval₂_eq']
  refine MvPolynomial.totalDegree_finsetSum_le (fun m hm => ?_)
  refine (MvPolynomial.totalDegree_mul _ _).trans ?_
  have h0 : (algebraMap ℝ (MvPolynomial (Fin 2) ℝ) (MvPolynomial.coeff m F)).totalDegree = 0 := by
    rw [MvPolynomial.algebraMap_eq]; exact MvPolynomial.totalDegree_C _
  rw [h0, zero_add, Fin.prod_univ_two]
  refine (MvPolynomial.totalDegree_mul _ _).trans ?_
  have h1 := total_le h hm
  have k0 := (MvPolynomial.totalDegree_pow (MvPolynomial.C (p.1 - r.1) * MvPolynomial.X 0 +
    MvPolynomial.C (q.1 - r.1) * MvPolynomial.X 1 + MvPolynomial.C r.1 : MvPolynomial (Fin 2) ℝ) (m 0)).trans
    (Nat.mul_le_mul_left _ (totalDegree_lin _ _ _))
  have k1 := (MvPolynomial.totalDegree_pow (MvPolynomial.C (p.2 - r.2) * MvPolynomial.X 0 +
    MvPolynomial.C (q.2 - r.2) * MvPolynomial.X 1 + MvPolynomial.C r.2 : MvPolynomial (Fin 2) ℝ) (m 1)).trans
    (Nat.mul_le_mul_left _ (totalDegree_lin _ _ _))
  simp only [Matrix.cons_val_zero, Matrix.cons_val_one, Matrix.cons_val_fin_one]
  omega

theorem continuous_polyFun (F : MvPolynomial (Fin 2) ℝ) : Continuous (fun z : ℝ × ℝ => polyFun F z.1 z.2) := by
  simp_rw [polyFun_eq]
  fun_prop

/-- exactness of a rule transported to an arbitrary triangle -/
theorem exact_on_triangle (r : TriRule ℝ) (d : ℕ) (hr : r.ExactTo d) (F : MvPolynomial (Fin 2) ℝ)
    (hF : F.totalDegree ≤ d) (p q s : ℝ × ℝ) :
    |cross p q s| / 2 * ((r.points.zip r.weights).map (fun bw => bw.2 *
      polyFun F (affMap p q s (bw.1.l1, bw.1.l2)).1 (affMap p q s (bw.1.l1, bw.1.l2)).2)).sum =
    ∫ z in closedTriangle p q s, polyFun F z.1 z.2 := by
  have h1 := hr _ (pullPoly_degree p q s F hF)
  rw [TriRule.value] at h1
  simp_rw [pullPoly_eval] at h1
  rw [integral_closedTriangle]
  have h2 := setIntegral_unitTri (polyFun (pullPoly p q s F)) (continuous_polyFun _)
  simp_rw [pullPoly_eval] at h2
  rw [h2, ← h1]
  ring

end Tve
