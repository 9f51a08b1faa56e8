import Verif.Lemmas.EdgeConsistency
import Verif.Lemmas.Force
import Verif.Props.Optimal

/-!
# The coefficients of the thermal step as continuous functions of strains and temperatures
-/

namespace Tve

open Helpers

theorem pairing_single (D : Fin 2 → Fin 2 → ℝ) (i j : Fin 2) :
    strainPairing D (fun a b => if a = i ∧ b = j then 1 else 0) = D i j := by
  simp only [strainPairing, Fin.sum_univ_two]
  fin_cases i <;> fin_cases j <;> simp

theorem deriv_unique {W : (Fin 2 → Fin 2 → ℝ) → ℝ} {D : Fin 2 → Fin 2 → ℝ} {F S : Fin 2 → Fin 2 → ℝ}
    (h : HasFDerivAt W (strainPairing D) F)
    (h' : ∀ G : Fin 2 → Fin 2 → ℝ, HasDerivAt (fun τ : ℝ => W (F + τ • G)) (∑ i, ∑ j, S i j * G i j) 0) : D = S := by
  funext i j
  set G : Fin 2 → Fin 2 → ℝ := fun a b => if a = i ∧ b = j then 1 else 0 with hG
  have hline : HasDerivAt (fun τ : ℝ => F + τ • G) G 0 := by
    simpa using ((hasDerivAt_id (0 : ℝ)).smul_const G).const_add F
  have h0 : HasFDerivAt W (strainPairing D) (F + (0 : ℝ) • G) := by simpa using h
  have h1 := h0.comp_hasDerivAt (0 : ℝ) hline
  have h2 := h1.unique (h' G)
  rw [hG, pairing_single] at h2
  rw [h2]
  simp only [Fin.sum_univ_two]
  fin_cases i <;> fin_cases j <;> simp

theorem coupling_value {F : Fin 2 → Fin 2 → ℝ} (h : 0 < (Matrix.of F).det) (x : ℝ) :
    strainDerivativeCouplingPotential (matOf (Matrix.of F)) x =
      .ok (matOf ((1 - Real.exp (-5 * x)) • (stressA (Matrix.of F) - stressM (Matrix.of F)))) := by
  obtain ⟨a, Wa, Wm, D, ha, hD⟩ := C50_coupling x
  have ha' := Except.ok.inj (ha.symm.trans (aust_eq x))
  obtain ⟨-, -, h3, h4⟩ := hD F h
  have ho : IsOpen {A : Fin 2 → Fin 2 → ℝ | 0 < (Matrix.of A).det} := by
    refine isOpen_lt continuous_const ?_
    simp only [Matrix.det_fin_two, Matrix.of_apply]
    fun_prop
  have hev : (fun G => a * (Wa G - Wm G)) =ᶠ[nhds F] fun G => a * (wA (Matrix.of G) - wM (Matrix.of G)) := by
    filter_upwards [ho.mem_nhds h] with G hG
    obtain ⟨e1, e2, -⟩ := hD G hG
    rw [Except.ok.inj (e1.symm.trans (austPot_eq hG)), Except.ok.inj (e2.symm.trans (martPot_eq (ne_of_gt hG)))]
  have h5 := h4.congr_of_eventuallyEq hev.symm
  have h6 := deriv_unique (S := fun i j => (a • (stressA (Matrix.of F) - stressM (Matrix.of F))) i j) h5 fun G => by
    have := ((hasDerivAt_wA (Matrix.of F) (Matrix.of G) h).sub (hasDerivAt_wM (Matrix.of F) (Matrix.of G) h)).const_mul a
    refine this.congr_deriv ?_
    simp [Fin.sum_univ_two]
    ring
  rw [h3, h6, ha']
  rfl

/-- value of the heat production -/
noncomputable def qVal (fps : ℝ) (F0 F : Fin 2 → Fin 2 → ℝ) (x0 : ℝ) : ℝ :=
  2 * ((∑ i, ∑ j, ((Matrix.of F - Matrix.of F0).transpose * Matrix.of F0 +
      (Matrix.of F0).transpose * (Matrix.of F - Matrix.of F0)) i j ^ 2) / 2) / (1 / fps) ^ 2 +
    ∑ i, ∑ j, ((1 - Real.exp (-5 * x0)) • (stressA (Matrix.of F0) - stressM (Matrix.of F0))) i j * (fps * (F i j - F0 i j))

/-- value of the conductivity -/
noncomputable def kVal (F0 : Fin 2 → Fin 2 → ℝ) : Matrix (Fin 2) (Fin 2) ℝ :=
  (Matrix.of F0).det • ((Matrix.of F0)⁻¹ * (Matrix.of F0)⁻¹.transpose)

theorem heatCoeff_value {fps : ℝ} (hfps : fps ≠ 0) {F0 F : Fin 2 → Fin 2 → ℝ} (h : 0 < (Matrix.of F0).det) (x0 : ℝ) :
    IsHeatCoeff fps (Matrix.of F0) (Matrix.of F) x0 (kVal F0) (qVal fps F0 F x0) :=
  ⟨heat_eq h.ne', _, _, C51_rate _ _ fps _ hfps (C51_value _ _), coupling_value h x0, rfl⟩

theorem heatCoeff_unique {fps : ℝ} {F0 F : Matrix (Fin 2) (Fin 2) ℝ} {x0 : ℝ} {K K' : Matrix (Fin 2) (Fin 2) ℝ} {q q' : ℝ}
    (h : IsHeatCoeff fps F0 F x0 K q) (h' : IsHeatCoeff fps F0 F x0 K' q') : K = K' ∧ q = q' := by
  obtain ⟨h1, ξ, A, h2, h3, rfl⟩ := h
  obtain ⟨h1', ξ', A', h2', h3', rfl⟩ := h'
  have e1 := matOf_injective (Except.ok.inj (h1.symm.trans h1'))
  have e2 := Except.ok.inj (h2.symm.trans h2')
  have e3 := matOf_injective (Except.ok.inj (h3.symm.trans h3'))
  exact ⟨e1, by rw [e2, e3]⟩

theorem internal_value {F : Matrix (Fin 2) (Fin 2) ℝ} (h : 0 < F.det) (x : ℝ) :
    internalEnergyNoEntropy (matOf F) x =
      .ok ((1 - Real.exp (-5 * x) - x * (5 * Real.exp (-5 * x))) * (wA F - wM F)) := by
  rw [internalEnergyNoEntropy, weight_eq, bind_ok, austPot_eq h, bind_ok, martPot_eq h.ne']
  rfl

/-- strains before and after, temperatures before and after, temperature gradient -/
abbrev HeatPoint := (Fin 2 → Fin 2 → ℝ) × (Fin 2 → Fin 2 → ℝ) × ℝ × ℝ × (Fin 2 → ℝ)

/-- the first integrand of the thermal objective -/
noncomputable def heatPhi (fps : ℝ) (p : HeatPoint) : ℝ :=
  p.2.2.2.2 ⬝ᵥ (kVal p.1).mulVec p.2.2.2.2 - qVal fps p.1 p.2.1 p.2.2.1 * p.2.2.2.1

/-- the second integrand of the thermal objective -/
noncomputable def heatPsi (p : HeatPoint) : ℝ :=
  10 / 2 * (p.2.2.2.1 - p.2.2.1) ^ 2 + (anti p.2.2.2.1 * (wA (Matrix.of p.2.1) - wM (Matrix.of p.2.1)) -
    ((1 - Real.exp (-5 * p.2.2.1) - p.2.2.1 * (5 * Real.exp (-5 * p.2.2.1))) * (wA (Matrix.of p.1) - wM (Matrix.of p.1))) *
      p.2.2.2.1)

theorem heatPhi_continuousAt (fps : ℝ) {p : HeatPoint} (h : 0 < (Matrix.of p.1).det) : ContinuousAt (heatPhi fps) p := by
  have c0 : ContinuousAt (fun p : HeatPoint => p.1 0 0) p := by fun_prop
  have c1 : ContinuousAt (fun p : HeatPoint => p.1 0 1) p := by fun_prop
  have c2 : ContinuousAt (fun p : HeatPoint => p.1 1 0) p := by fun_prop
  have c3 : ContinuousAt (fun p : HeatPoint => p.1 1 1) p := by fun_prop
  have d0 : ContinuousAt (fun p : HeatPoint => p.2.1 0 0) p := by fun_prop
  have d1 : ContinuousAt (fun p : HeatPoint => p.2.1 0 1) p := by fun_prop
  have d2 : ContinuousAt (fun p : HeatPoint => p.2.1 1 0) p := by fun_prop
  have d3 : ContinuousAt (fun p : HeatPoint => p.2.1 1 1) p := by fun_prop
  have e0 : ContinuousAt (fun p : HeatPoint => p.2.2.1) p := by fun_prop
  have e1 : ContinuousAt (fun p : HeatPoint => p.2.2.2.1) p := by fun_prop
  have e2 : ContinuousAt (fun p : HeatPoint => p.2.2.2.2 0) p := by fun_prop
  have e3 : ContinuousAt (fun p : HeatPoint => p.2.2.2.2 1) p := by fun_prop
  rw [Matrix.det_fin_two] at h
  simp only [Matrix.of_apply] at h
  have hne := h.ne'
  have hne2 : (p.1 0 0 * p.1 1 1 - p.1 0 1 * p.1 1 0) ^ 2 ≠ 0 := pow_ne_zero 2 hne
  have hne3 : (p.1 0 0 * p.1 1 1 - p.1 0 1 * p.1 1 0) ^ 3 ≠ 0 := pow_ne_zero 3 hne
  unfold heatPhi kVal qVal
  simp only [Matrix.inv_def, Ring.inverse_eq_inv', Matrix.adjugate_fin_two, Matrix.det_fin_two, Matrix.of_apply, dotProduct,
    Matrix.mulVec, Fin.sum_univ_two, Matrix.smul_apply, Matrix.mul_apply, Matrix.transpose_apply, Matrix.add_apply,
    Matrix.sub_apply, stressA, stressM, fsq, cof, smul_eq_mul, Matrix.cons_val_zero, Matrix.cons_val_one, Matrix.cons_val']
  fun_prop (disch := assumption)

theorem heatPsi_continuousAt {p : HeatPoint} (h0 : 0 < (Matrix.of p.1).det) (h : 0 < (Matrix.of p.2.1).det) :
    ContinuousAt heatPsi p := by
  have c0 : ContinuousAt (fun p : HeatPoint => p.1 0 0) p := by fun_prop
  have c1 : ContinuousAt (fun p : HeatPoint => p.1 0 1) p := by fun_prop
  have c2 : ContinuousAt (fun p : HeatPoint => p.1 1 0) p := by fun_prop
  have c3 : ContinuousAt (fun p : HeatPoint => p.1 1 1) p := by fun_prop
  have d0 : ContinuousAt (fun p : HeatPoint => p.2.1 0 0) p := by fun_prop
  have d1 : ContinuousAt (fun p : HeatPoint => p.2.1 0 1) p := by fun_prop
  have d2 : ContinuousAt (fun p : HeatPoint => p.2.1 1 0) p := by fun_prop
  have d3 : ContinuousAt (fun p : HeatPoint => p.2.1 1 1) p := by fun_prop
  rw [Matrix.det_fin_two] at h h0
  simp only [Matrix.of_apply] at h h0
  have hne := h.ne'
  have hne0 := h0.ne'
  have hne2 := pow_ne_zero 2 hne
  have hne02 := pow_ne_zero 2 hne0
  unfold heatPsi
  simp only [anti, wA, wM, fsq, Matrix.det_fin_two, Matrix.of_apply]
  fun_prop (disch := assumption)

end Tve
