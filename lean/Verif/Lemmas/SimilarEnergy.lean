import Verif.Lemmas.Similar
import Verif.Lemmas.ConsistencyTherm

/-!
# The potentials after an exchange of the axes, and the objectives of the image
-/

namespace Tve
open Bell Helpers

section
variable {T : Similarity}

/-! ### potentials -/

theorem conj_det (F : Matrix (Fin 2) (Fin 2) ℝ) : (T.conj F).det = F.det := by
  rw [Similarity.conj]
  split
  · simp [Matrix.det_fin_two]; ring
  · rfl

theorem conj_conj (F : Matrix (Fin 2) (Fin 2) ℝ) : T.conj (T.conj F) = F := by
  rw [Similarity.conj, Similarity.conj]
  cases T.swap
  · rfl
  · ext i j; fin_cases i <;> fin_cases j <;> simp

theorem conj_fsq (F : Matrix (Fin 2) (Fin 2) ℝ) : fsq (T.conj F) = fsq F := by
  rw [Similarity.conj]
  split
  · simp [fsq]; ring
  · rfl

theorem austPot_conj (F : Matrix (Fin 2) (Fin 2) ℝ) : austenitePotential (matOf (T.conj F)) = austenitePotential (matOf F) := by
  by_cases h : 0 < F.det
  · rw [austPot_eq h, austPot_eq (by rw [conj_det]; exact h), wA, wA, conj_det, conj_fsq]
  · rw [austPot_err (not_lt.1 h), austPot_err (by rw [conj_det]; exact not_lt.1 h)]

theorem martPot_conj (F : Matrix (Fin 2) (Fin 2) ℝ) : martensitePotential (matOf (T.conj F)) = martensitePotential (matOf F) := by
  by_cases h : F.det = 0
  · rw [martPot_err h, martPot_err (by rw [conj_det]; exact h)]
  · rw [martPot_eq h, martPot_eq (by rw [conj_det]; exact h), wM, wM, conj_det, conj_fsq]

theorem totalElastic_conj (F : Matrix (Fin 2) (Fin 2) ℝ) (x : ℝ) :
    totalElasticPotential (matOf (T.conj F)) x = totalElasticPotential (matOf F) x := by
  rw [totalElasticPotential, totalElasticPotential, austPot_conj, martPot_conj]

theorem internal_conj (F : Matrix (Fin 2) (Fin 2) ℝ) (x : ℝ) :
    internalEnergyNoEntropy (matOf (T.conj F)) x = internalEnergyNoEntropy (matOf F) x := by
  rw [internalEnergyNoEntropy, internalEnergyNoEntropy, austPot_conj, martPot_conj]

theorem antider_conj (F : Matrix (Fin 2) (Fin 2) ℝ) (x : ℝ) :
    tempAntiderInternalEnergyNoEntropy (matOf (T.conj F)) x = tempAntiderInternalEnergyNoEntropy (matOf F) x := by
  rw [tempAntiderInternalEnergyNoEntropy, tempAntiderInternalEnergyNoEntropy, austPot_conj, martPot_conj]

theorem dissipation_conj (F0 F : Matrix (Fin 2) (Fin 2) ℝ) :
    dissipationPotential (matOf (T.conj F0)) (matOf (T.conj F)) = dissipationPotential (matOf F0) (matOf F) := by
  rw [C51_value (n := 1), C51_value (n := 1)]
  congr 2
  rw [Similarity.conj, Similarity.conj]
  cases T.swap
  · rfl
  · simp [Fin.sum_univ_two, Matrix.mul_apply]
    ring

theorem rate_conj (F0 F : Matrix (Fin 2) (Fin 2) ℝ) (fps : ℝ) :
    dissipationRate (matOf (T.conj F0)) (matOf (T.conj F)) fps = dissipationRate (matOf F0) (matOf F) fps := by
  rw [dissipationRate, dissipationRate, dissipation_conj]

theorem inv_conj {F : Matrix (Fin 2) (Fin 2) ℝ} : (T.conj F)⁻¹ = T.conj F⁻¹ := by
  rw [Matrix.inv_def, Matrix.inv_def, conj_det, Similarity.conj, Similarity.conj]
  cases T.swap
  · rfl
  · simp only [if_true]
    ext i j
    fin_cases i <;> fin_cases j <;> simp [Matrix.adjugate_fin_two]

theorem heat_conj {F : Matrix (Fin 2) (Fin 2) ℝ} (h : 0 < F.det) {K : Matrix (Fin 2) (Fin 2) ℝ} :
    heatConductivityReference (matOf (T.conj F)) = .ok (matOf (T.conj K)) ↔ heatConductivityReference (matOf F) = .ok (matOf K) := by
  rw [heat_eq h.ne', heat_eq (by rw [conj_det]; exact h.ne'), inv_conj, conj_det]
  have key : F.det • (T.conj F⁻¹ * (T.conj F⁻¹).transpose) = T.conj (F.det • (F⁻¹ * F⁻¹.transpose)) := by
    rw [Similarity.conj, Similarity.conj]
    cases T.swap
    · rfl
    · have hm : ∀ (M : Matrix (Fin 2) (Fin 2) ℝ) (i j : Fin 2), (F.det • (M * M.transpose)) i j =
          F.det * (M i 0 * M j 0 + M i 1 * M j 1) := by
        intro M i j
        simp [Matrix.mul_apply, Fin.sum_univ_two, Matrix.transpose_apply]
      ext i j
      simp only [if_true]
      rw [hm]
      simp only [hm]
      fin_cases i <;> fin_cases j <;> simp <;> exact Or.inl (by ring)
  rw [key]
  constructor
  · intro e
    have := matOf_injective (Except.ok.inj e)
    rw [← conj_conj (T := T) (F.det • _), this, conj_conj]
  · intro e
    rw [matOf_injective (Except.ok.inj e)]

theorem coupling_conj {F : Matrix (Fin 2) (Fin 2) ℝ} (h : 0 < F.det) (x : ℝ) {A : Matrix (Fin 2) (Fin 2) ℝ} :
    strainDerivativeCouplingPotential (matOf (T.conj F)) x = .ok (matOf (T.conj A)) ↔
      strainDerivativeCouplingPotential (matOf F) x = .ok (matOf A) := by
  have e1 := coupling_value (F := F) h x
  have e2 := coupling_value (F := T.conj F) (by rw [← conj_det (T := T)] at h; exact h) x
  have f1 : Matrix.of (F : Fin 2 → Fin 2 → ℝ) = F := rfl
  have f2 : Matrix.of (T.conj F : Fin 2 → Fin 2 → ℝ) = T.conj F := rfl
  rw [f1] at e1
  rw [f2] at e2
  rw [e1, e2]
  have key : (1 - Real.exp (-5 * x)) • (stressA (T.conj F) - stressM (T.conj F)) =
      T.conj ((1 - Real.exp (-5 * x)) • (stressA F - stressM F)) := by
    have d := conj_det (T := T) F
    have s := conj_fsq (T := T) F
    unfold stressA stressM
    rw [d, s]
    rw [Similarity.conj, Similarity.conj]
    cases T.swap
    · rfl
    · ext i j
      fin_cases i <;> fin_cases j <;> simp [cof] <;> ring
  rw [key]
  constructor
  · intro e
    have := matOf_injective (Except.ok.inj e)
    rw [← conj_conj (T := T) (_ • _), this, conj_conj]
  · intro e
    rw [matOf_injective (Except.ok.inj e)]

theorem heatCoeff_conj {F0 F : Matrix (Fin 2) (Fin 2) ℝ} (h : 0 < F0.det) {fps x : ℝ} {K : Matrix (Fin 2) (Fin 2) ℝ} {q : ℝ} :
    IsHeatCoeff fps (T.conj F0) (T.conj F) x (T.conj K) q ↔ IsHeatCoeff fps F0 F x K q := by
  have hs : ∀ A : Matrix (Fin 2) (Fin 2) ℝ, ∑ i, ∑ j, T.conj A i j * (fps * (T.conj F i j - T.conj F0 i j)) =
      ∑ i, ∑ j, A i j * (fps * (F i j - F0 i j)) := by
    intro A
    unfold Similarity.conj
    cases T.swap
    · rfl
    · simp [Fin.sum_univ_two]
      ring
  unfold IsHeatCoeff
  rw [heat_conj h, rate_conj]
  refine and_congr Iff.rfl (exists_congr fun ξ => ?_)
  constructor
  · rintro ⟨A, h1, h2, h3⟩
    refine ⟨T.conj A, h1, (coupling_conj h x).1 (by rwa [conj_conj]), ?_⟩
    rw [h3, ← hs, conj_conj]
  · rintro ⟨A, h1, h2, h3⟩
    exact ⟨T.conj A, h1, (coupling_conj h x).2 h2, by rw [h3, hs]⟩

end

end Tve
